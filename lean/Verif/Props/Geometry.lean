import Verif.Proofs.GetRotation
import Verif.Proofs.Euler

/-!
# Properties of the linear algebra classes: C28, C29, C30, C31

Matrices, vectors and quaternions are compared with Mathlib's through the embeddings of
`Verif.Spec.Geometry`.
-/
namespace Tf2

/-! ## C28: quaternions and matrices -/

/-- **C28, the products are the mathematical ones.** `operator*` of quaternions is quaternion
multiplication, `inverse()` is conjugation, `quatRotate(q, v)` is `q v q*`; `operator*`,
`transpose()`, `determinant()`, `inverse()` of matrices are the matrix operations. -/
theorem C28_operations :
    (∀ a b : Quat ℝ, (a.mul b).toH = a.toH * b.toH) ∧
    (∀ a : Quat ℝ, a.inverse.toH = star a.toH) ∧
    (∀ (q : Quat ℝ) (v : Vec3 ℝ), (q.rotate v).toH = q.toH * v.toH * star q.toH) ∧
    (∀ a b : Mat3 ℝ, (a.mul b).toM = a.toM * b.toM) ∧
    (∀ a : Mat3 ℝ, a.transpose.toM = a.toM.transpose) ∧
    (∀ a : Mat3 ℝ, a.determinant = a.toM.det) ∧
    (∀ a : Mat3 ℝ, a.toM.det ≠ 0 → a.inverse.toM = a.toM⁻¹) ∧
    (∀ a : Mat3 ℝ, a.adjoint.toM = a.toM.adjugate) ∧
    (∀ (m : Mat3 ℝ) (v : Vec3 ℝ), (m.mulVec v).toV = m.toM.mulVec v.toV) :=
  ⟨Quat.toH_mul, Quat.toH_inverse, Quat.toH_rotate, Mat3.toM_mul, Mat3.toM_transpose,
    fun a => (Mat3.det_toM a).symm, Mat3.toM_inverse, Mat3.toM_adjoint, Mat3.toV_mulVec⟩

/-- **C28, quaternion to matrix.** The matrix of a quaternion (unit or only nonzero) is orthogonal
with determinant 1; for a unit quaternion it moves every vector as conjugation by the quaternion
does. -/
theorem C28_matrix_of_quaternion (q : Quat ℝ) (h : q ≠ ⟨0, 0, 0, 0⟩) :
    (Mat3.ofQuat q).toM ∈ Matrix.specialOrthogonalGroup (Fin 3) ℝ ∧
    (q.Unit → ∀ v : Vec3 ℝ, ((Mat3.ofQuat q).mulVec v).toH = q.toH * v.toH * star q.toH) := by
  refine ⟨Mat3.ofQuat_isRotation q (Quat.length2_ne_zero h), fun hu v => ?_⟩
  rw [Mat3.ofQuat_mulVec_unit q hu, Quat.toH_rotate]

/-- **C28, matrix to quaternion.** For every rotation matrix, in every branch of `getRotation`, the
quaternion read back is a unit quaternion whose matrix is the given one. -/
theorem C28_quaternion_of_matrix (m : Mat3 ℝ)
    (h : m.toM ∈ Matrix.specialOrthogonalGroup (Fin 3) ℝ) :
    m.getRotation.Unit ∧ Mat3.ofQuat m.getRotation = m :=
  Mat3.getRotation_spec h

/-- **C28, round trip.** A unit quaternion read back from its matrix is itself or its negative. -/
theorem C28_round_trip (q : Quat ℝ) (h : q.Unit) :
    (Mat3.ofQuat q).getRotation = q ∨ (Mat3.ofQuat q).getRotation = q.neg :=
  Mat3.getRotation_ofQuat h

/-- The matrix map is a homomorphism. -/
theorem C28_homomorphism (a b : Quat ℝ) (ha : a.Unit) (hb : b.Unit) :
    (Mat3.ofQuat (a.mul b)).toM = (Mat3.ofQuat a).toM * (Mat3.ofQuat b).toM := by
  rw [Mat3.ofQuat_mul a b ha.ne hb.ne, Mat3.toM_mul]

/-- A unit quaternion that is no coordinate rotation, exercising the last branch (trace ≤ 0, largest
diagonal entry last): round trip changes its sign. -/
example : (⟨-2/7, -3/7, -6/7, 0⟩ : Quat ℝ).Unit ∧
    (Mat3.ofQuat (⟨-2/7, -3/7, -6/7, 0⟩ : Quat ℝ)).r0.x +
    (Mat3.ofQuat (⟨-2/7, -3/7, -6/7, 0⟩ : Quat ℝ)).r1.y +
    (Mat3.ofQuat (⟨-2/7, -3/7, -6/7, 0⟩ : Quat ℝ)).r2.z ≤ 0 := by
  constructor
  · unfold Quat.Unit; norm_num
  · simp only [Mat3.ofQuat, Quat.length2, Quat.dot]; norm_num

/-! ## C29: rigid transforms -/

/-- **C29.** `Transform` multiplication is associative with the identity neutral, acts on points as
composition of the affine maps, and for orthogonal bases `inverse()` is the two-sided inverse,
`inverseTimes(t)` is `inverse()*t`, and `invXform` undoes application. -/
theorem C29_group (a b c : Xform ℝ) :
    (a.mul b).mul c = a.mul (b.mul c) ∧ Xform.identity.mul a = a ∧ a.mul Xform.identity = a ∧
    (∀ v, (a.mul b).act v = a.act (b.act v)) ∧
    (∀ v : Vec3 ℝ, (a.apply v).toV = a.act v.toV) ∧
    a.mulAssign b = a.mul b := by
  have hassoc : (a.mul b).mul c = a.mul (b.mul c) := by
    ext <;> simp [Xform.mul, Xform.apply, Mat3.mul, Mat3.tdotx, Mat3.tdoty, Mat3.tdotz, Vec3.dot] <;> ring
  refine ⟨hassoc, ?_, ?_, ?_, Xform.act_eq a, ?_⟩
  · ext <;> simp [Xform.mul, Xform.apply, Xform.identity, Mat3.identity, Vec3.zero, Mat3.mul, Mat3.tdotx, Mat3.tdoty,
      Mat3.tdotz, Vec3.dot]
  · ext <;> simp [Xform.mul, Xform.apply, Xform.identity, Mat3.identity, Vec3.zero, Mat3.mul, Mat3.tdotx, Mat3.tdoty,
      Mat3.tdotz, Vec3.dot]
  · intro v
    unfold Xform.act
    have : (a.mul b).origin.toV = a.basis.toM.mulVec b.origin.toV + a.origin.toV := Xform.act_eq a b.origin
    rw [this]
    simp only [Xform.mul, Mat3.toM_mul, Matrix.mulVec_add, ← Matrix.mulVec_mulVec, add_assoc]
  · ext <;> simp [Xform.mul, Xform.apply, Xform.mulAssign, Mat3.mulVec, Vec3.add, Vec3.dot, add_comm]

theorem C29_inverse (a t : Xform ℝ) (h : a.basis.toM ∈ Matrix.orthogonalGroup (Fin 3) ℝ) :
    a.mul a.inverse = Xform.identity ∧ a.inverse.mul a = Xform.identity ∧
    a.inverseTimes t = a.inverse.mul t ∧
    (∀ v, a.invXform (a.apply v) = v) ∧ (∀ v, a.apply (a.invXform v) = v) := by
  have hr : a.basis.mul a.basis.transpose = Mat3.identity := by
    apply Mat3.toM_inj
    rw [Mat3.toM_mul, Mat3.toM_transpose, Mat3.toM_identity]
    simpa [Matrix.star_eq_conjTranspose] using (Matrix.mem_orthogonalGroup_iff _ _).1 h
  have hc : a.basis.transpose.mul a.basis = Mat3.identity := by
    apply Mat3.toM_inj
    rw [Mat3.toM_mul, Mat3.toM_transpose, Mat3.toM_identity]
    simpa [Matrix.star_eq_conjTranspose] using (Matrix.mem_orthogonalGroup_iff' _ _).1 h
  have mm : ∀ (p q : Mat3 ℝ) v, p.mulVec (q.mulVec v) = (p.mul q).mulVec v := by
    intro p q v
    apply Vec3.toV_inj
    rw [Mat3.toV_mulVec, Mat3.toV_mulVec, Mat3.toV_mulVec, Mat3.toM_mul, Matrix.mulVec_mulVec]
  have mi : ∀ v : Vec3 ℝ, (Mat3.identity : Mat3 ℝ).mulVec v = v := by
    intro v; ext <;> simp [Mat3.mulVec, Mat3.identity, Vec3.dot]
  have ap : ∀ (x : Xform ℝ) v, x.apply v = (x.basis.mulVec v).add x.origin := fun _ _ => rfl
  have ma : ∀ (p : Mat3 ℝ) v w, p.mulVec (v.add w) = (p.mulVec v).add (p.mulVec w) := by
    intro p v w; ext <;> simp [Mat3.mulVec, Vec3.add, Vec3.dot] <;> ring
  have mn : ∀ (p : Mat3 ℝ) v, p.mulVec v.neg = (p.mulVec v).neg := by
    intro p v; ext <;> simp [Mat3.mulVec, Vec3.neg, Vec3.dot] <;> ring
  refine ⟨?_, ?_, ?_, ?_, ?_⟩
  · ext1
    · exact hr
    · simp only [Xform.mul, Xform.inverse, ap, mm, hr, mi, Xform.identity]
      ext <;> simp [Vec3.add, Vec3.neg, Vec3.zero]
  · ext1
    · exact hc
    · simp only [Xform.mul, Xform.inverse, ap, mn, Xform.identity]
      ext <;> simp [Vec3.add, Vec3.neg, Vec3.zero]
  · ext1
    · apply Mat3.toM_inj
      simp only [Xform.inverseTimes, Xform.mul, Xform.inverse, Mat3.toM_transposeTimes, Mat3.toM_mul,
        Mat3.toM_transpose]
    · simp only [Xform.inverseTimes, Xform.mul, Xform.inverse, ap]
      ext <;> simp [Mat3.vecMul, Mat3.tdotx, Mat3.tdoty, Mat3.tdotz, Mat3.mulVec, Mat3.transpose, Vec3.add,
        Vec3.sub, Vec3.neg, Vec3.dot] <;> ring
  · intro v
    have : ((a.basis.mulVec v).add a.origin).sub a.origin = a.basis.mulVec v := by
      ext <;> simp [Vec3.add, Vec3.sub]
    simp only [Xform.invXform, ap, this, mm, hc, mi]
  · intro v
    simp only [Xform.invXform, ap, mm, hr, mi]
    ext <;> simp [Vec3.add, Vec3.sub]

/-- A transform with an orthogonal basis that is neither the identity nor a coordinate swap. -/
example : (Xform.ofQuat (⟨2/7, 3/7, 6/7, 0⟩ : Quat ℝ) ⟨1, 2, 3⟩).basis.toM ∈ Matrix.orthogonalGroup (Fin 3) ℝ := by
  have := Mat3.ofQuat_isRotation (⟨2/7, 3/7, 6/7, 0⟩ : Quat ℝ)
    (by simp only [Quat.length2, Quat.dot]; norm_num)
  exact (Matrix.mem_specialOrthogonalGroup_iff.1 this).1

/-! ## C30: roll, pitch, yaw -/

/-- **C30, construction.** `Matrix3x3::setRPY(r,p,y)` is `Rz(y) Ry(p) Rx(r)`;
`Quaternion::setRPY(r,p,y)` is a unit quaternion of the same rotation; `Quaternion::setEuler(y,p,r)`
is a unit quaternion of `Ry(y) Rx(p) Rz(r)`. -/
theorem C30_construction (r p y : ℝ) :
    (Mat3.ofRPY r p y).toM = rotZ y * rotY p * rotX r ∧
    (Quat.ofRPY r p y).Unit ∧ (Mat3.ofQuat (Quat.ofRPY r p y)).toM = rotZ y * rotY p * rotX r ∧
    (Quat.ofEuler y p r).Unit ∧ (Mat3.ofQuat (Quat.ofEuler y p r)).toM = rotY y * rotX p * rotZ r :=
  ⟨ofRPY_toM r p y, quat_ofRPY_unit r p y, by rw [quat_ofRPY_eq, ofRPY_toM], quat_ofEuler_unit y p r,
    quat_ofEuler_toM y p r⟩

/-- **C30, extraction.** Away from gimbal lock (third row not starting with ±1) both solutions of
`getEulerYPR` rebuild the matrix; the first has its pitch strictly between -π/2 and π/2. -/
theorem C30_extraction (m : Mat3 ℝ) (h : m.toM ∈ Matrix.specialOrthogonalGroup (Fin 3) ℝ)
    (hg : |m.r2.x| < 1) (n : Nat) :
    let e := m.getEulerYPR n
    rotZ e.yaw * rotY e.pitch * rotX e.roll = m.toM ∧
    (n = 1 → -(Real.pi / 2) < e.pitch ∧ e.pitch < Real.pi / 2) := by
  intro e
  refine ⟨?_, ?_⟩
  · rw [← ofRPY_toM]; exact congrArg Mat3.toM (ofRPY_getEulerYPR h hg n)
  · rintro rfl
    have he : e = m.getEulerYPR 1 := rfl
    have hp : e.pitch = -Real.arcsin m.r2.x := by
      rw [he]; simp [Mat3.getEulerYPR, not_le.2 hg, tf2Asin_eq]
    rw [hp]
    rw [abs_lt] at hg
    have h1 := Real.neg_pi_div_two_lt_arcsin.2 hg.1
    have h2 := Real.arcsin_lt_pi_div_two.2 hg.2
    constructor <;> linarith

/-- **C30, gimbal lock (finding).** At gimbal lock `getEulerYPR` always returns yaw 0 and roll 0 (it
reads `atan2` of two entries that are zero there), so it rebuilds the matrix only when the matrix is
exactly `Ry(±π/2)`: the rotation about the vertical is lost. -/
theorem C30_gimbal_finding (m : Mat3 ℝ) (h : m.toM ∈ Matrix.specialOrthogonalGroup (Fin 3) ℝ)
    (hg : 1 ≤ |m.r2.x|) (n : Nat) :
    let e := m.getEulerYPR n
    e.yaw = 0 ∧ e.roll = 0 ∧ (e.pitch = Real.pi / 2 ∨ e.pitch = -(Real.pi / 2)) ∧
    (rotZ e.yaw * rotY e.pitch * rotX e.roll = m.toM ↔ m.toM = rotY e.pitch) := by
  intro e
  obtain ⟨h1, h2, h3⟩ := getEulerYPR_gimbal h hg n
  refine ⟨h1, h2, h3, ?_⟩
  have e1 : e.yaw = 0 := h1
  have e2 : e.roll = 0 := h2
  rw [e1, e2, rotZ_zero, rotX_zero, Matrix.one_mul, Matrix.mul_one]
  exact eq_comm

/-- A rotation matrix at gimbal lock that is not rebuilt: `Rz(π/2) Ry(π/2)`. -/
theorem C30_gimbal_counterexample :
    ∃ m : Mat3 ℝ, m.toM ∈ Matrix.specialOrthogonalGroup (Fin 3) ℝ ∧
      Mat3.ofEulerYPR (m.getEulerYPR 1).yaw (m.getEulerYPR 1).pitch (m.getEulerYPR 1).roll ≠ m := by
  let q : Quat ℝ := ⟨-1/2, 1/2, 1/2, 1/2⟩
  have hq : q.length2 = 1 := by simp only [q, Quat.length2, Quat.dot]; norm_num
  have hm := Mat3.ofQuat_isRotation q (by rw [hq]; exact one_ne_zero)
  have h20 : (Mat3.ofQuat q).r2.x = -1 := by simp only [Mat3.ofQuat, hq, q]; norm_num
  refine ⟨Mat3.ofQuat q, hm, fun hc => ?_⟩
  have hf := C30_gimbal_finding _ hm (by rw [h20]; norm_num) 1
  simp only at hf
  have h01 := congrArg (fun m => m.r0.y) hc
  simp only [Mat3.ofEulerYPR, hf.1, hf.2.1] at h01
  simp only [Mat3.ofQuat, q, Quat.length2, Quat.dot] at h01
  norm_num at h01

example : ∃ m : Mat3 ℝ, m.toM ∈ Matrix.specialOrthogonalGroup (Fin 3) ℝ ∧ |m.r2.x| < 1 ∧ m.r0.y ≠ 0 := by
  have hq : (⟨2/7, 3/7, 6/7, 0⟩ : Quat ℝ).length2 = 1 := by simp only [Quat.length2, Quat.dot]; norm_num
  refine ⟨Mat3.ofQuat ⟨2/7, 3/7, 6/7, 0⟩, Mat3.ofQuat_isRotation _ (by rw [hq]; exact one_ne_zero), ?_, ?_⟩
  · simp only [Mat3.ofQuat, hq]; norm_num [abs_lt]
  · simp only [Mat3.ofQuat, hq]; norm_num

/-! ## C31: `tf2::getEulerYPR` and `tf2::getYaw` -/

/-- **C31, away from gimbal lock.** For every nonzero quaternion whose pitch sine is below the
threshold 0.99999 in absolute value, `tf2::getEulerYPR` returns exactly the angles of
`Matrix3x3(q).getEulerYPR`, these rebuild the rotation of `q`, and `getYaw` is the yaw. -/
theorem C31_equivalent (q : Quat ℝ) (h : q ≠ ⟨0, 0, 0, 0⟩) (hs : |sarg q| < 0.99999) :
    utilGetEulerYPR q = (Mat3.ofQuat q).getEulerYPR 1 ∧
    Mat3.ofEulerYPR (utilGetEulerYPR q).yaw (utilGetEulerYPR q).pitch (utilGetEulerYPR q).roll =
      Mat3.ofQuat q ∧
    utilGetYaw q = (utilGetEulerYPR q).yaw := by
  have hrot : (Mat3.ofQuat q).IsRotation := (C28_matrix_of_quaternion q h).1
  have hne : q.length2 ≠ 0 := Quat.length2_ne_zero h
  have hsm : (Mat3.ofQuat q).r2.x = - sarg q := by
    have h' : q.x ^ 2 + q.y ^ 2 + q.z ^ 2 + q.w ^ 2 ≠ 0 := by rwa [← Quat.length2_eq]
    simp only [Mat3.ofQuat, sarg, Quat.length2_eq]; field_simp
  have h1 := util_eq hne hs
  refine ⟨h1, ?_, ?_⟩
  · rw [h1]
    exact ofRPY_getEulerYPR hrot (by rw [hsm, abs_neg]; linarith) 1
  · exact util_yaw_eq q

/-- `getYaw` is the yaw of `getEulerYPR` for every quaternion, in all branches. -/
theorem C31_yaw (q : Quat ℝ) : utilGetYaw q = (utilGetEulerYPR q).yaw := util_yaw_eq q

/-- **C31, gimbal lock (finding).** For every unit quaternion pitched up exactly 90°, the returned
angles are those of the rotation turned by another 180° about the vertical axis - never those of
`q`. -/
theorem C31_gimbal_finding (q : Quat ℝ) (h : q.Unit) (hs : sarg q = 1) :
    rotZ (utilGetEulerYPR q).yaw * rotY (utilGetEulerYPR q).pitch * rotX (utilGetEulerYPR q).roll =
      rotZ Real.pi * (Mat3.ofQuat q).toM ∧
    rotZ (utilGetEulerYPR q).yaw * rotY (utilGetEulerYPR q).pitch * rotX (utilGetEulerYPR q).roll ≠
      (Mat3.ofQuat q).toM := util_gimbal h hs

/-- The hypotheses are met: pitch 90° and nothing else, `(0, √½, 0, √½)`. -/
example : (⟨0, Real.sqrt (1/2), 0, Real.sqrt (1/2)⟩ : Quat ℝ).Unit ∧
    sarg ⟨0, Real.sqrt (1/2), 0, Real.sqrt (1/2)⟩ = 1 := by
  have : Real.sqrt (1/2) ^ 2 = 1/2 := Real.sq_sqrt (by norm_num)
  constructor
  · unfold Quat.Unit; rw [this]; norm_num
  · unfold sarg
    have h2 : Real.sqrt (1/2) * Real.sqrt (1/2) = 1/2 := by rw [← pow_two]; exact this
    rw [this, h2]; norm_num

example : (⟨1/2, 1/2, 1/2, 1/2⟩ : Quat ℝ) ≠ ⟨0, 0, 0, 0⟩ ∧ |sarg ⟨1/2, 1/2, 1/2, 1/2⟩| < 0.99999 := by
  constructor
  · intro h; have := congrArg Quat.x h; norm_num at this
  · unfold sarg; norm_num

end Tf2
