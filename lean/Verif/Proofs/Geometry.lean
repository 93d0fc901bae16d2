import Verif.Spec.Geometry
import Mathlib.Tactic.Ring
import Mathlib.Tactic.LinearCombination
import Mathlib.Tactic.FieldSimp
import Mathlib.Tactic.NormNum
import Mathlib.Tactic.Positivity
import Mathlib.Tactic.Linarith

/-! # Lemmas about the linear algebra model -/
namespace Tf2

section Ring
variable {K : Type} [CommRing K]

@[simp] theorem Vec3.toH_re (q : Vec3 K) : q.toH.re = 0 := rfl
@[simp] theorem Vec3.toH_imI (q : Vec3 K) : q.toH.imI = q.x := rfl
@[simp] theorem Vec3.toH_imJ (q : Vec3 K) : q.toH.imJ = q.y := rfl
@[simp] theorem Vec3.toH_imK (q : Vec3 K) : q.toH.imK = q.z := rfl

theorem Quat.toH_inj {a b : Quat K} (h : a.toH = b.toH) : a = b := by
  have h1 := congrArg QuaternionAlgebra.re h
  have h2 := congrArg QuaternionAlgebra.imI h
  have h3 := congrArg QuaternionAlgebra.imJ h
  have h4 := congrArg QuaternionAlgebra.imK h
  exact Quat.ext h2 h3 h4 h1

@[simp] theorem Quat.toH_re (q : Quat K) : q.toH.re = q.w := rfl
@[simp] theorem Quat.toH_imI (q : Quat K) : q.toH.imI = q.x := rfl
@[simp] theorem Quat.toH_imJ (q : Quat K) : q.toH.imJ = q.y := rfl
@[simp] theorem Quat.toH_imK (q : Quat K) : q.toH.imK = q.z := rfl

theorem Quat.toH_mul (a b : Quat K) : (a.mul b).toH = a.toH * b.toH := by
  apply Quaternion.ext <;> simp [Quat.mul] <;> ring

theorem Quat.toH_inverse (a : Quat K) : a.inverse.toH = star a.toH := by
  apply Quaternion.ext <;> simp [Quat.inverse]

theorem Quat.toH_neg (a : Quat K) : a.neg.toH = - a.toH := by
  apply Quaternion.ext <;> simp [Quat.neg]

theorem Quat.toH_identity : (Quat.identity : Quat K).toH = 1 := by
  rfl

theorem Quat.normSq_toH (a : Quat K) : Quaternion.normSq a.toH = a.length2 := by
  rw [Quaternion.normSq_def']; simp [Quat.length2, Quat.dot]; ring

theorem Quat.length2_eq (a : Quat K) : a.length2 = a.x ^ 2 + a.y ^ 2 + a.z ^ 2 + a.w ^ 2 := by
  simp [Quat.length2, Quat.dot]; ring

theorem Quat.unit_iff (a : Quat K) : a.Unit ↔ a.length2 = 1 := by
  rw [Quat.length2_eq]; rfl

/-- `quatRotate(q, v)` is the vector part of `q v q*`. -/
theorem Quat.toH_rotate (q : Quat K) (v : Vec3 K) :
    (q.rotate v).toH = q.toH * v.toH * star q.toH := by
  apply Quaternion.ext <;>
    simp [Quat.rotate, Quat.mul, Quat.mulVec, Quat.inverse] <;> ring

theorem Quat.mul_assoc (a b c : Quat K) : (a.mul b).mul c = a.mul (b.mul c) := by
  ext <;> simp [Quat.mul] <;> ring

theorem Quat.length2_mul (a b : Quat K) : (a.mul b).length2 = a.length2 * b.length2 := by
  simp [Quat.mul, Quat.length2, Quat.dot]; ring

theorem Quat.Unit.mul {a b : Quat K} (ha : a.Unit) (hb : b.Unit) : (a.mul b).Unit := by
  rw [Quat.unit_iff] at *; rw [Quat.length2_mul, ha, hb, one_mul]

theorem Quat.Unit.inverse {a : Quat K} (ha : a.Unit) : a.inverse.Unit := by
  unfold Quat.Unit Quat.inverse at *; linear_combination ha

theorem Quat.Unit.neg {a : Quat K} (ha : a.Unit) : a.neg.Unit := by
  unfold Quat.Unit Quat.neg at *; linear_combination ha

theorem Quat.unit_identity : (Quat.identity : Quat K).Unit := by
  simp [Quat.Unit, Quat.identity]

theorem Quat.inverse_mul {a : Quat K} (ha : a.Unit) : a.inverse.mul a = Quat.identity := by
  unfold Quat.Unit at ha
  ext <;> simp [Quat.mul, Quat.inverse, Quat.identity] <;> first | ring1 | linear_combination ha

theorem Quat.mul_inverse {a : Quat K} (ha : a.Unit) : a.mul a.inverse = Quat.identity := by
  unfold Quat.Unit at ha
  ext <;> simp [Quat.mul, Quat.inverse, Quat.identity] <;> first | ring1 | linear_combination ha

theorem Quat.identity_mul (a : Quat K) : Quat.identity.mul a = a := by
  ext <;> simp [Quat.mul, Quat.identity]

theorem Quat.mul_identity (a : Quat K) : a.mul Quat.identity = a := by
  ext <;> simp [Quat.mul, Quat.identity]

theorem Quat.rotate_mul (a b : Quat K) (v : Vec3 K) : (a.mul b).rotate v = a.rotate (b.rotate v) := by
  ext <;> simp [Quat.mul, Quat.rotate, Quat.mulVec, Quat.inverse] <;> ring

theorem Quat.rotate_add (a : Quat K) (v w : Vec3 K) :
    a.rotate (v.add w) = (a.rotate v).add (a.rotate w) := by
  ext <;> simp [Quat.mul, Quat.rotate, Quat.mulVec, Quat.inverse, Vec3.add] <;> ring

theorem Quat.rotate_neg (a : Quat K) (v : Vec3 K) : a.rotate v.neg = (a.rotate v).neg := by
  ext <;> simp [Quat.mul, Quat.rotate, Quat.mulVec, Quat.inverse, Vec3.neg] <;> ring

theorem Quat.rotate_identity (v : Vec3 K) : (Quat.identity : Quat K).rotate v = v := by
  ext <;> simp [Quat.mul, Quat.rotate, Quat.mulVec, Quat.inverse, Quat.identity]

theorem Quat.neg_rotate (a : Quat K) (v : Vec3 K) : a.neg.rotate v = a.rotate v := by
  ext <;> simp [Quat.mul, Quat.rotate, Quat.mulVec, Quat.inverse, Quat.neg] <;> ring

theorem Quat.rotate_zero (a : Quat K) : a.rotate Vec3.zero = Vec3.zero := by
  ext <;> simp [Quat.mul, Quat.rotate, Quat.mulVec, Quat.inverse, Vec3.zero]

/-- rotation preserves dot products up to the squared norm squared. -/
theorem Quat.rotate_dot (a : Quat K) (v w : Vec3 K) :
    (a.rotate v).dot (a.rotate w) = a.length2 ^ 2 * v.dot w := by
  simp [Quat.mul, Quat.rotate, Quat.mulVec, Quat.inverse, Vec3.dot, Quat.length2, Quat.dot]; ring

theorem Mat3.toM_inj {a b : Mat3 K} (h : a.toM = b.toM) : a = b := by
  have e := fun i j => congrFun (congrFun h i) j
  ext
  · simpa [Mat3.toM] using e 0 0
  · simpa [Mat3.toM] using e 0 1
  · simpa [Mat3.toM] using e 0 2
  · simpa [Mat3.toM] using e 1 0
  · simpa [Mat3.toM] using e 1 1
  · simpa [Mat3.toM] using e 1 2
  · simpa [Mat3.toM] using e 2 0
  · simpa [Mat3.toM] using e 2 1
  · simpa [Mat3.toM] using e 2 2

theorem Vec3.toV_inj {a b : Vec3 K} (h : a.toV = b.toV) : a = b := by
  ext
  · simpa [Vec3.toV] using congrFun h 0
  · simpa [Vec3.toV] using congrFun h 1
  · simpa [Vec3.toV] using congrFun h 2

theorem Mat3.toM_mul (a b : Mat3 K) : (a.mul b).toM = a.toM * b.toM := by
  ext i j
  fin_cases i <;> fin_cases j <;>
    simp [Mat3.toM, Mat3.mul, Mat3.tdotx, Mat3.tdoty, Mat3.tdotz, Matrix.mul_apply, Fin.sum_univ_three] <;> ring

theorem Mat3.toM_identity : (Mat3.identity : Mat3 K).toM = 1 := by
  ext i j
  fin_cases i <;> fin_cases j <;> simp [Mat3.toM, Mat3.identity]

theorem Mat3.toM_transpose (a : Mat3 K) : a.transpose.toM = a.toM.transpose := by
  ext i j
  fin_cases i <;> fin_cases j <;> simp [Mat3.toM, Mat3.transpose]

theorem Mat3.toM_transposeTimes (a b : Mat3 K) :
    (a.transposeTimes b).toM = a.toM.transpose * b.toM := by
  ext i j
  fin_cases i <;> fin_cases j <;>
    simp [Mat3.toM, Mat3.transposeTimes, Matrix.mul_apply, Fin.sum_univ_three]

theorem Mat3.toM_timesTranspose (a b : Mat3 K) :
    (a.timesTranspose b).toM = a.toM * b.toM.transpose := by
  ext i j
  fin_cases i <;> fin_cases j <;>
    simp [Mat3.toM, Mat3.timesTranspose, Vec3.dot, Matrix.mul_apply, Fin.sum_univ_three]

theorem Mat3.toV_mulVec (m : Mat3 K) (v : Vec3 K) : (m.mulVec v).toV = m.toM.mulVec v.toV := by
  ext i
  fin_cases i <;> simp [Mat3.toM, Mat3.mulVec, Vec3.toV, Vec3.dot, Matrix.mulVec, dotProduct, Fin.sum_univ_three]

theorem Mat3.toV_vecMul (m : Mat3 K) (v : Vec3 K) : (Mat3.vecMul v m).toV = Matrix.vecMul v.toV m.toM := by
  ext i
  fin_cases i <;>
    simp [Mat3.toM, Mat3.vecMul, Mat3.tdotx, Mat3.tdoty, Mat3.tdotz, Vec3.toV, Matrix.vecMul, dotProduct,
      Fin.sum_univ_three] <;> ring

theorem Mat3.det_toM (m : Mat3 K) : m.toM.det = m.determinant := by
  simp [Mat3.toM, Mat3.determinant, Vec3.triple, Matrix.det_fin_three]; ring

theorem Mat3.toM_adjoint (m : Mat3 K) : m.adjoint.toM = m.toM.adjugate := by
  rw [Matrix.adjugate_fin_three]
  ext i j
  fin_cases i <;> fin_cases j <;>
    simp [Mat3.toM, Mat3.adjoint, Mat3.cofac, Mat3.el, Mat3.row] <;> ring

theorem Vec3.toV_add (a b : Vec3 K) : (a.add b).toV = a.toV + b.toV := by
  ext i; fin_cases i <;> simp [Vec3.toV, Vec3.add]
theorem Vec3.toV_sub (a b : Vec3 K) : (a.sub b).toV = a.toV - b.toV := by
  ext i; fin_cases i <;> simp [Vec3.toV, Vec3.sub]
theorem Vec3.toV_neg (a : Vec3 K) : a.neg.toV = - a.toV := by
  ext i; fin_cases i <;> simp [Vec3.toV, Vec3.neg]
theorem Vec3.toV_zero : (Vec3.zero : Vec3 K).toV = 0 := by
  ext i; fin_cases i <;> simp [Vec3.toV, Vec3.zero]
theorem Vec3.toV_scale (a : Vec3 K) (s : K) : (a.scale s).toV = s • a.toV := by
  ext i; fin_cases i <;> simp [Vec3.toV, Vec3.scale, mul_comm]
theorem Vec3.toV_cross (a b : Vec3 K) : (a.cross b).toV = crossProduct a.toV b.toV := by
  rw [cross_apply]; ext i; fin_cases i <;> simp [Vec3.toV, Vec3.cross]
theorem Vec3.dot_eq (a b : Vec3 K) : a.dot b = a.toV ⬝ᵥ b.toV := by
  simp [Vec3.dot, Vec3.toV, dotProduct, Fin.sum_univ_three]

end Ring

theorem Xform.act_eq (t : Xform ℝ) (v : Vec3 ℝ) : (t.apply v).toV = t.act v.toV := by
  ext i
  fin_cases i <;> simp [Xform.apply, Xform.act, Mat3.toM, Vec3.toV, Vec3.dot, Matrix.mulVec, dotProduct, Fin.sum_univ_three] <;> ring

section Field
variable {F : Type} [Field F]

theorem Mat3.toM_inverse (m : Mat3 F) (h : m.toM.det ≠ 0) : m.inverse.toM = m.toM⁻¹ := by
  symm
  apply Matrix.inv_eq_right_inv
  have hd : m.r0.dot ⟨m.cofac 1 1 2 2, m.cofac 1 2 2 0, m.cofac 1 0 2 1⟩ = m.toM.det := by
    simp [Mat3.toM, Vec3.dot, Mat3.cofac, Mat3.el, Mat3.row, Matrix.det_fin_three]; ring
  rw [← hd] at h
  ext i j
  fin_cases i <;> fin_cases j <;>
    simp [Mat3.toM, Mat3.inverse, Matrix.mul_apply, Fin.sum_univ_three] <;>
    field_simp <;>
    simp [Vec3.dot, Mat3.cofac, Mat3.el, Mat3.row] <;> ring

/-- the matrix of a quaternion of nonzero norm rotates as `quatRotate` scaled by the norm. -/
theorem Mat3.ofQuat_mulVec (q : Quat F) (h : q.length2 ≠ 0) (v : Vec3 F) :
    ((Mat3.ofQuat q).mulVec v).scale q.length2 = q.rotate v := by
  have h' : q.x ^ 2 + q.y ^ 2 + q.z ^ 2 + q.w ^ 2 ≠ 0 := by rwa [← Quat.length2_eq]
  ext <;>
    simp only [Mat3.ofQuat, Mat3.mulVec, Vec3.dot, Vec3.scale, Quat.rotate, Quat.mul, Quat.mulVec, Quat.inverse,
      Quat.length2_eq] <;>
    field_simp <;> ring

theorem Mat3.ofQuat_mulVec_unit (q : Quat F) (h : q.Unit) (v : Vec3 F) :
    (Mat3.ofQuat q).mulVec v = q.rotate v := by
  have h1 := (Quat.unit_iff q).1 h
  have := Mat3.ofQuat_mulVec q (by rw [h1]; exact one_ne_zero) v
  rw [h1] at this
  rw [← this]
  ext <;> simp [Vec3.scale]

theorem Mat3.ofQuat_mul (a b : Quat F) (ha : a.length2 ≠ 0) (hb : b.length2 ≠ 0) :
    Mat3.ofQuat (a.mul b) = (Mat3.ofQuat a).mul (Mat3.ofQuat b) := by
  have h' : a.x ^ 2 + a.y ^ 2 + a.z ^ 2 + a.w ^ 2 ≠ 0 := by rwa [← Quat.length2_eq]
  have h'' : b.x ^ 2 + b.y ^ 2 + b.z ^ 2 + b.w ^ 2 ≠ 0 := by rwa [← Quat.length2_eq]
  ext <;>
    simp only [Mat3.ofQuat, Mat3.mul, Mat3.tdotx, Mat3.tdoty, Mat3.tdotz, Quat.length2_mul] <;>
    simp only [Quat.length2_eq, Quat.mul] <;>
    field_simp <;> ring

theorem Mat3.ofQuat_inverse (a : Quat F) : Mat3.ofQuat a.inverse = (Mat3.ofQuat a).transpose := by
  have : a.inverse.length2 = a.length2 := by simp [Quat.length2_eq, Quat.inverse]
  ext <;> simp only [Mat3.ofQuat, Mat3.transpose, this] <;> simp [Quat.inverse] <;> ring

theorem Mat3.ofQuat_neg (a : Quat F) : Mat3.ofQuat a.neg = Mat3.ofQuat a := by
  have : a.neg.length2 = a.length2 := by simp [Quat.length2_eq, Quat.neg]
  ext <;> simp only [Mat3.ofQuat, this] <;> simp [Quat.neg]

theorem Mat3.ofQuat_identity : Mat3.ofQuat (Quat.identity : Quat F) = Mat3.identity := by
  ext <;> simp [Mat3.ofQuat, Quat.identity, Mat3.identity]

theorem Mat3.ofQuat_mul_transpose (q : Quat F) (h : q.length2 ≠ 0) :
    (Mat3.ofQuat q).mul (Mat3.ofQuat q).transpose = Mat3.identity := by
  have h' : q.x ^ 2 + q.y ^ 2 + q.z ^ 2 + q.w ^ 2 ≠ 0 := by rwa [← Quat.length2_eq]
  ext <;>
    simp only [Mat3.ofQuat, Mat3.mul, Mat3.tdotx, Mat3.tdoty, Mat3.tdotz, Mat3.transpose, Mat3.identity,
      Quat.length2_eq] <;>
    field_simp <;> ring

theorem Mat3.ofQuat_det (q : Quat F) (h : q.length2 ≠ 0) : (Mat3.ofQuat q).determinant = 1 := by
  have h' : q.x ^ 2 + q.y ^ 2 + q.z ^ 2 + q.w ^ 2 ≠ 0 := by rwa [← Quat.length2_eq]
  simp only [Mat3.ofQuat, Mat3.determinant, Vec3.triple, Quat.length2_eq]
  field_simp; ring

end Field

theorem Mat3.isRotation_iff (m : Mat3 ℝ) :
    m.IsRotation ↔ m.mul m.transpose = Mat3.identity ∧ m.determinant = 1 := by
  unfold Mat3.IsRotation
  rw [Matrix.mem_specialOrthogonalGroup_iff, Matrix.mem_orthogonalGroup_iff, Mat3.det_toM]
  constructor
  · rintro ⟨h, hd⟩
    refine ⟨Mat3.toM_inj ?_, hd⟩
    rw [Mat3.toM_mul, Mat3.toM_transpose, Mat3.toM_identity]; simpa [Matrix.star_eq_conjTranspose] using h
  · rintro ⟨h, hd⟩
    refine ⟨?_, hd⟩
    have := congrArg Mat3.toM h
    rw [Mat3.toM_mul, Mat3.toM_transpose, Mat3.toM_identity] at this
    simpa [Matrix.star_eq_conjTranspose] using this

theorem Mat3.ofQuat_isRotation (q : Quat ℝ) (h : q.length2 ≠ 0) : (Mat3.ofQuat q).IsRotation :=
  (Mat3.isRotation_iff _).2 ⟨Mat3.ofQuat_mul_transpose q h, Mat3.ofQuat_det q h⟩

theorem Quat.Unit.ne {q : Quat ℝ} (h : q.Unit) : q.length2 ≠ 0 := by
  rw [(Quat.unit_iff q).1 h]; exact one_ne_zero

theorem Quat.length2_ne_zero {q : Quat ℝ} (h : q ≠ ⟨0, 0, 0, 0⟩) : q.length2 ≠ 0 := by
  intro h0
  rw [Quat.length2_eq] at h0
  apply h
  have h1 := sq_nonneg q.x
  have h2 := sq_nonneg q.y
  have h3 := sq_nonneg q.z
  have h4 := sq_nonneg q.w
  ext
  · exact (pow_eq_zero_iff two_ne_zero).1 (by linarith)
  · exact (pow_eq_zero_iff two_ne_zero).1 (by linarith)
  · exact (pow_eq_zero_iff two_ne_zero).1 (by linarith)
  · exact (pow_eq_zero_iff two_ne_zero).1 (by linarith)

end Tf2
