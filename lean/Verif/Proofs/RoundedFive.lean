import Verif.Proofs.RoundedProduct
import Verif.Proofs.RoundedWalk

/-!
# The error of the product of two transforms
-/
namespace Tf2

namespace Quat

theorem length_pos {q : Quat ℝ} (h : 0 < q.length) : q.length2 ≠ 0 := by
  rw [← length_sq]; positivity

theorem normalize_unit {q : Quat ℝ} (h : 0 < q.length) : q.normalize.Unit := by
  have h2 := length_sq q
  have e : q.x ^ 2 + q.y ^ 2 + q.z ^ 2 + q.w ^ 2 = q.length ^ 2 := by rw [h2]; simp only [length2, dot]; ring
  unfold Unit normalize scale
  field_simp
  linarith

theorem ofQuat_normalize {q : Quat ℝ} (h : 0 < q.length) : Mat3.ofQuat q.normalize = Mat3.ofQuat q := by
  have h1 := (unit_iff _).1 (normalize_unit h)
  have e := length_sq q
  ext <;> simp only [Mat3.ofQuat, h1, ← e] <;> simp only [normalize, scale] <;> field_simp

theorem apart_scale_right (x y : Quat ℝ) (t : ℝ) : (x.scale t).apart (y.scale t) = x.apart y * |t| := by
  unfold apart scale
  rw [← Real.sqrt_sq_eq_abs, ← Real.sqrt_mul (by positivity)]
  congr 1; ring

theorem apart_scale_left (x : Quat ℝ) (s t : ℝ) : (x.scale s).apart (x.scale t) = x.length * |s - t| := by
  unfold apart scale length length2 dot
  rw [← Real.sqrt_sq_eq_abs, ← Real.sqrt_mul (by nlinarith [mul_self_nonneg x.x, mul_self_nonneg x.y, mul_self_nonneg x.z, mul_self_nonneg x.w])]
  congr 1; ring

theorem apart_normalize {x y : Quat ℝ} (hx : 0 < x.length) (hy : 0 < y.length) :
    x.normalize.apart y.normalize ≤ 2 * x.apart y / y.length := by
  refine (apart_triangle _ (x.scale (1 / y.length)) _).trans ?_
  unfold normalize
  rw [apart_scale_left, apart_scale_right, abs_of_pos (by positivity : 0 < 1 / y.length)]
  have e1 : x.length * |1 / x.length - 1 / y.length| = |y.length - x.length| / y.length := by
    rw [← abs_of_pos hx, ← abs_mul, abs_of_pos hx]
    rw [← abs_of_pos hy, ← abs_div, abs_of_pos hy]
    congr 1
    field_simp
  rw [e1]
  have h1 : |y.length - x.length| ≤ x.apart y := by
    have a := length_le_apart x y
    have b := length_le_apart y x
    rw [apart_comm] at b
    exact abs_le.2 ⟨by linarith, by linarith⟩
  have h2 := div_le_div_of_nonneg_right h1 hy.le
  have e2 : 2 * x.apart y / y.length = x.apart y / y.length + x.apart y * (1 / y.length) := by ring
  linarith

theorem apart_neg (a b : Quat ℝ) : a.neg.apart b.neg = a.apart b := by
  unfold apart neg; congr 1; ring

theorem neg_neg' (a : Quat ℝ) : a.neg.neg = a := by cases a; simp [neg]

theorem apart_neg_left (a b : Quat ℝ) : a.neg.apart b = a.apart b.neg := by
  unfold apart neg; congr 1; ring

/-- Up to the sign of each. -/
theorem gap_le {a b p p' q q' : Quat ℝ} {k l : ℝ} (hp : p' = p ∨ p' = p.neg) (ha : a.apart p' ≤ k) (hq : q' = q ∨ q' = q.neg)
    (hb : b = q') (hpq : p.apart q ≤ l) : a.gap b ≤ k + l := by
  rw [← hb] at hq
  have h1 := apart_triangle a p' b
  have h2 := apart_triangle a p' b.neg
  clear hb
  unfold gap
  rcases hp with rfl | rfl <;> rcases hq with rfl | rfl
  · exact (min_le_left _ _).trans (by linarith)
  · rw [neg_neg'] at *
    exact (min_le_right _ _).trans (by linarith)
  · refine (min_le_right _ _).trans ?_
    rw [apart_neg] at h2
    linarith
  · refine (min_le_left _ _).trans ?_
    rw [apart_neg] at h1
    linarith

end Quat

namespace Rounding

variable {F : Rounding} {sqrt : ℝ → ℝ}

theorem length2_of {q : Quat ℝ} (h1 : 98 / 100 ≤ q.length) (h2 : q.length ≤ 102 / 100) :
    95 / 100 ≤ q.length2 ∧ q.length2 ≤ 105 / 100 := by
  rw [← Quat.length_sq]
  constructor <;> nlinarith

/-- The rotation of the product. -/
theorem mulMsg_rot (h : Good F) (hs : SqrtNear F sqrt) {a b a' b' : Pose}
    (ha1 : 98 / 100 ≤ a.rot.length) (ha2 : a.rot.length ≤ 102 / 100)
    (hb1 : 98 / 100 ≤ b.rot.length) (hb2 : b.rot.length ≤ 102 / 100)
    (ha1' : 98 / 100 ≤ a'.rot.length) (ha2' : a'.rot.length ≤ 102 / 100)
    (hb1' : 98 / 100 ≤ b'.rot.length) (hb2' : b'.rot.length ≤ 102 / 100) :
    (F.mulMsg sqrt a b).rot.gap (Pose.mulMsg a' b').rot ≤
      2800 * F.e + 22 / 10 * (a.rot.apart a'.rot + b.rot.apart b'.rot) := by
  have pa := length2_of ha1 ha2
  have pb := length2_of hb1 hb2
  have na : a.rot.length2 ≠ 0 := by have := pa.1; intro h; rw [h] at this; norm_num at this
  have nb : b.rot.length2 ≠ 0 := by have := pb.1; intro h; rw [h] at this; norm_num at this
  have pa' := length2_of ha1' ha2'
  have pb' := length2_of hb1' hb2'
  have na' : a'.rot.length2 ≠ 0 := by have := pa'.1; intro h; rw [h] at this; norm_num at this
  have nb' : b'.rot.length2 ≠ 0 := by have := pb'.1; intro h; rw [h] at this; norm_num at this
  have lp : 0 < (a.rot.mul b.rot).length := by rw [Quat.length_mul]; nlinarith
  have lp' : 96 / 100 ≤ (a'.rot.mul b'.rot).length := by rw [Quat.length_mul]; nlinarith
  have hM : MatAp F 412 (F.matMul (F.basis a.rot) (F.basis b.rot)) (Mat3.ofQuat (a.rot.mul b.rot).normalize) := by
    rw [Quat.ofQuat_normalize lp, Mat3.ofQuat_mul _ _ na nb]
    exact matMul_ap h (basis_ap h pa.1 pa.2) (basis_ap h pb.1 pb.2) (Mat3.ofQuat_isRotation _ na) (Mat3.ofQuat_isRotation _ nb)
      (by rw [← Mat3.ofQuat_mul _ _ na nb]; exact Mat3.ofQuat_isRotation _ (Quat.length_pos lp))
  obtain ⟨p', hp', hap⟩ := getRotation_near h hs (Quat.normalize_unit lp) hM
  have hex : (Pose.mulMsg a' b').rot = (Mat3.ofQuat (a'.rot.mul b'.rot).normalize).getRotation := by
    rw [Quat.ofQuat_normalize (by linarith), Mat3.ofQuat_mul _ _ na' nb']
    rfl
  refine Quat.gap_le hp' hap (Mat3.getRotation_ofQuat (Quat.normalize_unit (by linarith))) hex ?_
  refine (Quat.apart_normalize lp (by linarith)).trans ?_
  rw [div_le_iff₀ (by linarith)]
  have h1 := Quat.apart_mul a.rot b.rot a'.rot b'.rot
  have z1 := Quat.apart_nonneg a.rot a'.rot
  have z2 := Quat.apart_nonneg b.rot b'.rot
  have h2 : a.rot.apart a'.rot * b.rot.length ≤ a.rot.apart a'.rot * (102 / 100) := mul_le_mul_of_nonneg_left hb2 z1
  have h3 : a'.rot.length * b.rot.apart b'.rot ≤ 102 / 100 * b.rot.apart b'.rot := mul_le_mul_of_nonneg_right ha2' z2
  have h4 : 22 / 10 * (a.rot.apart a'.rot + b.rot.apart b'.rot) * (96 / 100) ≤
      22 / 10 * (a.rot.apart a'.rot + b.rot.apart b'.rot) * (a'.rot.mul b'.rot).length :=
    mul_le_mul_of_nonneg_left lp' (by positivity)
  linarith

/-- The sum of the components of a vector. -/
theorem sum_le_length (v : Vec3 ℝ) : |v.x| + |v.y| + |v.z| ≤ 2 * v.length := by
  have h : (|v.x| + |v.y| + |v.z|) ^ 2 ≤ 4 * v.length2 := by
    have e : v.length2 = |v.x| ^ 2 + |v.y| ^ 2 + |v.z| ^ 2 := by simp only [Vec3.length2, Vec3.dot, sq_abs]; ring
    rw [e]
    nlinarith [sq_nonneg (|v.x| - |v.y|), sq_nonneg (|v.y| - |v.z|), sq_nonneg (|v.x| - |v.z|)]
  have h2 : (2 * v.length) ^ 2 = 4 * v.length2 := by
    unfold Vec3.length
    rw [mul_pow, Real.sq_sqrt (by simp only [Vec3.length2, Vec3.dot]; nlinarith [mul_self_nonneg v.x, mul_self_nonneg v.y, mul_self_nonneg v.z])]
    norm_num
  have h3 : 0 ≤ v.length := Real.sqrt_nonneg _
  exact abs_le_of_sq_le_sq' (by rw [h2]; exact h) (by positivity) |>.2

/-- One row of `apply`. -/
theorem row_err (h : Good F) {v : Vec3 ℝ} {m1 m2 m3 n1 n2 n3 o O : ℝ} (h1 : |m1 - n1| ≤ 67 * F.e) (h2 : |m2 - n2| ≤ 67 * F.e)
    (h3 : |m3 - n3| ≤ 67 * F.e) (e1 : |n1| ≤ 1) (e2 : |n2| ≤ 1) (e3 : |n3| ≤ 1)
    (ho : |o| ≤ O) (hΩ : 5 * v.length + O + 1 ≤ F.Ω) :
    |F.rnd (F.dot3 m1 v.x m2 v.y m3 v.z + o) - (n1 * v.x + n2 * v.y + n3 * v.z + o)| ≤
      150 * F.e * v.length + F.u * O + 10 * F.η := by
  obtain ⟨e0, e9⟩ := h.e
  have u0 := F.u_nonneg
  have n0 := F.η_nonneg
  have hu := h.u
  have hη := h.η
  have small : 67 * F.e ≤ 1 / 10 ^ 6 := by norm_num at *; linarith
  have hs := sum_le_length v
  have hv : 0 ≤ v.length := Real.sqrt_nonneg _
  have hm : ∀ {m n : ℝ}, |m - n| ≤ 67 * F.e → |n| ≤ 1 → |m| ≤ 101 / 100 := by
    intro m n a b
    have := abs_add_le (m - n) n
    rw [sub_add_cancel] at this
    norm_num at *; linarith
  have hp : ∀ {m n : ℝ} (w : ℝ), |m - n| ≤ 67 * F.e → |n| ≤ 1 → |m * w| ≤ 101 / 100 * |w| := by
    intro m n w a b
    rw [abs_mul]
    exact mul_le_mul_of_nonneg_right (hm a b) (abs_nonneg _)
  have p1 := hp v.x h1 e1
  have p2 := hp v.y h2 e2
  have p3 := hp v.z h3 e3
  have A0 : |m1 * v.x| + |m2 * v.y| + |m3 * v.z| ≤ 202 / 100 * v.length := by linarith
  have z1 := abs_nonneg (m1 * v.x)
  have z2 := abs_nonneg (m2 * v.y)
  have z3 := abs_nonneg (m3 * v.z)
  have O0 : 0 ≤ O := (abs_nonneg o).trans ho
  have hΩ2 : 2 * (202 / 100 * v.length) + 10 * F.η ≤ F.Ω := by norm_num at *; linarith
  have d1 := dot3_err (F := F) (by norm_num at *; linarith) (prod_err (a := m1) (b := v.x) (A := 202 / 100 * v.length) (by linarith) hΩ2)
    (prod_err (a := m2) (b := v.y) (A := 202 / 100 * v.length) (by linarith) hΩ2)
    (prod_err (a := m3) (b := v.z) (A := 202 / 100 * v.length) (by linarith) hΩ2) A0 hΩ2
  change |F.dot3 m1 v.x m2 v.y m3 v.z - _| ≤ _ at d1
  generalize F.dot3 m1 v.x m2 v.y m3 v.z = s at *
  -- the perturbed matrix
  have hq : ∀ {m n : ℝ} (w : ℝ), |m - n| ≤ 67 * F.e → |m * w - n * w| ≤ 67 * F.e * |w| := by
    intro m n w a
    rw [← sub_mul, abs_mul]
    exact mul_le_mul_of_nonneg_right a (abs_nonneg _)
  have q1 := hq v.x h1
  have q2 := hq v.y h2
  have q3 := hq v.z h3
  have q4 : |(m1 * v.x + m2 * v.y + m3 * v.z) - (n1 * v.x + n2 * v.y + n3 * v.z)| ≤ 134 * F.e * v.length := by
    have e : (m1 * v.x + m2 * v.y + m3 * v.z) - (n1 * v.x + n2 * v.y + n3 * v.z) =
        (m1 * v.x - n1 * v.x) + (m2 * v.y - n2 * v.y) + (m3 * v.z - n3 * v.z) := by ring
    rw [e]
    refine (abs_add_le _ _).trans ((add_le_add_left (abs_add_le _ _) _).trans ?_)
    have := mul_le_mul_of_nonneg_left hs (by positivity : 0 ≤ 67 * F.e)
    linarith
  have A1 : |m1 * v.x + m2 * v.y + m3 * v.z| ≤ 202 / 100 * v.length :=
    (abs_add_le _ _).trans ((add_le_add_left (abs_add_le _ _) _).trans A0)
  have hsabs : |s| ≤ 203 / 100 * v.length + 8 * F.η := by
    have t := abs_add_le (s - (m1 * v.x + m2 * v.y + m3 * v.z)) (m1 * v.x + m2 * v.y + m3 * v.z)
    rw [sub_add_cancel] at t
    have : 5 * F.u * (202 / 100 * v.length) ≤ 1 / 100 * v.length := by
      have : 5 * F.u * (202 / 100) ≤ 1 / 100 := by norm_num at *; linarith
      nlinarith
    linarith
  have hso : |s + o| ≤ 203 / 100 * v.length + 8 * F.η + O := (abs_add_le _ _).trans (by linarith)
  have r := F.err (s + o) (hso.trans (by norm_num at *; linarith))
  have r2 := mul_le_mul_of_nonneg_left hso u0
  have t1 : F.rnd (s + o) - (n1 * v.x + n2 * v.y + n3 * v.z + o) = (F.rnd (s + o) - (s + o)) +
      (s - (m1 * v.x + m2 * v.y + m3 * v.z)) + ((m1 * v.x + m2 * v.y + m3 * v.z) - (n1 * v.x + n2 * v.y + n3 * v.z)) := by ring
  rw [t1]
  refine (abs_add_le _ _).trans ((add_le_add_left (abs_add_le _ _) _).trans ?_)
  have ue : F.u * v.length ≤ F.e * v.length := mul_le_mul_of_nonneg_right (by unfold e; linarith) hv
  have uη : F.u * (8 * F.η) ≤ F.η := by
    have := mul_le_mul_of_nonneg_right (hu.trans (by norm_num : (1 : ℝ) / 10 ^ 9 ≤ 1 / 8)) (by positivity : 0 ≤ 8 * F.η)
    linarith
  have ev : 0 ≤ F.e * v.length := by positivity
  linarith

theorem comp_le {v : Vec3 ℝ} : |v.x| ≤ v.length ∧ |v.y| ≤ v.length ∧ |v.z| ≤ v.length := by
  refine ⟨Real.abs_le_sqrt ?_, Real.abs_le_sqrt ?_, Real.abs_le_sqrt ?_⟩ <;> simp only [Vec3.length2, Vec3.dot] <;>
    nlinarith [mul_self_nonneg v.x, mul_self_nonneg v.y, mul_self_nonneg v.z]

/-- Applying a transform to a point. -/
theorem apply_near (h : Good F) {q : Quat ℝ} (h1 : 98 / 100 ≤ q.length) (h2 : q.length ≤ 102 / 100) (o v : Vec3 ℝ)
    (hΩ : 5 * v.length + o.length + 1 ≤ F.Ω) :
    (F.apply ⟨F.basis q, o⟩ v).apart (Xform.apply ⟨Mat3.ofQuat q, o⟩ v) ≤
      300 * F.e * v.length + 2 * F.u * o.length + 20 * F.η := by
  have p := length2_of h1 h2
  have n : q.length2 ≠ 0 := by have := p.1; intro h; rw [h] at this; norm_num at this
  have hb := basis_ap h p.1 p.2
  have hE := entries (Mat3.ofQuat_isRotation q n)
  have e : 300 * F.e * v.length + 2 * F.u * o.length + 20 * F.η = 2 * (150 * F.e * v.length + F.u * o.length + 10 * F.η) := by ring
  rw [e]
  obtain ⟨o1, o2, o3⟩ := comp_le (v := o)
  exact Vec3.apart_le (row_err h hb.e00 hb.e01 hb.e02 hE.e00 hE.e01 hE.e02 o1 hΩ)
    (row_err h hb.e10 hb.e11 hb.e12 hE.e10 hE.e11 hE.e12 o2 hΩ)
    (row_err h hb.e20 hb.e21 hb.e22 hE.e20 hE.e21 hE.e22 o3 hΩ)

theorem apply_exact {q q' : Quat ℝ} (h1 : 98 / 100 ≤ q.length) (h1' : 98 / 100 ≤ q'.length) (o o' v v' : Vec3 ℝ) :
    (Xform.apply ⟨Mat3.ofQuat q, o⟩ v).apart (Xform.apply ⟨Mat3.ofQuat q', o'⟩ v') ≤
      v.apart v' + 41 / 10 * q.apart q' * v'.length + o.apart o' := by
  have p : 0 < q.length := by linarith
  have p' : 0 < q'.length := by linarith
  have e : ∀ {q : Quat ℝ} (o v : Vec3 ℝ), 0 < q.length → Xform.apply ⟨Mat3.ofQuat q, o⟩ v = (q.normalize.rotate v).add o := by
    intro q o v hq
    rw [← Mat3.ofQuat_mulVec_unit _ (Quat.normalize_unit hq), Quat.ofQuat_normalize hq]
    rfl
  rw [e o v p, e o' v' p']
  refine (Vec3.apart_add _ _ _ _).trans ?_
  have a1 := Vec3.apart_rotate q.normalize q'.normalize v v'
  have l : ∀ {q : Quat ℝ}, 0 < q.length → q.normalize.length = 1 := by
    intro q hq
    have := (Quat.unit_iff _).1 (Quat.normalize_unit hq)
    unfold Quat.length at *
    rw [this, Real.sqrt_one]
  rw [l p, l p'] at a1
  have a2 := Quat.apart_normalize p p'
  have z := Quat.apart_nonneg q q'
  have a3 : 2 * q.apart q' / q'.length ≤ 205 / 100 * q.apart q' := by
    rw [div_le_iff₀ p']
    nlinarith
  have hv : 0 ≤ v'.length := Real.sqrt_nonneg _
  have a4 := mul_le_mul_of_nonneg_right (a2.trans a3) hv
  linarith

/-- The translation of the product. -/
theorem mulMsg_trans (h : Good F) {a b a' b' : Pose}
    (ha1 : 98 / 100 ≤ a.rot.length) (ha2 : a.rot.length ≤ 102 / 100) (ha1' : 98 / 100 ≤ a'.rot.length)
    (hΩ : 5 * b.trans.length + a.trans.length + 1 ≤ F.Ω) :
    (F.mulMsg sqrt a b).trans.apart (Pose.mulMsg a' b').trans ≤
      300 * F.e * b.trans.length + 2 * F.u * a.trans.length + 20 * F.η +
      (b.trans.apart b'.trans + 41 / 10 * a.rot.apart a'.rot * b'.trans.length + a.trans.apart a'.trans) :=
  (Vec3.apart_triangle _ _ _).trans (add_le_add (apply_near h ha1 ha2 _ _ hΩ) (apply_exact ha1 ha1' _ _ _ _))

end Rounding
end Tf2
