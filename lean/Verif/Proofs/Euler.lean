import Verif.Proofs.GetRotation
import Verif.Proofs.Slerp

/-! # Euler angles -/
namespace Tf2

theorem rotZ_zero : rotZ 0 = 1 := by
  ext i j; fin_cases i <;> fin_cases j <;> simp [rotZ]
theorem rotX_zero : rotX 0 = 1 := by
  ext i j; fin_cases i <;> fin_cases j <;> simp [rotX]

theorem ofRPY_toM (r p y : ℝ) : (Mat3.ofRPY r p y).toM = rotZ y * rotY p * rotX r := by
  ext i j
  fin_cases i <;> fin_cases j <;>
    simp [Mat3.ofRPY, Mat3.ofEulerYPR, Mat3.toM, rotX, rotY, rotZ, Matrix.mul_apply, Fin.sum_univ_three] <;> ring

section
variable (a b c : ℝ)

private theorem half (a : ℝ) : a * (1 / 2) + a * (1 / 2) = a := by ring

theorem cos_half (a : ℝ) :
    Real.cos a = Real.cos (a * (1 / 2)) ^ 2 - Real.sin (a * (1 / 2)) ^ 2 := by
  conv_lhs => rw [← half a, Real.cos_add]
  ring
theorem sin_half (a : ℝ) :
    Real.sin a = 2 * Real.sin (a * (1 / 2)) * Real.cos (a * (1 / 2)) := by
  conv_lhs => rw [← half a, Real.sin_add]
  ring

theorem quat_ofRPY_unit (r p y : ℝ) : (Quat.ofRPY r p y).Unit := by
  have h1 := Real.sin_sq_add_cos_sq (r * (1 / 2))
  have h2 := Real.sin_sq_add_cos_sq (p * (1 / 2))
  have h3 := Real.sin_sq_add_cos_sq (y * (1 / 2))
  unfold Quat.Unit Quat.ofRPY
  dsimp only
  generalize Real.sin (r * (1 / 2)) = sr at *
  generalize Real.cos (r * (1 / 2)) = cr at *
  generalize Real.sin (p * (1 / 2)) = sp at *
  generalize Real.cos (p * (1 / 2)) = cp at *
  generalize Real.sin (y * (1 / 2)) = sy at *
  generalize Real.cos (y * (1 / 2)) = cy at *
  linear_combination (sp ^ 2 + cp ^ 2) * (sy ^ 2 + cy ^ 2) * h1 + (sy ^ 2 + cy ^ 2) * h2 + h3

theorem quat_ofEuler_unit (y p r : ℝ) : (Quat.ofEuler y p r).Unit := by
  have h1 := Real.sin_sq_add_cos_sq (r * (1 / 2))
  have h2 := Real.sin_sq_add_cos_sq (p * (1 / 2))
  have h3 := Real.sin_sq_add_cos_sq (y * (1 / 2))
  unfold Quat.Unit Quat.ofEuler
  dsimp only
  generalize Real.sin (r * (1 / 2)) = sr at *
  generalize Real.cos (r * (1 / 2)) = cr at *
  generalize Real.sin (p * (1 / 2)) = sp at *
  generalize Real.cos (p * (1 / 2)) = cp at *
  generalize Real.sin (y * (1 / 2)) = sy at *
  generalize Real.cos (y * (1 / 2)) = cy at *
  linear_combination (sp ^ 2 + cp ^ 2) * (sy ^ 2 + cy ^ 2) * h1 + (sy ^ 2 + cy ^ 2) * h2 + h3

/-- the rotation matrices of the three elementary quaternions -/
noncomputable def qX (a : ℝ) : Quat ℝ := ⟨Real.sin (a * (1 / 2)), 0, 0, Real.cos (a * (1 / 2))⟩
noncomputable def qY (a : ℝ) : Quat ℝ := ⟨0, Real.sin (a * (1 / 2)), 0, Real.cos (a * (1 / 2))⟩
noncomputable def qZ (a : ℝ) : Quat ℝ := ⟨0, 0, Real.sin (a * (1 / 2)), Real.cos (a * (1 / 2))⟩

theorem qX_unit (a : ℝ) : (qX a).Unit := by
  have := Real.sin_sq_add_cos_sq (a * (1 / 2)); unfold Quat.Unit qX; dsimp only; linear_combination this
theorem qY_unit (a : ℝ) : (qY a).Unit := by
  have := Real.sin_sq_add_cos_sq (a * (1 / 2)); unfold Quat.Unit qY; dsimp only; linear_combination this
theorem qZ_unit (a : ℝ) : (qZ a).Unit := by
  have := Real.sin_sq_add_cos_sq (a * (1 / 2)); unfold Quat.Unit qZ; dsimp only; linear_combination this

theorem qX_toM (a : ℝ) : (Mat3.ofQuat (qX a)).toM = rotX a := by
  have h1 := (Quat.unit_iff _).1 (qX_unit a)
  have hs := Real.sin_sq_add_cos_sq (a * (1 / 2))
  have e1 := cos_half a
  have e2 := sin_half a
  unfold Mat3.ofQuat
  simp only [h1]
  simp only [rotX, Mat3.toM, qX, e1, e2]
  generalize Real.sin (a * (1 / 2)) = sr at *
  generalize Real.cos (a * (1 / 2)) = cr at *
  ext i j; fin_cases i <;> fin_cases j <;> simp <;> first | ring1 | linear_combination -hs
theorem qY_toM (a : ℝ) : (Mat3.ofQuat (qY a)).toM = rotY a := by
  have h1 := (Quat.unit_iff _).1 (qY_unit a)
  have hs := Real.sin_sq_add_cos_sq (a * (1 / 2))
  have e1 := cos_half a
  have e2 := sin_half a
  unfold Mat3.ofQuat
  simp only [h1]
  simp only [rotY, Mat3.toM, qY, e1, e2]
  generalize Real.sin (a * (1 / 2)) = sr at *
  generalize Real.cos (a * (1 / 2)) = cr at *
  ext i j; fin_cases i <;> fin_cases j <;> simp <;> first | ring1 | linear_combination -hs
theorem qZ_toM (a : ℝ) : (Mat3.ofQuat (qZ a)).toM = rotZ a := by
  have h1 := (Quat.unit_iff _).1 (qZ_unit a)
  have hs := Real.sin_sq_add_cos_sq (a * (1 / 2))
  have e1 := cos_half a
  have e2 := sin_half a
  unfold Mat3.ofQuat
  simp only [h1]
  simp only [rotZ, Mat3.toM, qZ, e1, e2]
  generalize Real.sin (a * (1 / 2)) = sr at *
  generalize Real.cos (a * (1 / 2)) = cr at *
  ext i j; fin_cases i <;> fin_cases j <;> simp <;> first | ring1 | linear_combination -hs

theorem quat_ofRPY_mul (r p y : ℝ) : Quat.ofRPY r p y = ((qZ y).mul (qY p)).mul (qX r) := by
  ext <;> simp [Quat.ofRPY, Quat.mul, qX, qY, qZ] <;> ring
theorem quat_ofEuler_mul (y p r : ℝ) : Quat.ofEuler y p r = ((qY y).mul (qX p)).mul (qZ r) := by
  ext <;> simp [Quat.ofEuler, Quat.mul, qX, qY, qZ] <;> ring

theorem quat_ofRPY_eq (r p y : ℝ) : (Mat3.ofQuat (Quat.ofRPY r p y)) = Mat3.ofRPY r p y := by
  apply Mat3.toM_inj
  rw [ofRPY_toM, quat_ofRPY_mul,
    Mat3.ofQuat_mul _ _ ((qZ_unit y).mul (qY_unit p)).ne (qX_unit r).ne,
    Mat3.ofQuat_mul _ _ (qZ_unit y).ne (qY_unit p).ne, Mat3.toM_mul, Mat3.toM_mul, qX_toM, qY_toM, qZ_toM]

theorem quat_ofEuler_toM (y p r : ℝ) :
    (Mat3.ofQuat (Quat.ofEuler y p r)).toM = rotY y * rotX p * rotZ r := by
  rw [quat_ofEuler_mul,
    Mat3.ofQuat_mul _ _ ((qY_unit y).mul (qX_unit p)).ne (qZ_unit r).ne,
    Mat3.ofQuat_mul _ _ (qY_unit y).ne (qX_unit p).ne, Mat3.toM_mul, Mat3.toM_mul, qX_toM, qY_toM, qZ_toM]
end

theorem norm_unit {x y : ℝ} (h : x ^ 2 + y ^ 2 = 1) : ‖(⟨x, y⟩ : ℂ)‖ = 1 := by
  rw [Complex.norm_def, Complex.normSq_mk]
  have : x * x + y * y = 1 := by linarith
  rw [this, Real.sqrt_one]

theorem atan2_cos {x y : ℝ} (h : x ^ 2 + y ^ 2 = 1) : Real.cos (tf2Atan2 y x) = x := by
  have h1 := Complex.norm_mul_cos_arg (⟨x, y⟩ : ℂ)
  rw [norm_unit h, one_mul] at h1
  exact h1
theorem atan2_sin {x y : ℝ} (h : x ^ 2 + y ^ 2 = 1) : Real.sin (tf2Atan2 y x) = y := by
  have h1 := Complex.norm_mul_sin_arg (⟨x, y⟩ : ℂ)
  rw [norm_unit h, one_mul] at h1
  exact h1
theorem atan2_scale {k : ℝ} (hk : 0 < k) (y x : ℝ) : tf2Atan2 (k * y) (k * x) = tf2Atan2 y x := by
  unfold tf2Atan2
  have : (⟨k * x, k * y⟩ : ℂ) = (k : ℂ) * ⟨x, y⟩ := by apply Complex.ext <;> simp
  rw [this, Complex.arg_real_mul _ hk]

/-- Angles with the right sines and cosines rebuild the matrix. -/
theorem rebuild {m : Mat3 ℝ} (h : m.IsRotation) {P c : ℝ} (hc : c ≠ 0) (hcos : Real.cos P = c)
    (hsin : Real.sin P = - m.r2.x) :
    Mat3.ofEulerYPR (tf2Atan2 (m.r1.x / Real.cos P) (m.r0.x / Real.cos P)) P
      (tf2Atan2 (m.r2.y / Real.cos P) (m.r2.z / Real.cos P)) = m := by
  have e := h.eqs
  have hsc := Real.sin_sq_add_cos_sq P
  rw [hcos, hsin] at hsc
  rw [hcos]
  have hr : (m.r2.z / c) ^ 2 + (m.r2.y / c) ^ 2 = 1 := by
    field_simp; linear_combination e.r22 - hsc
  have hy : (m.r0.x / c) ^ 2 + (m.r1.x / c) ^ 2 = 1 := by
    field_simp; linear_combination e.c00 - hsc
  unfold Mat3.ofEulerYPR
  simp only [atan2_cos hr, atan2_sin hr, atan2_cos hy, atan2_sin hy, hcos, hsin]
  have c2 : c ^ 2 = 1 - m.r2.x ^ 2 := by linarith
  obtain ⟨⟨m00, m01, m02⟩, ⟨m10, m11, m12⟩, ⟨m20, m21, m22⟩⟩ := m
  dsimp only at *
  ext <;> dsimp only <;> field_simp <;> (try rw [c2]) <;>
    obtain ⟨_, _, _, _, _, _, _, _, _, _, _, _, _, _, _, _, _, _, _, _, _⟩ := e <;> grind

theorem ofRPY_getEulerYPR {m : Mat3 ℝ} (h : m.IsRotation) (hg : |m.r2.x| < 1) (n : Nat) :
    Mat3.ofEulerYPR (m.getEulerYPR n).yaw (m.getEulerYPR n).pitch (m.getEulerYPR n).roll = m := by
  rw [abs_lt] at hg
  have hs : Real.sin (-Real.arcsin m.r2.x) = - m.r2.x := by
    rw [Real.sin_neg, Real.sin_arcsin hg.1.le hg.2.le]
  have hc : Real.cos (-Real.arcsin m.r2.x) ≠ 0 := by
    rw [Real.cos_neg, Real.cos_arcsin]
    exact (Real.sqrt_pos.2 (by nlinarith)).ne'
  have hg' : ¬ (|m.r2.x| ≥ 1) := not_le.2 (abs_lt.2 hg)
  unfold Mat3.getEulerYPR
  simp only [hg', if_false, tf2Asin_eq]
  split
  · exact rebuild h hc rfl hs
  · refine rebuild h (P := Real.pi - -Real.arcsin m.r2.x) ?_ rfl ?_
    · rw [Real.cos_pi_sub]; exact neg_ne_zero.2 hc
    · rw [Real.sin_pi_sub]; exact hs

theorem getEulerYPR_gimbal {m : Mat3 ℝ} (h : m.IsRotation) (hg : 1 ≤ |m.r2.x|) (n : Nat) :
    (m.getEulerYPR n).yaw = 0 ∧ (m.getEulerYPR n).roll = 0 ∧
      ((m.getEulerYPR n).pitch = Real.pi / 2 ∨ (m.getEulerYPR n).pitch = -(Real.pi / 2)) := by
  have e := h.eqs
  have h1 : 1 ≤ m.r2.x ^ 2 := by rw [← sq_abs]; nlinarith
  have h21 : m.r2.y = 0 := (pow_eq_zero_iff two_ne_zero).1
    (by nlinarith [e.r22, sq_nonneg m.r2.y, sq_nonneg m.r2.z])
  have h22 : m.r2.z = 0 := (pow_eq_zero_iff two_ne_zero).1
    (by nlinarith [e.r22, sq_nonneg m.r2.y, sq_nonneg m.r2.z])
  have hd : tf2Atan2 0 0 = 0 := by
    unfold tf2Atan2
    have : (⟨0, 0⟩ : ℂ) = 0 := rfl
    rw [this, Complex.arg_zero]
  unfold Mat3.getEulerYPR
  simp only [ge_iff_le, hg, if_true, h21, h22, hd]
  by_cases hn : m.r2.x < 0 <;> by_cases hs : n = 1 <;> simp [hn, hs] <;> right <;> ring

theorem sarg_raw (q : Quat ℝ) :
    -2 * (q.x * q.z - q.w * q.y) / (q.x * q.x + q.y * q.y + q.z * q.z + q.w * q.w) = sarg q := by
  unfold sarg; congr 1; ring

theorem util_yaw_eq (q : Quat ℝ) : utilGetYaw q = (utilGetEulerYPR q).yaw := by
  unfold utilGetYaw utilGetEulerYPR
  dsimp only
  split
  · rfl
  · split <;> rfl

theorem util_eq {q : Quat ℝ} (hne : q.length2 ≠ 0) (hs : |sarg q| < 0.99999) :
    utilGetEulerYPR q = (Mat3.ofQuat q).getEulerYPR 1 := by
  have h' : q.x ^ 2 + q.y ^ 2 + q.z ^ 2 + q.w ^ 2 ≠ 0 := by rwa [← Quat.length2_eq]
  have hN : 0 < q.length2 := by
    rw [Quat.length2_eq] at hne ⊢
    exact lt_of_le_of_ne (by positivity) (Ne.symm hne)
  have hsm : (Mat3.ofQuat q).r2.x = - sarg q := by
    simp only [Mat3.ofQuat, sarg, Quat.length2_eq]; field_simp
  rw [abs_lt] at hs
  have hl : ¬ sarg q ≤ -0.99999 := by linarith
  have hu : ¬ sarg q ≥ 0.99999 := by linarith
  have hg : ¬ |(Mat3.ofQuat q).r2.x| ≥ 1 := by
    rw [hsm, abs_neg, not_le, abs_lt]; constructor <;> linarith
  have hp : -Real.arcsin (-sarg q) = Real.arcsin (sarg q) := by rw [Real.arcsin_neg, neg_neg]
  have hc : 0 < Real.cos (Real.arcsin (sarg q)) := by
    rw [Real.cos_arcsin]; exact Real.sqrt_pos.2 (by nlinarith)
  have h20 : (Mat3.ofQuat q).r2.y = 1 / q.length2 * (2 * (q.y * q.z + q.w * q.x)) := by
    simp only [Mat3.ofQuat]; field_simp
  have h22 : (Mat3.ofQuat q).r2.z =
      1 / q.length2 * (q.w * q.w - q.x * q.x - q.y * q.y + q.z * q.z) := by
    simp only [Mat3.ofQuat, Quat.length2_eq]; field_simp; ring
  have h10 : (Mat3.ofQuat q).r1.x = 1 / q.length2 * (2 * (q.x * q.y + q.w * q.z)) := by
    simp only [Mat3.ofQuat]; field_simp
  have h00 : (Mat3.ofQuat q).r0.x =
      1 / q.length2 * (q.w * q.w + q.x * q.x - q.y * q.y - q.z * q.z) := by
    simp only [Mat3.ofQuat, Quat.length2_eq]; field_simp; ring
  have sc : ∀ a b : ℝ, tf2Atan2 (1 / q.length2 * a / Real.cos (Real.arcsin (sarg q)))
      (1 / q.length2 * b / Real.cos (Real.arcsin (sarg q))) = tf2Atan2 a b := by
    intro a b
    have hk : 0 < 1 / q.length2 / Real.cos (Real.arcsin (sarg q)) := by positivity
    rw [← atan2_scale hk a b]
    congr 1 <;> ring
  unfold utilGetEulerYPR Mat3.getEulerYPR
  simp only [sarg_raw, hl, hu, hg, if_false, if_true, tf2Asin_eq]
  simp only [h20, h22, h10, h00, hsm, hp, sc]

theorem util_gimbal {q : Quat ℝ} (h : q.Unit) (hs : sarg q = 1) :
    rotZ (utilGetEulerYPR q).yaw * rotY (utilGetEulerYPR q).pitch * rotX (utilGetEulerYPR q).roll =
      rotZ Real.pi * (Mat3.ofQuat q).toM ∧
    rotZ (utilGetEulerYPR q).yaw * rotY (utilGetEulerYPR q).pitch * rotX (utilGetEulerYPR q).roll ≠
      (Mat3.ofQuat q).toM := by
  have h1 := (Quat.unit_iff q).1 h
  have hrot := Mat3.ofQuat_isRotation q h.ne
  unfold Quat.Unit at h
  unfold sarg at hs
  rw [h, div_one] at hs
  have hsum : (q.w - q.y) ^ 2 + (q.x + q.z) ^ 2 = 0 := by linear_combination h - hs
  have e1 : q.w - q.y = 0 := (pow_eq_zero_iff two_ne_zero).1 (by nlinarith [sq_nonneg (q.w - q.y), sq_nonneg (q.x + q.z)])
  have e2 : q.x + q.z = 0 := (pow_eq_zero_iff two_ne_zero).1 (by nlinarith [sq_nonneg (q.w - q.y), sq_nonneg (q.x + q.z)])
  have ew : q.w = q.y := by linarith
  have ez : q.z = - q.x := by linarith
  have hxy : q.x ^ 2 + q.y ^ 2 = 1 / 2 := by rw [ew, ez] at h; linarith
  have hsa : sarg q = 1 := by unfold sarg; rw [h, div_one]; exact hs
  -- the angles returned
  have hu : utilGetEulerYPR q = ⟨2 * tf2Atan2 q.y q.x, 0.5 * Real.pi, 0⟩ := by
    unfold utilGetEulerYPR
    simp only [sarg_raw, hsa]
    norm_num
  -- cosine and sine of half the yaw
  have hr2 : Real.sqrt 2 ^ 2 = 2 := Real.sq_sqrt (by norm_num)
  have hsc : tf2Atan2 q.y q.x = tf2Atan2 (Real.sqrt 2 * q.y) (Real.sqrt 2 * q.x) :=
    (atan2_scale (Real.sqrt_pos.2 (by norm_num)) _ _).symm
  have hu1 : (Real.sqrt 2 * q.x) ^ 2 + (Real.sqrt 2 * q.y) ^ 2 = 1 := by
    rw [mul_pow, mul_pow, hr2]; linarith
  have hcos := atan2_cos hu1
  have hsin := atan2_sin hu1
  rw [← hsc] at hcos hsin
  have hc2 : Real.cos (2 * tf2Atan2 q.y q.x) = 2 * (q.x ^ 2 - q.y ^ 2) := by
    rw [Real.cos_two_mul, hcos, mul_pow, hr2]; linear_combination 2 * hxy
  have hs2 : Real.sin (2 * tf2Atan2 q.y q.x) = 4 * (q.x * q.y) := by
    rw [Real.sin_two_mul, hcos, hsin]; linear_combination 2 * q.x * q.y * hr2
  have hp : (0.5 : ℝ) * Real.pi = Real.pi / 2 := by ring
  have hfirst : rotZ (utilGetEulerYPR q).yaw * rotY (utilGetEulerYPR q).pitch * rotX (utilGetEulerYPR q).roll =
      rotZ Real.pi * (Mat3.ofQuat q).toM := by
    rw [hu]
    simp only [hp, rotX_zero, Matrix.mul_one]
    have hM : Mat3.ofQuat q =
        ⟨⟨0, 4 * (q.x * q.y), 2 * (q.y ^ 2 - q.x ^ 2)⟩, ⟨0, 2 * (q.y ^ 2 - q.x ^ 2), -(4 * (q.x * q.y))⟩,
          ⟨-1, 0, 0⟩⟩ := by
      ext <;> simp only [Mat3.ofQuat, h1, ew, ez] <;> first | ring1 | linear_combination (-2) * hxy
    rw [hM]
    ext i j
    fin_cases i <;> fin_cases j <;>
      simp [rotZ, rotY, Mat3.toM, Matrix.mul_apply, Fin.sum_univ_three, hc2, hs2] <;> ring
  refine ⟨hfirst, fun hc => ?_⟩
  rw [hfirst] at hc
  have hoo := (Matrix.mem_specialOrthogonalGroup_iff.1 hrot).1
  have hinv : (Mat3.ofQuat q).toM * (Mat3.ofQuat q).toM.transpose = 1 := by
    simpa [Matrix.star_eq_conjTranspose] using (Matrix.mem_orthogonalGroup_iff _ _).1 hoo
  have : rotZ Real.pi = 1 := by
    calc rotZ Real.pi = rotZ Real.pi * ((Mat3.ofQuat q).toM * (Mat3.ofQuat q).toM.transpose) := by
          rw [hinv, Matrix.mul_one]
      _ = 1 := by rw [← Matrix.mul_assoc, hc, hinv]
  have h00 := congrFun (congrFun this 0) 0
  simp [rotZ] at h00
  norm_num at h00

end Tf2
