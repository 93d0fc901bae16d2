import Verif.Model.Echo
import Verif.Proofs.Euler

/-!
# Lemmas for `echo.py`: the angles
-/
namespace Tf2.Py

theorem quaternionMatrix_eq {eps : ℝ} {q : Quat ℝ} (h0 : 0 < eps) (h : eps ≤ q.length2) :
    quaternionMatrix eps q = Mat3.ofQuat q := by
  have hn : 0 < q.length2 := lt_of_lt_of_le h0 h
  rw [Quat.length2_eq] at hn h
  have e : q.w * q.w + q.x * q.x + q.y * q.y + q.z * q.z = q.x ^ 2 + q.y ^ 2 + q.z ^ 2 + q.w ^ 2 := by ring
  have h' : ¬ (q.w * q.w + q.x * q.x + q.y * q.y + q.z * q.z < eps) := by rw [e]; exact not_lt.2 h
  have hq : quaternionMatrix eps q = if q.w * q.w + q.x * q.x + q.y * q.y + q.z * q.z < eps then Mat3.identity else
    let k := Real.sqrt (2 / (q.w * q.w + q.x * q.x + q.y * q.y + q.z * q.z))
    ⟨⟨1 - q.y * k * (q.y * k) - q.z * k * (q.z * k), q.x * k * (q.y * k) - q.z * k * (q.w * k), q.x * k * (q.z * k) + q.y * k * (q.w * k)⟩,
     ⟨q.x * k * (q.y * k) + q.z * k * (q.w * k), 1 - q.x * k * (q.x * k) - q.z * k * (q.z * k), q.y * k * (q.z * k) - q.x * k * (q.w * k)⟩,
     ⟨q.x * k * (q.z * k) - q.y * k * (q.w * k), q.y * k * (q.z * k) + q.x * k * (q.w * k), 1 - q.x * k * (q.x * k) - q.y * k * (q.y * k)⟩⟩ := rfl
  rw [hq, if_neg h', e]
  dsimp only
  have hk : Real.sqrt (2 / (q.x ^ 2 + q.y ^ 2 + q.z ^ 2 + q.w ^ 2)) * Real.sqrt (2 / (q.x ^ 2 + q.y ^ 2 + q.z ^ 2 + q.w ^ 2)) =
      2 / (q.x ^ 2 + q.y ^ 2 + q.z ^ 2 + q.w ^ 2) := Real.mul_self_sqrt (by positivity)
  have ho : ∀ a b : ℝ, a * Real.sqrt (2 / (q.x ^ 2 + q.y ^ 2 + q.z ^ 2 + q.w ^ 2)) *
      (b * Real.sqrt (2 / (q.x ^ 2 + q.y ^ 2 + q.z ^ 2 + q.w ^ 2))) = a * b * (2 / (q.x ^ 2 + q.y ^ 2 + q.z ^ 2 + q.w ^ 2)) := by
    intro a b; rw [mul_mul_mul_comm, hk]
  simp only [ho]
  unfold Mat3.ofQuat
  rw [Quat.length2_eq]
  ext <;> dsimp only <;> ring

/-- The cosine of the pitch. -/
noncomputable def cyOf (m : Mat3 ℝ) : ℝ := Real.sqrt (m.r0.x * m.r0.x + m.r1.x * m.r1.x)

theorem cyOf_sq (m : Mat3 ℝ) : cyOf m ^ 2 = m.r0.x ^ 2 + m.r1.x ^ 2 := by
  unfold cyOf; rw [Real.sq_sqrt (by nlinarith [mul_self_nonneg m.r0.x, mul_self_nonneg m.r1.x])]; ring

theorem pitch_cos {m : Mat3 ℝ} (h : m.IsRotation) :
    Real.cos (tf2Atan2 (-m.r2.x) (cyOf m)) = cyOf m ∧ Real.sin (tf2Atan2 (-m.r2.x) (cyOf m)) = -m.r2.x := by
  have e : cyOf m ^ 2 + (-m.r2.x) ^ 2 = 1 := by rw [cyOf_sq]; linear_combination h.eqs.c00
  exact ⟨atan2_cos e, atan2_sin e⟩

/-- Away from the poles the angles rebuild the matrix. -/
theorem euler_regular {m : Mat3 ℝ} (h : m.IsRotation) {eps : ℝ} (h0 : 0 < eps) (hc : eps < cyOf m) :
    Mat3.ofEulerYPR (eulerFromMatrix eps m).yaw (eulerFromMatrix eps m).pitch (eulerFromMatrix eps m).roll = m := by
  have hpos : 0 < cyOf m := h0.trans hc
  obtain ⟨h1, h2⟩ := pitch_cos h
  have hr := rebuild h hpos.ne' h1 h2
  rw [h1] at hr
  have sc : ∀ a b : ℝ, tf2Atan2 (a / cyOf m) (b / cyOf m) = tf2Atan2 a b := by
    intro a b
    rw [← atan2_scale (inv_pos.2 hpos) a b]
    congr 1 <;> ring
  rw [sc, sc] at hr
  unfold eulerFromMatrix
  have hc' : Real.sqrt (m.r0.x * m.r0.x + m.r1.x * m.r1.x) > eps := hc
  simp only [if_pos hc']
  exact hr

/-- The same in numbers: `C`, `S` the cosine and sine of the roll, `c` the cosine of the pitch. -/
theorem polar_bounds {m : Mat3 ℝ} (e : RotEqs m.r0.x m.r0.y m.r0.z m.r1.x m.r1.y m.r1.z m.r2.x m.r2.y m.r2.z)
    {c ρ C S : ℝ} (hsq : c ^ 2 = m.r0.x ^ 2 + m.r1.x ^ 2) (hc0 : 0 ≤ c) (hc1 : c < 1) (hρ : 0 < ρ)
    (hρs : ρ ^ 2 = m.r1.y ^ 2 + m.r1.z ^ 2) (hC : C * ρ = m.r1.y) (hS : S * ρ = -m.r1.z) (hCS : C ^ 2 + S ^ 2 = 1) :
    |c - m.r0.x| ≤ 2 * c ∧ |-m.r2.x * S - m.r0.y| ≤ 2 * c ∧ |-m.r2.x * C - m.r0.z| ≤ 2 * c ∧
    |m.r1.x| ≤ 2 * c ∧ |C - m.r1.y| ≤ 2 * c ∧ |-S - m.r1.z| ≤ 2 * c ∧
    |c * S - m.r2.y| ≤ 2 * c ∧ |c * C - m.r2.z| ≤ 2 * c := by
  have k01 := e.k01
  have k02 := e.k02
  have r11 := e.r11
  have r22 := e.r22
  have c00 := e.c00
  clear e
  generalize m.r0.x = m00 at *
  generalize m.r0.y = m01 at *
  generalize m.r0.z = m02 at *
  generalize m.r1.x = m10 at *
  generalize m.r1.y = m11 at *
  generalize m.r1.z = m12 at *
  generalize m.r2.x = m20 at *
  generalize m.r2.y = m21 at *
  generalize m.r2.z = m22 at *
  have b00 : |m00| ≤ c := abs_le_of_sq_le_sq (by linarith [sq_nonneg m10]) hc0
  have b10 : |m10| ≤ c := abs_le_of_sq_le_sq (by linarith [sq_nonneg m00]) hc0
  have b21 : |m21| ≤ c := abs_le_of_sq_le_sq (by linarith [sq_nonneg m22]) hc0
  have b22 : |m22| ≤ c := abs_le_of_sq_le_sq (by linarith [sq_nonneg m21]) hc0
  have b20 : |m20| ≤ 1 := abs_le_of_sq_le_sq (by linarith [sq_nonneg m00, sq_nonneg m10]) zero_le_one
  have bC : |C| ≤ 1 := abs_le_of_sq_le_sq (by linarith [sq_nonneg S]) zero_le_one
  have bS : |S| ≤ 1 := abs_le_of_sq_le_sq (by linarith [sq_nonneg C]) zero_le_one
  have hm10 : m10 ^ 2 ≤ c ^ 2 := by linarith [sq_nonneg m00]
  have hρ1 : ρ ≤ 1 := (le_abs_self _).trans (abs_le_of_sq_le_sq (by linarith [sq_nonneg m10]) zero_le_one)
  have hρρ : ρ ^ 2 ≤ ρ := by rw [sq]; exact mul_le_of_le_one_left hρ.le hρ1
  have hρc : 1 - ρ ≤ c ^ 2 := by linarith
  have hcc : c ^ 2 ≤ c := by rw [sq]; exact mul_le_of_le_one_left hc0 hc1.le
  have mulle : ∀ a b : ℝ, ∀ u v : ℝ, |a| ≤ u → |b| ≤ v → |a * b| ≤ u * v := by
    intro a b u v h1 h2; rw [abs_mul]
    exact mul_le_mul h1 h2 (abs_nonneg _) ((abs_nonneg _).trans h1)
  have tri : ∀ a b u v : ℝ, |a| ≤ u → |b| ≤ v → |a - b| ≤ u + v := fun a b u v h1 h2 => (abs_sub _ _).trans (add_le_add h1 h2)
  have abs_c : |c| ≤ c := by rw [abs_of_nonneg hc0]
  have b1ρ : |1 - ρ| ≤ c := by rw [abs_of_nonneg (by linarith)]; linarith
  have dC : C - m11 = C * (1 - ρ) := by rw [← hC]; ring
  have dS : -S - m12 = -(S * (1 - ρ)) := by linear_combination -hS
  have d01 : -m20 * S - m01 = m10 * m22 - m20 * S * (1 - ρ) := by linear_combination -k01 - m20 * hS
  have d02 : -m20 * C - m02 = - (m10 * m21 + m20 * C * (1 - ρ)) := by linear_combination -k02 - m20 * hC
  have c2 : c * c ≤ c := mul_le_of_le_one_left hc0 hc1.le
  refine ⟨?_, ?_, ?_, by linarith, ?_, ?_, ?_, ?_⟩
  · calc _ ≤ c + c := tri _ _ _ _ abs_c b00
      _ = 2 * c := by ring
  · rw [d01]
    calc _ ≤ c * c + 1 * 1 * c := tri _ _ _ _ (mulle _ _ _ _ b10 b22) (mulle _ _ _ _ (mulle _ _ _ _ b20 bS) b1ρ)
      _ ≤ 2 * c := by linarith
  · rw [d02, abs_neg]
    calc _ ≤ |m10 * m21| + |m20 * C * (1 - ρ)| := abs_add_le _ _
      _ ≤ c * c + 1 * 1 * c := add_le_add (mulle _ _ _ _ b10 b21) (mulle _ _ _ _ (mulle _ _ _ _ b20 bC) b1ρ)
      _ ≤ 2 * c := by linarith
  · rw [dC]
    calc _ ≤ 1 * c := mulle _ _ _ _ bC b1ρ
      _ ≤ 2 * c := by linarith
  · rw [dS, abs_neg]
    calc _ ≤ 1 * c := mulle _ _ _ _ bS b1ρ
      _ ≤ 2 * c := by linarith
  · calc _ ≤ c * 1 + c := tri _ _ _ _ (mulle _ _ _ _ abs_c bS) b21
      _ = 2 * c := by ring
  · calc _ ≤ c * 1 + c := tri _ _ _ _ (mulle _ _ _ _ abs_c bC) b22
      _ = 2 * c := by ring

/-- Near the poles they miss it by at most twice the cosine of the pitch. -/
theorem euler_polar {m : Mat3 ℝ} (h : m.IsRotation) {eps : ℝ} (h1 : eps < 1) (hc : cyOf m ≤ eps) (i j : Fin 3) :
    |(Mat3.ofEulerYPR (eulerFromMatrix eps m).yaw (eulerFromMatrix eps m).pitch (eulerFromMatrix eps m).roll).toM i j - m.toM i j| ≤
      2 * cyOf m := by
  obtain ⟨p1, p2⟩ := pitch_cos h
  have hsq := cyOf_sq m
  have hc0 : 0 ≤ cyOf m := Real.sqrt_nonneg _
  have hc1 : cyOf m < 1 := lt_of_le_of_lt hc h1
  have hρ2 : 0 < m.r1.y ^ 2 + m.r1.z ^ 2 := by nlinarith [h.eqs.r11, sq_nonneg m.r0.x]
  obtain ⟨ρ, hρ, hρs⟩ : ∃ ρ : ℝ, 0 < ρ ∧ ρ ^ 2 = m.r1.y ^ 2 + m.r1.z ^ 2 :=
    ⟨_, Real.sqrt_pos.2 hρ2, Real.sq_sqrt hρ2.le⟩
  have hone : (m.r1.y / ρ) ^ 2 + (-m.r1.z / ρ) ^ 2 = 1 := by
    rw [div_pow, div_pow, ← add_div, hρs]
    rw [neg_sq]; exact div_self hρ2.ne'
  have ha : tf2Atan2 (-m.r1.z) m.r1.y = tf2Atan2 (-m.r1.z / ρ) (m.r1.y / ρ) := by
    rw [← atan2_scale (inv_pos.2 hρ) (-m.r1.z) m.r1.y]
    congr 1 <;> ring
  have r1 := atan2_cos hone
  have r2 := atan2_sin hone
  rw [← ha] at r1 r2
  obtain ⟨a1, a2, a3, a4, a5, a6, a7, a8⟩ := polar_bounds h.eqs hsq hc0 hc1 hρ hρs
    (div_mul_cancel₀ _ hρ.ne') (div_mul_cancel₀ _ hρ.ne') hone
  rw [← r1] at a3 a5 a8
  rw [← r2] at a2 a6 a7
  rw [← p1] at a1 a7 a8
  rw [← p2] at a2 a3
  have hm : eulerFromMatrix eps m = ⟨0, tf2Atan2 (-m.r2.x) (cyOf m), tf2Atan2 (-m.r1.z) m.r1.y⟩ := by
    have hc' : ¬ Real.sqrt (m.r0.x * m.r0.x + m.r1.x * m.r1.x) > eps := not_lt.2 hc
    unfold eulerFromMatrix
    simp only [if_neg hc']
    rfl
  rw [hm]
  unfold Mat3.ofEulerYPR
  simp only [Real.cos_zero, Real.sin_zero, mul_one, mul_zero, sub_zero, add_zero, zero_add, zero_sub]
  rw [p1] at a1 a7 a8 ⊢
  rw [p2] at a2 a3 ⊢
  fin_cases i <;> fin_cases j <;> simp only [Mat3.toM, Matrix.of_apply, Matrix.cons_val', Matrix.cons_val_zero, Matrix.cons_val_one, Matrix.cons_val, Fin.zero_eta, Fin.mk_one, Fin.reduceFinMk]
  · exact a1
  · exact a2
  · exact a3
  · rw [zero_sub, abs_neg]; exact a4
  · exact a5
  · exact a6
  · rw [neg_neg, sub_self, abs_zero]; linarith
  · exact a7
  · exact a8

end Tf2.Py
