import Verif.Proofs.Geometry

/-! # Spherical linear interpolation -/
namespace Tf2

theorem tf2Acos_eq (x : ℝ) : tf2Acos x = Real.arccos x := by
  unfold tf2Acos
  dsimp only
  by_cases h1 : x < -1
  · have : ¬ ((-1 : ℝ) > 1) := by norm_num
    rw [if_pos h1, if_neg this, Real.arccos_of_le_neg_one h1.le, Real.arccos_neg_one]
  · rw [if_neg h1]
    by_cases h2 : x > 1
    · rw [if_pos h2, Real.arccos_of_one_le h2.le, Real.arccos_one]
    · rw [if_neg h2]

theorem tf2Asin_eq (x : ℝ) : tf2Asin x = Real.arcsin x := by
  unfold tf2Asin
  dsimp only
  by_cases h1 : x < -1
  · have : ¬ ((-1 : ℝ) > 1) := by norm_num
    rw [if_pos h1, if_neg this, Real.arcsin_of_le_neg_one h1.le, Real.arcsin_neg_one]
  · rw [if_neg h1]
    by_cases h2 : x > 1
    · rw [if_pos h2, Real.arcsin_of_one_le h2.le, Real.arcsin_one]
    · rw [if_neg h2]

namespace Quat

/-- the representative of `q` on the same side as `a` -/
noncomputable def side (a q : Quat ℝ) : Quat ℝ := if a.dot q < 0 then q.neg else q

theorem side_eq (a q : Quat ℝ) : a.side q = q ∨ a.side q = q.neg := by
  unfold side; split <;> simp

theorem Unit.side {a q : Quat ℝ} (hq : q.Unit) : (a.side q).Unit := by
  rcases side_eq a q with h | h <;> rw [h]
  · exact hq
  · exact hq.neg

theorem dot_neg (a q : Quat ℝ) : a.dot q.neg = - a.dot q := by
  simp [Quat.dot, Quat.neg]; ring

theorem dot_side (a q : Quat ℝ) : a.dot (a.side q) = |a.dot q| := by
  unfold side
  split
  · next h => rw [dot_neg, abs_of_neg h]
  · next h => rw [abs_of_nonneg (not_lt.1 h)]

theorem cauchy {a q : Quat ℝ} (ha : a.Unit) (hq : q.Unit) : |a.dot q| ≤ 1 := by
  unfold Quat.Unit at ha hq
  rw [abs_le]
  unfold Quat.dot
  constructor
  · nlinarith [sq_nonneg (a.x + q.x), sq_nonneg (a.y + q.y), sq_nonneg (a.z + q.z), sq_nonneg (a.w + q.w)]
  · nlinarith [sq_nonneg (a.x - q.x), sq_nonneg (a.y - q.y), sq_nonneg (a.z - q.z), sq_nonneg (a.w - q.w)]

theorem angle_eq {a q : Quat ℝ} (ha : a.Unit) (hq : q.Unit) :
    a.angleShortestPath q = 2 * Real.arccos |a.dot q| := by
  have h1 := (Quat.unit_iff a).1 ha
  have h2 := (Quat.unit_iff q).1 hq
  unfold angleShortestPath
  simp only [h1, h2, mul_one, Real.sqrt_one, div_one, tf2Acos_eq]
  split
  · next h => rw [dot_neg, abs_of_neg h, mul_comm]
  · next h => rw [abs_of_nonneg (not_lt.1 h), mul_comm]

/-- slerp on unit quaternions, written with the representative on the same side. -/
theorem slerp_eq {a q : Quat ℝ} (ha : a.Unit) (hq : q.Unit) (t : ℝ)
    (hθ : Real.arccos |a.dot q| ≠ 0) :
    a.slerp q t =
      ⟨(a.x * Real.sin ((1 - t) * Real.arccos |a.dot q|) +
          (a.side q).x * Real.sin (t * Real.arccos |a.dot q|)) * (1 / Real.sin (Real.arccos |a.dot q|)),
       (a.y * Real.sin ((1 - t) * Real.arccos |a.dot q|) +
          (a.side q).y * Real.sin (t * Real.arccos |a.dot q|)) * (1 / Real.sin (Real.arccos |a.dot q|)),
       (a.z * Real.sin ((1 - t) * Real.arccos |a.dot q|) +
          (a.side q).z * Real.sin (t * Real.arccos |a.dot q|)) * (1 / Real.sin (Real.arccos |a.dot q|)),
       (a.w * Real.sin ((1 - t) * Real.arccos |a.dot q|) +
          (a.side q).w * Real.sin (t * Real.arccos |a.dot q|)) * (1 / Real.sin (Real.arccos |a.dot q|))⟩ := by
  unfold slerp side
  have : a.angleShortestPath q / 2 = Real.arccos |a.dot q| := by rw [angle_eq ha hq]; ring
  simp only [this, ne_eq, hθ, not_false_eq_true, if_true]
  by_cases h : a.dot q < 0
  · simp only [h, if_true]; rfl
  · simp only [h, if_false]

theorem eq_of_dot_one {a q : Quat ℝ} (ha : a.Unit) (hq : q.Unit) (h : a.dot q = 1) : a = q := by
  unfold Quat.Unit at ha hq
  unfold Quat.dot at h
  have h0 : (a.x - q.x) ^ 2 + (a.y - q.y) ^ 2 + (a.z - q.z) ^ 2 + (a.w - q.w) ^ 2 = 0 := by
    linear_combination ha + hq - 2 * h
  have h1 := sq_nonneg (a.x - q.x)
  have h2 := sq_nonneg (a.y - q.y)
  have h3 := sq_nonneg (a.z - q.z)
  have h4 := sq_nonneg (a.w - q.w)
  ext
  · have : (a.x - q.x) ^ 2 = 0 := by linarith
    have := pow_eq_zero_iff (two_ne_zero) |>.1 this; linarith
  · have : (a.y - q.y) ^ 2 = 0 := by linarith
    have := pow_eq_zero_iff (two_ne_zero) |>.1 this; linarith
  · have : (a.z - q.z) ^ 2 = 0 := by linarith
    have := pow_eq_zero_iff (two_ne_zero) |>.1 this; linarith
  · have : (a.w - q.w) ^ 2 = 0 := by linarith
    have := pow_eq_zero_iff (two_ne_zero) |>.1 this; linarith

theorem side_of_zero {a q : Quat ℝ} (ha : a.Unit) (hq : q.Unit) (hθ : Real.arccos |a.dot q| = 0) :
    a.side q = a := by
  have h1 : 1 ≤ |a.dot q| := Real.arccos_eq_zero.1 hθ
  have h2 : |a.dot q| = 1 := le_antisymm (cauchy ha hq) h1
  exact (eq_of_dot_one ha hq.side (by rw [dot_side, h2])).symm

theorem slerp_of_zero {a q : Quat ℝ} (ha : a.Unit) (hq : q.Unit) (t : ℝ)
    (hθ : Real.arccos |a.dot q| = 0) : a.slerp q t = a := by
  unfold slerp
  have : a.angleShortestPath q / 2 = 0 := by rw [angle_eq ha hq, hθ]; ring
  simp [this]

theorem sin_pos_of_ne {c : ℝ} (hc : 0 ≤ c) (hθ : Real.arccos c ≠ 0) :
    0 < Real.sin (Real.arccos c) := by
  apply Real.sin_pos_of_pos_of_lt_pi
  · exact lt_of_le_of_ne (Real.arccos_nonneg _) (Ne.symm hθ)
  · have := Real.arccos_le_pi_div_two.2 hc
    have := Real.pi_pos
    linarith

/-- Slerp is `a` followed by a turn about one fixed axis, at constant rate. -/
theorem slerp_axis {a q : Quat ℝ} (ha : a.Unit) (hq : q.Unit) :
    ∃ n : Vec3 ℝ, n.length2 = 1 ∧
      (∀ t, a.slerp q t = a.mul (Quat.ofAxisAngle n (t * a.angleShortestPath q))) ∧
      a.side q = a.mul (Quat.ofAxisAngle n (a.angleShortestPath q)) := by
  by_cases hθ : Real.arccos |a.dot q| = 0
  · refine ⟨⟨1, 0, 0⟩, by simp [Vec3.length2, Vec3.dot], fun t => ?_, ?_⟩
    · rw [slerp_of_zero ha hq t hθ, angle_eq ha hq, hθ]
      ext <;> simp [Quat.mul, Quat.ofAxisAngle]
    · rw [side_of_zero ha hq hθ, angle_eq ha hq, hθ]
      ext <;> simp [Quat.mul, Quat.ofAxisAngle]
  · set θ := Real.arccos |a.dot q| with hθd
    have hs : 0 < Real.sin θ := sin_pos_of_ne (abs_nonneg _) hθ
    have hc : Real.cos θ = a.dot (a.side q) := by
      rw [hθd, dot_side, Real.cos_arccos (by linarith [abs_nonneg (a.dot q)]) (cauchy ha hq)]
    set q' := a.side q with hq'd
    have hq' : q'.Unit := hq.side
    -- relative rotation a⁻¹ q'
    set r := a.inverse.mul q' with hr
    have hrw : r.w = Real.cos θ := by
      rw [hc, hr]; simp [Quat.mul, Quat.inverse, Quat.dot]; ring
    have hru : r.Unit := Quat.Unit.mul ha.inverse hq'
    have har : q' = a.mul r := by
      rw [hr, ← Quat.mul_assoc, Quat.mul_inverse ha, Quat.identity_mul]
    have hsc := Real.sin_sq_add_cos_sq θ
    have hv : r.x ^ 2 + r.y ^ 2 + r.z ^ 2 = Real.sin θ ^ 2 := by
      unfold Quat.Unit at hru; rw [hrw] at hru; linarith
    have hn : (⟨r.x / Real.sin θ, r.y / Real.sin θ, r.z / Real.sin θ⟩ : Vec3 ℝ).length2 = 1 := by
      simp only [Vec3.length2, Vec3.dot]; field_simp; linarith
    have key : ∀ t, a.slerp q t =
        a.mul (Quat.ofAxisAngle ⟨r.x / Real.sin θ, r.y / Real.sin θ, r.z / Real.sin θ⟩
          (t * a.angleShortestPath q)) := by
      intro t
      rw [slerp_eq ha hq t hθ, angle_eq ha hq, ← hθd, ← hq'd, har]
      have hA : Real.sin ((1 - t) * θ) = Real.sin θ * Real.cos (t * θ) - Real.cos θ * Real.sin (t * θ) := by
        rw [← Real.sin_sub]; congr 1; ring
      have h2 : t * (2 * θ) * (1 / 2) = t * θ := by ring
      ext <;> simp only [Quat.mul, Quat.ofAxisAngle, Vec3.length, hn, h2, hA, Real.sqrt_one, div_one, hrw] <;>
        field_simp <;> ring
    refine ⟨_, hn, key, ?_⟩
    rw [angle_eq ha hq, ← hθd]
    have h2 : (2 * θ) * (1 / 2) = θ := by ring
    rw [har]
    ext <;> simp only [Quat.mul, Quat.ofAxisAngle, Vec3.length, hn, h2, Real.sqrt_one, div_one, hrw] <;>
      field_simp

theorem ofAxisAngle_unit {n : Vec3 ℝ} (h : n.length2 ≠ 0) (t : ℝ) : (Quat.ofAxisAngle n t).Unit := by
  have hp : 0 ≤ n.length2 := by
    simp only [Vec3.length2, Vec3.dot]; nlinarith [sq_nonneg n.x, sq_nonneg n.y, sq_nonneg n.z]
  have h1 : Real.sqrt n.length2 ^ 2 = n.length2 := Real.sq_sqrt hp
  have h2 : Real.sqrt n.length2 ≠ 0 := by
    intro h0; rw [h0] at h1; exact h (by rw [← h1]; norm_num)
  have h3 : n.length2 = n.x ^ 2 + n.y ^ 2 + n.z ^ 2 := by simp only [Vec3.length2, Vec3.dot]; ring
  have hsc := Real.sin_sq_add_cos_sq (t * (1 / 2))
  unfold Quat.Unit Quat.ofAxisAngle Vec3.length
  dsimp only
  generalize Real.sin (t * (1 / 2)) = S at *
  generalize Real.cos (t * (1 / 2)) = C at *
  field_simp
  rw [h1]
  linear_combination n.length2 * hsc - S ^ 2 * h3

theorem slerp_unit {a q : Quat ℝ} (ha : a.Unit) (hq : q.Unit) (t : ℝ) : (a.slerp q t).Unit := by
  obtain ⟨n, hn, h, _⟩ := slerp_axis ha hq
  rw [h t]
  exact ha.mul (ofAxisAngle_unit (by rw [hn]; exact one_ne_zero) _)

theorem ofAxisAngle_zero (n : Vec3 ℝ) : Quat.ofAxisAngle n 0 = Quat.identity := by
  ext <;> simp [Quat.ofAxisAngle, Quat.identity]

theorem slerp_zero {a q : Quat ℝ} (ha : a.Unit) (hq : q.Unit) : a.slerp q 0 = a := by
  obtain ⟨n, hn, h, _⟩ := slerp_axis ha hq
  rw [h 0, zero_mul, ofAxisAngle_zero, Quat.mul_identity]

theorem slerp_one {a q : Quat ℝ} (ha : a.Unit) (hq : q.Unit) :
    a.slerp q 1 = q ∨ a.slerp q 1 = q.neg := by
  obtain ⟨n, hn, h, h'⟩ := slerp_axis ha hq
  rw [h 1, one_mul, ← h']
  exact side_eq a q

end Quat
end Tf2
