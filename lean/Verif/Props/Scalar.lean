import Verif.Proofs.Scalar

/-!
# Angles of `Scalar.h`: C78
-/
namespace Tf2.Scalar

open Tf2.Py

/-- **C78.** On doubles, with any correct rounding, `tf2NormalizeAngle` is exact: it returns an angle of at most half a
turn that differs from the argument by a whole number of turns, a turn being the double `TF2SIMD_2_PI`; the result is a
double. -/
theorem C78_normalize {fl : ℚ → ℚ} (h : IsFl fl) {x : ℚ} (hx : Rep x) :
    |normalizeAngle fl x| ≤ twoPi / 2 ∧ (∃ n : ℤ, x = normalizeAngle fl x + n * twoPi) ∧ Rep (normalizeAngle fl x) := by
  have hp := twoPi_pos
  obtain ⟨h1, _⟩ := fmod_spec (x := x) hp
  have hr := rep_fmod hx rep_twoPi hp
  rw [abs_lt] at h1
  have he : x = fmod x twoPi + (trunc (x / twoPi) : ℤ) * twoPi := by unfold fmod; ring
  have hfl := normalizeAngle_eq h hx
  have hR : Rep (normalizeAngle fl x) := by
    unfold normalizeAngle
    dsimp only
    split
    · exact (h _).1
    · split
      · exact (h _).1
      · exact hr
  refine ⟨?_, ?_, hR⟩
  · rw [hfl, abs_le]
    split
    · constructor <;> linarith
    · split
      · constructor <;> linarith
      · constructor <;> linarith
  · rw [hfl]
    split
    · exact ⟨trunc (x / twoPi) - 1, by push_cast; linarith⟩
    · split
      · exact ⟨trunc (x / twoPi) + 1, by push_cast; linarith⟩
      · exact ⟨trunc (x / twoPi), he⟩

/-- The only angles of at most half a turn that differ by whole turns are the two half turns. -/
theorem unique_angle {r s : ℚ} (hr : |r| ≤ twoPi / 2) (hs : |s| ≤ twoPi / 2) {n : ℤ} (h : r = s + n * twoPi) :
    r = s ∨ (|r| = twoPi / 2 ∧ s = -r) := by
  have hp := twoPi_pos
  rw [abs_le] at hr hs
  have h1 : (n : ℚ) ≤ 1 := by
    by_contra hc
    have : (n : ℚ) * twoPi > twoPi := by nlinarith [not_le.1 hc]
    linarith
  have h2 : (-1 : ℚ) ≤ n := by
    by_contra hc
    have : (n : ℚ) * twoPi < -twoPi := by nlinarith [not_le.1 hc]
    linarith
  have h1' : n ≤ 1 := by exact_mod_cast h1
  have h2' : -1 ≤ n := by exact_mod_cast h2
  have : n = -1 ∨ n = 0 ∨ n = 1 := by omega
  rcases this with rfl | rfl | rfl
  · have e : r = -(twoPi / 2) := by push_cast at h; linarith
    right
    rw [e, abs_neg, abs_of_pos (by linarith)]
    exact ⟨rfl, by push_cast at h; linarith⟩
  · left; push_cast at h; linarith
  · have e : r = twoPi / 2 := by push_cast at h; linarith
    right
    rw [e, abs_of_pos (by linarith)]
    exact ⟨rfl, by push_cast at h; linarith⟩

/-- **C78.** Angles that differ by whole turns are normalised to the same angle, or to half a turn one way and the other;
an angle of at most half a turn is left alone (so normalising twice is normalising once); the result is no larger than
any angle it stands for; and the negative angle gives the negative result. -/
theorem C78_classes {fl : ℚ → ℚ} (h : IsFl fl) {x y : ℚ} (hx : Rep x) (hy : Rep y) :
    (∀ n : ℤ, x = y + n * twoPi → normalizeAngle fl x = normalizeAngle fl y ∨
      (|normalizeAngle fl x| = twoPi / 2 ∧ normalizeAngle fl y = -normalizeAngle fl x)) ∧
    (|x| ≤ twoPi / 2 → normalizeAngle fl x = x) ∧
    (∀ n : ℤ, |normalizeAngle fl x| ≤ |x + n * twoPi|) ∧
    normalizeAngle fl (-x) = -normalizeAngle fl x := by
  have hp := twoPi_pos
  obtain ⟨x1, ⟨nx, x2⟩, x3⟩ := C78_normalize h hx
  obtain ⟨y1, ⟨ny, y2⟩, y3⟩ := C78_normalize h hy
  have hsmall : |x| ≤ twoPi / 2 → normalizeAngle fl x = x := by
    intro hs
    have h0 : fmod x twoPi = x := by
      have : trunc (x / twoPi) = 0 := by
        have hq : |x / twoPi| ≤ 1 / 2 := by
          rw [abs_div, abs_of_pos hp, div_le_iff₀ hp]; linarith
        rw [abs_le] at hq
        unfold trunc
        split
        · exact Int.floor_eq_iff.2 ⟨by push_cast; assumption, by push_cast; linarith⟩
        · exact Int.ceil_eq_iff.2 ⟨by push_cast; linarith, by push_cast; linarith⟩
      unfold fmod
      rw [this]; simp
    rw [abs_le] at hs
    rw [normalizeAngle_eq h hx, h0, if_neg (by linarith), if_neg (by linarith)]
  refine ⟨fun n e => ?_, hsmall, fun n => ?_, ?_⟩
  · exact unique_angle x1 y1 (n := ny + n - nx) (by push_cast; linarith)
  · rcases le_or_gt |x + n * twoPi| (twoPi / 2) with hs | hs
    · rcases unique_angle x1 hs (n := -nx - n) (by push_cast; linarith) with e | ⟨e1, e2⟩
      · rw [e]
      · rw [e2, abs_neg]
    · exact x1.trans hs.le
  · rw [normalizeAngle_eq h hx, normalizeAngle_eq h (Rep.neg hx), fmod_neg]
    by_cases h1 : fmod x twoPi < -(twoPi / 2)
    · rw [if_neg (by linarith), if_pos (by linarith), if_pos h1]; ring
    · rw [if_neg h1]
      by_cases h2 : fmod x twoPi > twoPi / 2
      · rw [if_pos (by linarith), if_pos h2]; ring
      · rw [if_neg (by linarith), if_neg (by linarith), if_neg h2]

/-- **C78.** How far this is from a true angle: `TF2SIMD_2_PI` is short of `2π` by between `2.4e-16` and `2.5e-16`, so each
whole turn taken away puts the result off by that much. -/
theorem C78_true_turns {fl : ℚ → ℚ} (h : IsFl fl) {x : ℚ} (hx : Rep x) :
    ∃ n : ℤ, (x : ℝ) - (normalizeAngle fl x + n * (2 * Real.pi)) = -(n * (2 * Real.pi - twoPi)) ∧
      (24 / 10 ^ 17 : ℝ) < 2 * Real.pi - twoPi ∧ 2 * Real.pi - twoPi < (25 / 10 ^ 17 : ℝ) := by
  obtain ⟨_, ⟨n, e⟩, _⟩ := C78_normalize h hx
  have e' : (x : ℝ) = normalizeAngle fl x + n * (twoPi : ℚ) := by exact_mod_cast e
  refine ⟨n, by rw [e']; ring, ?_, ?_⟩
  · have := Real.pi_gt_d20
    unfold twoPi; push_cast; norm_num at this ⊢; linarith
  · have := Real.pi_lt_d20
    unfold twoPi; push_cast; norm_num at this ⊢; linarith

/-- A rounding exists, and angles that are turned: seven is a double. -/
example : IsFl nearest ∧ Rep 7 ∧ normalizeAngle nearest 7 = 7 - twoPi := by
  have h7 : Rep 7 := by simpa using Rep.nat 7 (by norm_num)
  refine ⟨nearest_isFl, h7, ?_⟩
  have e : fmod 7 twoPi = 7 - twoPi := by
    have : trunc (7 / twoPi) = 1 := by
      unfold trunc
      rw [if_pos (by unfold twoPi; norm_num)]
      exact Int.floor_eq_iff.2 ⟨by unfold twoPi; norm_num, by unfold twoPi; norm_num⟩
    unfold fmod; rw [this]; simp
  rw [normalizeAngle_eq nearest_isFl h7, e, if_neg (by unfold twoPi; norm_num), if_neg (by unfold twoPi; norm_num)]

/-- **C78 (finding).** Half a turn and minus half a turn differ by one turn but are both left alone. -/
theorem C78_half_turn_finding {fl : ℚ → ℚ} (h : IsFl fl) :
    normalizeAngle fl (twoPi / 2) = twoPi / 2 ∧ normalizeAngle fl (-(twoPi / 2)) = -(twoPi / 2) := by
  have hp := twoPi_pos
  have hr : Rep (twoPi / 2) := by have := Rep.half rep_twoPi; rwa [show twoPi * (1 / 2) = twoPi / 2 by ring] at this
  exact ⟨(C78_classes h hr hr).2.1 (by rw [abs_of_pos (by linarith)]),
    (C78_classes h (Rep.neg hr) (Rep.neg hr)).2.1 (by rw [abs_neg, abs_of_pos (by linarith)])⟩

/-! ### The fast arc tangent -/

/-- **C78.** `tf2Atan2Fast` is not a number exactly at the origin. Elsewhere it is off by less than 0.076 (4.4 degrees),
within the same range, and on the same side. -/
theorem C78_fast (y x : ℝ) : (atan2Fast y x = none ↔ x = 0 ∧ y = 0) ∧
    ∀ a, atan2Fast y x = some a → |a - tf2Atan2 y x| ≤ 76 / 1000 ∧ |a| ≤ Real.pi ∧ (a < 0 ↔ tf2Atan2 y x < 0) := by
  have hpi := Real.pi_pos
  by_cases h0 : x = 0 ∧ y = 0
  · obtain ⟨rfl, rfl⟩ := h0
    have : atan2Fast 0 0 = none := by simp [atan2Fast]
    rw [this]
    exact ⟨by simp, fun a e => by cases e⟩
  · have h : x ≠ 0 ∨ y ≠ 0 := by
      by_contra hc
      push Not at hc
      exact h0 hc
    rw [atan2Fast_eq h]
    refine ⟨by simp [h0], fun a e => ?_⟩
    have hlow : -Real.pi < tf2Atan2 y x := Complex.neg_pi_lt_arg _
    have hup : tf2Atan2 y x ≤ Real.pi := Complex.arg_le_pi _
    have hm := curve_mono
    obtain ⟨c0, _, _, _, c1⟩ := curve_values
    have m0 : (0 : ℝ) ∈ Set.Icc 0 Real.pi := ⟨le_refl 0, hpi.le⟩
    have m1 : Real.pi ∈ Set.Icc 0 Real.pi := ⟨hpi.le, le_refl _⟩
    have e := Option.some.inj e
    by_cases hn : tf2Atan2 y x < 0
    · rw [if_pos hn] at e
      have mm : -tf2Atan2 y x ∈ Set.Icc 0 Real.pi := ⟨by linarith, by linarith⟩
      have l1 := hm m0 mm (by linarith)
      have l2 := hm.monotoneOn mm m1 (by linarith)
      rw [c0] at l1
      rw [c1] at l2
      have l3 := curve_near mm.1 mm.2
      refine ⟨?_, ?_, ?_⟩
      · rw [← e, show -curve (-tf2Atan2 y x) - tf2Atan2 y x = -(curve (-tf2Atan2 y x) - -tf2Atan2 y x) by ring, abs_neg]
        exact l3
      · rw [← e, abs_neg, abs_of_pos l1]; exact l2
      · exact ⟨fun _ => hn, fun _ => by rw [← e]; linarith⟩
    · rw [if_neg hn] at e
      have mm : tf2Atan2 y x ∈ Set.Icc 0 Real.pi := ⟨by linarith, by linarith⟩
      have l1 := hm.monotoneOn m0 mm (by linarith)
      have l2 := hm.monotoneOn mm m1 (by linarith)
      rw [c0] at l1
      rw [c1] at l2
      refine ⟨by rw [← e]; exact curve_near mm.1 mm.2, by rw [← e, abs_of_nonneg l1]; exact l2, ?_⟩
      exact ⟨fun h => absurd h (by rw [← e]; linarith), fun h => absurd h hn⟩

/-- **C78.** `tf2Atan2Fast` orders directions as the true arc tangent does. -/
theorem C78_fast_order {x y x' y' : ℝ} {a a' : ℝ} (h : atan2Fast y x = some a) (h' : atan2Fast y' x' = some a') :
    a < a' ↔ tf2Atan2 y x < tf2Atan2 y' x' := by
  have ne : ∀ {x y a : ℝ}, atan2Fast y x = some a → x ≠ 0 ∨ y ≠ 0 := by
    intro x y a h
    by_contra hc
    push Not at hc
    rw [((C78_fast y x).1).2 hc] at h
    cases h
  have s1 := (C78_fast y x).2 a h
  have s2 := (C78_fast y' x').2 a' h'
  rw [atan2Fast_eq (ne h)] at h
  rw [atan2Fast_eq (ne h')] at h'
  have e := Option.some.inj h
  have e' := Option.some.inj h'
  have hlow : -Real.pi < tf2Atan2 y x := Complex.neg_pi_lt_arg _
  have hup : tf2Atan2 y x ≤ Real.pi := Complex.arg_le_pi _
  have hlow' : -Real.pi < tf2Atan2 y' x' := Complex.neg_pi_lt_arg _
  have hup' : tf2Atan2 y' x' ≤ Real.pi := Complex.arg_le_pi _
  have hm := curve_mono
  by_cases h1 : tf2Atan2 y x < 0 <;> by_cases h2 : tf2Atan2 y' x' < 0
  · rw [if_pos h1] at e
    rw [if_pos h2] at e'
    have := hm.lt_iff_lt (a := -tf2Atan2 y' x') (b := -tf2Atan2 y x) ⟨by linarith, by linarith⟩ ⟨by linarith, by linarith⟩
    rw [← e, ← e', neg_lt_neg_iff, this, neg_lt_neg_iff]
  · have := s1.2.2.2 h1
    have : ¬ a' < 0 := fun h => h2 (s2.2.2.1 h)
    exact ⟨fun _ => by linarith, fun _ => by linarith⟩
  · have := s2.2.2.2 h2
    have : ¬ a < 0 := fun h => h1 (s1.2.2.1 h)
    exact ⟨fun _ => by linarith, fun _ => by linarith⟩
  · rw [if_neg h1] at e
    rw [if_neg h2] at e'
    rw [← e, ← e']
    exact hm.lt_iff_lt ⟨by linarith, by linarith⟩ ⟨by linarith, by linarith⟩

/-- **C78.** `tf2Atan2Fast` is exact in the eight main directions. -/
theorem C78_fast_exact {r : ℝ} (hr : 0 < r) :
    atan2Fast 0 r = some 0 ∧ atan2Fast r r = some (Real.pi / 4) ∧ atan2Fast r 0 = some (Real.pi / 2) ∧
    atan2Fast r (-r) = some (3 * (Real.pi / 4)) ∧ atan2Fast 0 (-r) = some Real.pi ∧
    atan2Fast (-r) (-r) = some (-(3 * (Real.pi / 4))) ∧ atan2Fast (-r) 0 = some (-(Real.pi / 2)) ∧
    atan2Fast (-r) r = some (-(Real.pi / 4)) := by
  have h1 : ¬ r < 0 := by linarith
  have h2 : ¬ r ≤ 0 := by linarith
  have h3 : r + r ≠ 0 := by linarith
  have h4 : r ≠ 0 := by linarith
  refine ⟨?_, ?_, ?_, ?_, ?_, ?_, ?_, ?_⟩ <;>
    simp [atan2Fast, hr, h1, h2, h4, abs_of_pos hr, hr.le, div_self] <;> ring

end Tf2.Scalar
