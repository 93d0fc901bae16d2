import Verif.Model.Scalar
import Verif.Proofs.PyTime
import Mathlib.Analysis.Real.Pi.Bounds
import Mathlib.Analysis.SpecialFunctions.Trigonometric.ArctanDeriv
import Mathlib.Analysis.Calculus.Deriv.MeanValue

/-!
# Lemmas about `Scalar.h`
-/
namespace Tf2.Scalar

open Tf2.Py

theorem rep_twoPi : Rep twoPi := ⟨884279719003555, -47, by norm_num, by unfold twoPi; norm_num [zpow_neg]⟩

theorem twoPi_pos : 0 < twoPi := by unfold twoPi; norm_num

theorem Rep.half {x : ℚ} (h : Rep x) : Rep (x * (1 / 2)) := by
  obtain ⟨m, k, hm, rfl⟩ := h
  refine ⟨m, k - 1, hm, ?_⟩
  rw [zpow_sub_one₀ (by norm_num)]; ring

theorem pi_eq {fl : ℚ → ℚ} (h : IsFl fl) : pi fl = twoPi / 2 := by
  unfold pi
  rw [h.exact (Rep.half rep_twoPi)]; ring

theorem Rep.neg {x : ℚ} (h : Rep x) : Rep (-x) := by
  obtain ⟨m, k, hm, rfl⟩ := h
  exact ⟨-m, k, by rwa [abs_neg], by push_cast; ring⟩

/-- A combination of two doubles with whole coefficients that is no larger than either is a double. -/
theorem rep_combination {x y : ℚ} (hx : Rep x) (hy : Rep y) (a b : ℤ) (h1 : |a * x + b * y| ≤ |x|) (h2 : |a * x + b * y| ≤ |y|) :
    Rep (a * x + b * y) := by
  obtain ⟨m, k, hm, rfl⟩ := hx
  obtain ⟨n, l, hn, rfl⟩ := hy
  rcases le_total k l with hkl | hkl
  · obtain ⟨d, rfl⟩ := Int.le.dest hkl
    have hp : (0 : ℚ) < 2 ^ k := zpow_pos (by norm_num) _
    have e : (a : ℚ) * (m * 2 ^ k) + b * (n * 2 ^ (k + (d : ℤ))) = ((a * m + b * n * 2 ^ d : ℤ) : ℚ) * 2 ^ k := by
      rw [zpow_add₀ (by norm_num), zpow_natCast]; push_cast; ring
    refine ⟨a * m + b * n * 2 ^ d, k, ?_, e⟩
    rw [e, abs_mul, abs_mul (m : ℚ)] at h1
    have := le_of_mul_le_mul_right h1 (abs_pos.2 hp.ne')
    have h3 : |a * m + b * n * 2 ^ d| ≤ |m| := by exact_mod_cast this
    exact h3.trans hm
  · obtain ⟨d, rfl⟩ := Int.le.dest hkl
    have hp : (0 : ℚ) < 2 ^ l := zpow_pos (by norm_num) _
    have e : (a : ℚ) * (m * 2 ^ (l + (d : ℤ))) + b * (n * 2 ^ l) = ((a * m * 2 ^ d + b * n : ℤ) : ℚ) * 2 ^ l := by
      rw [zpow_add₀ (by norm_num), zpow_natCast]; push_cast; ring
    refine ⟨a * m * 2 ^ d + b * n, l, ?_, e⟩
    rw [e, abs_mul, abs_mul (n : ℚ)] at h2
    have := le_of_mul_le_mul_right h2 (abs_pos.2 hp.ne')
    have h3 : |a * m * 2 ^ d + b * n| ≤ |n| := by exact_mod_cast this
    exact h3.trans hn

theorem trunc_spec (q : ℚ) : |q - trunc q| < 1 ∧ (0 ≤ q → 0 ≤ q - trunc q) ∧ (q ≤ 0 → q - trunc q ≤ 0) ∧ |q - trunc q| ≤ |q| := by
  unfold trunc
  split
  · next h =>
    have h1 := Int.floor_le q
    have h2 := Int.lt_floor_add_one q
    have h3 : (0 : ℚ) ≤ (⌊q⌋ : ℚ) := by exact_mod_cast Int.floor_nonneg.2 h
    refine ⟨by rw [abs_lt]; constructor <;> linarith, fun _ => by linarith, fun h' => ?_, ?_⟩
    · have : q = 0 := le_antisymm h' h
      subst this; simp
    · rw [abs_of_nonneg (by linarith), abs_of_nonneg h]; linarith
  · next h =>
    have h := not_le.1 h
    have h1 := Int.le_ceil q
    have h2 := Int.ceil_lt_add_one q
    have h3 : (⌈q⌉ : ℚ) ≤ 0 := by exact_mod_cast Int.ceil_le.2 (by simpa using h.le)
    refine ⟨by rw [abs_lt]; constructor <;> linarith, fun h' => by linarith, fun _ => by linarith, ?_⟩
    rw [abs_of_nonpos (by linarith), abs_of_nonpos h.le]; linarith

theorem fmod_spec {x y : ℚ} (hy : 0 < y) : |fmod x y| < y ∧ |fmod x y| ≤ |x| ∧ (0 ≤ x → 0 ≤ fmod x y) ∧ (x ≤ 0 → fmod x y ≤ 0) := by
  have e : fmod x y = (x / y - trunc (x / y)) * y := by unfold fmod; field_simp
  obtain ⟨h1, h2, h3, h4⟩ := trunc_spec (x / y)
  rw [e]
  refine ⟨?_, ?_, fun h => mul_nonneg (h2 (div_nonneg h hy.le)) hy.le,
    fun h => mul_nonpos_of_nonpos_of_nonneg (h3 (div_nonpos_of_nonpos_of_nonneg h hy.le)) hy.le⟩
  · rw [abs_mul, abs_of_pos hy]; nlinarith
  · rw [abs_mul, abs_of_pos hy]
    calc _ ≤ |x / y| * y := mul_le_mul_of_nonneg_right h4 hy.le
      _ = |x| := by rw [abs_div, abs_of_pos hy]; field_simp

theorem rep_fmod {x y : ℚ} (hx : Rep x) (hy : Rep y) (hp : 0 < y) : Rep (fmod x y) := by
  obtain ⟨h1, h2, _⟩ := fmod_spec (x := x) hp
  have e : fmod x y = ((1 : ℤ) : ℚ) * x + ((-trunc (x / y) : ℤ) : ℚ) * y := by unfold fmod; push_cast; ring
  rw [e] at h1 h2 ⊢
  exact rep_combination hx hy _ _ h2 (by rw [abs_of_pos hp]; exact h1.le)

theorem trunc_neg (q : ℚ) : trunc (-q) = -trunc q := by
  unfold trunc
  rcases lt_trichotomy q 0 with h | h | h
  · rw [if_pos (by linarith), if_neg (by linarith), Int.floor_neg]
  · subst h; simp
  · rw [if_neg (by linarith), if_pos h.le, Int.ceil_neg]

theorem fmod_neg (x y : ℚ) : fmod (-x) y = -fmod x y := by
  unfold fmod
  rw [neg_div, trunc_neg]; push_cast; ring

/-- What the function computes, with nothing rounded. -/
theorem normalizeAngle_eq {fl : ℚ → ℚ} (h : IsFl fl) {x : ℚ} (hx : Rep x) :
    normalizeAngle fl x = if fmod x twoPi < -(twoPi / 2) then fmod x twoPi + twoPi
      else if fmod x twoPi > twoPi / 2 then fmod x twoPi - twoPi else fmod x twoPi := by
  have hr := rep_fmod hx rep_twoPi twoPi_pos
  obtain ⟨h1, _⟩ := fmod_spec (x := x) twoPi_pos
  have hp := twoPi_pos
  rw [abs_lt] at h1
  unfold normalizeAngle
  dsimp only
  rw [pi_eq h]
  split
  · next hlt =>
    refine h.exact ?_
    have e : fmod x twoPi + twoPi = ((1 : ℤ) : ℚ) * fmod x twoPi + ((1 : ℤ) : ℚ) * twoPi := by push_cast; ring
    rw [e]
    refine rep_combination hr rep_twoPi _ _ ?_ ?_ <;> rw [← e]
    · rw [abs_of_nonneg (by linarith), abs_of_nonpos (by linarith)]; linarith
    · rw [abs_of_nonneg (by linarith), abs_of_pos hp]; linarith
  · split
    · next hgt =>
      refine h.exact ?_
      have e : fmod x twoPi - twoPi = ((1 : ℤ) : ℚ) * fmod x twoPi + ((-1 : ℤ) : ℚ) * twoPi := by push_cast; ring
      rw [e]
      refine rep_combination hr rep_twoPi _ _ ?_ ?_ <;> rw [← e]
      · rw [abs_of_nonpos (by linarith), abs_of_nonneg (by linarith)]; linarith
      · rw [abs_of_nonpos (by linarith), abs_of_pos hp]; linarith
    · rfl

/-! ### The fast arc tangent -/

open Real in
/-- `u - π/4 tan u` on one side. -/
theorem bow_bounds {u : ℝ} (h0 : 0 ≤ u) (h1 : u ≤ π / 4) : 0 ≤ u - π / 4 * tan u ∧ u - π / 4 * tan u ≤ 76 / 1000 := by
  have hpi := Real.pi_pos
  have hcos : ∀ x ∈ Set.Icc (0 : ℝ) (π / 4), 0 < cos x := fun x hx =>
    cos_pos_of_mem_Ioo ⟨by linarith [hx.1], by linarith [hx.2]⟩
  have hcont : ContinuousOn tan (Set.Icc (0 : ℝ) (π / 4)) := fun x hx =>
    (continuousAt_tan.2 (hcos x hx).ne').continuousWithinAt
  have hint : interior (Set.Icc (0 : ℝ) (π / 4)) = Set.Ioo 0 (π / 4) := interior_Icc
  have hsub : ∀ x ∈ Set.Ioo (0 : ℝ) (π / 4), 0 < cos x := fun x hx => hcos x ⟨hx.1.le, hx.2.le⟩
  constructor
  · have hconv : ConvexOn ℝ (Set.Icc (0 : ℝ) (π / 4)) tan := by
      refine MonotoneOn.convexOn_of_deriv (convex_Icc _ _) hcont ?_ ?_ <;> rw [hint]
      · exact fun x hx => (differentiableAt_tan.2 (hsub x hx).ne').differentiableWithinAt
      · intro x hx y hy hxy
        rw [deriv_tan, deriv_tan]
        have h2 : cos y ≤ cos x := cos_le_cos_of_nonneg_of_le_pi hx.1.le (by linarith [hy.2]) hxy
        have h3 := hsub y hy
        exact one_div_le_one_div_of_le (by positivity) (by nlinarith)
    have m0 : (0 : ℝ) ∈ Set.Icc (0 : ℝ) (π / 4) := ⟨le_refl 0, by linarith⟩
    have m1 : π / 4 ∈ Set.Icc (0 : ℝ) (π / 4) := ⟨by linarith, le_refl _⟩
    have a0 : 0 ≤ 1 - u / (π / 4) := by rw [sub_nonneg, div_le_one (by linarith)]; exact h1
    have b0 : 0 ≤ u / (π / 4) := by positivity
    have hl := (hconv.2 m0 m1 a0 b0 (by ring))
    simp only [smul_eq_mul, mul_zero, zero_add, tan_zero, tan_pi_div_four, mul_one] at hl
    rw [div_mul_cancel₀ _ (by positivity)] at hl
    have h4 : π / 4 * tan u ≤ π / 4 * (u / (π / 4)) := mul_le_mul_of_nonneg_left hl (by linarith)
    rw [mul_div_cancel₀ _ (by positivity)] at h4
    linarith
  · have hmono : MonotoneOn (fun x => tan x - x - x ^ 3 / 3) (Set.Icc (0 : ℝ) (π / 4)) := by
      refine monotoneOn_of_deriv_nonneg (convex_Icc _ _) ?_ ?_ ?_
      · exact (hcont.sub continuousOn_id).sub ((continuousOn_id.pow 3).div_const 3)
      · rw [hint]
        intro x hx
        refine DifferentiableAt.differentiableWithinAt ?_
        exact ((differentiableAt_tan.2 (hsub x hx).ne').sub differentiableAt_id).sub ((differentiableAt_id.pow 3).div_const 3)
      · rw [hint]
        intro x hx
        have hd : HasDerivAt (fun x => tan x - x - x ^ 3 / 3) (1 / cos x ^ 2 - 1 - (3 * x ^ 2) / 3) x := by
          have h3 : HasDerivAt (fun x : ℝ => x ^ 3 / 3) ((3 * x ^ 2) / 3) x := by
            have := (hasDerivAt_pow 3 x).div_const 3
            simpa using this
          exact ((hasDerivAt_tan (hsub x hx).ne').sub (hasDerivAt_id x)).sub h3
        rw [hd.deriv]
        have hc := hsub x hx
        have ht : x ≤ tan x := le_tan hx.1.le (by linarith [hx.2])
        have h2 : 1 / cos x ^ 2 = 1 + tan x ^ 2 := by
          rw [tan_eq_sin_div_cos]
          field_simp
          linarith [sin_sq_add_cos_sq x]
        rw [h2]
        have : x ^ 2 ≤ tan x ^ 2 := by nlinarith [hx.1]
        linarith
    have hm := hmono (a := 0) (b := u) ⟨le_refl 0, by linarith⟩ ⟨h0, h1⟩ h0
    simp only [tan_zero] at hm
    have ht : u + u ^ 3 / 3 ≤ tan u := by norm_num at hm; linarith
    have hp1 : 3.141 < π := by have := Real.pi_gt_d4; linarith
    have h5 : 3.141 / 4 * (u + u ^ 3 / 3) ≤ π / 4 * tan u := by
      have hu : 0 ≤ u + u ^ 3 / 3 := by positivity
      exact mul_le_mul (by linarith) ht hu (by linarith)
    have h6 : u - 3.141 / 4 * (u + u ^ 3 / 3) ≤ 76 / 1000 := by
      nlinarith [mul_nonneg h0 (sq_nonneg (u - 523 / 1000)), sq_nonneg (u - 523 / 1000)]
    linarith

open Real in
theorem bow_abs {u : ℝ} (h : |u| ≤ π / 4) : |u - π / 4 * tan u| ≤ 76 / 1000 := by
  rcases le_total 0 u with h0 | h0
  · rw [abs_of_nonneg h0] at h
    obtain ⟨h1, h2⟩ := bow_bounds h0 h
    rw [abs_of_nonneg h1]; exact h2
  · rw [abs_of_nonpos h0] at h
    obtain ⟨h1, h2⟩ := bow_bounds (neg_nonneg.2 h0) h
    rw [tan_neg] at h1 h2
    rw [abs_of_nonpos (by linarith)]; linarith

open Real in
/-- The fast arc tangent of a direction above the axis. -/
noncomputable def curve (p : ℝ) : ℝ :=
  if p ≤ π / 2 then π / 4 - π / 4 * tan (π / 4 - p) else 3 * (π / 4) - π / 4 * tan (3 * (π / 4) - p)

open Real in
theorem curve_near {p : ℝ} (h0 : 0 ≤ p) (h1 : p ≤ π) : |curve p - p| ≤ 76 / 1000 := by
  unfold curve
  split
  · next h =>
    have := bow_abs (u := π / 4 - p) (by rw [abs_le]; constructor <;> linarith)
    rwa [show π / 4 - π / 4 * tan (π / 4 - p) - p = (π / 4 - p) - π / 4 * tan (π / 4 - p) by ring]
  · next h =>
    have := bow_abs (u := 3 * (π / 4) - p) (by rw [abs_le]; constructor <;> linarith)
    rwa [show 3 * (π / 4) - π / 4 * tan (3 * (π / 4) - p) - p = (3 * (π / 4) - p) - π / 4 * tan (3 * (π / 4) - p) by ring]

open Real in
theorem curve_values : curve 0 = 0 ∧ curve (π / 4) = π / 4 ∧ curve (π / 2) = π / 2 ∧ curve (3 * (π / 4)) = 3 * (π / 4) ∧ curve π = π := by
  have hpi := Real.pi_pos
  have e1 : π / 4 - π / 2 = -(π / 4) := by ring
  have e2 : 3 * (π / 4) - π = -(π / 4) := by ring
  unfold curve
  rw [if_pos (by linarith), if_pos (by linarith), if_pos (by linarith), if_neg (by linarith), if_neg (by linarith)]
  rw [sub_zero, sub_self, sub_self, e1, e2, tan_neg, tan_pi_div_four, tan_zero]
  refine ⟨by ring, by ring, by ring, by ring, by ring⟩

open Real in
theorem curve_mono : StrictMonoOn curve (Set.Icc 0 π) := by
  have hpi := Real.pi_pos
  have key : ∀ {c p q : ℝ}, |c - p| ≤ π / 4 → |c - q| ≤ π / 4 → p < q →
      c - π / 4 * tan (c - p) < c - π / 4 * tan (c - q) := by
    intro c p q hp hq hpq
    rw [abs_le] at hp hq
    have := strictMonoOn_tan (a := c - q) (b := c - p) ⟨by linarith, by linarith⟩ ⟨by linarith, by linarith⟩ (by linarith)
    have := mul_lt_mul_of_pos_left this (by linarith : (0 : ℝ) < π / 4)
    linarith
  have e1 : π / 4 - π / 2 = -(π / 4) := by ring
  have e3 : 3 * (π / 4) - π / 2 = π / 4 := by ring
  intro p hp q hq hpq
  unfold curve
  by_cases h1 : p ≤ π / 2
  · rw [if_pos h1]
    by_cases h2 : q ≤ π / 2
    · rw [if_pos h2]
      exact key (by rw [abs_le]; constructor <;> linarith [hp.1]) (by rw [abs_le]; constructor <;> linarith [hp.1]) hpq
    · rw [if_neg h2]
      have ha : π / 4 - π / 4 * tan (π / 4 - p) ≤ π / 2 := by
        rcases eq_or_lt_of_le h1 with h | h
        · rw [h, e1, tan_neg, tan_pi_div_four]; linarith
        · have := key (c := π / 4) (p := p) (q := π / 2) (by rw [abs_le]; constructor <;> linarith [hp.1])
            (by rw [e1, abs_neg, abs_of_pos (by linarith)]) h
          rw [e1, tan_neg, tan_pi_div_four] at this
          linarith
      have hb := key (c := 3 * (π / 4)) (p := π / 2) (q := q) (by rw [e3, abs_of_pos (by linarith)])
        (by rw [abs_le]; constructor <;> linarith [hq.2]) (by linarith)
      rw [e3, tan_pi_div_four] at hb
      linarith
  · rw [if_neg h1, if_neg (by linarith)]
    exact key (by rw [abs_le]; constructor <;> linarith [hq.2]) (by rw [abs_le]; constructor <;> linarith [hq.2]) hpq

open Real in
/-- In polar coordinates. -/
theorem atan2Fast_eq {x y : ℝ} (h : x ≠ 0 ∨ y ≠ 0) :
    atan2Fast y x = some (if tf2Atan2 y x < 0 then -curve (-tf2Atan2 y x) else curve (tf2Atan2 y x)) := by
  set z : ℂ := ⟨x, y⟩ with hz
  have hz0 : z ≠ 0 := by
    intro e
    have h1 : x = 0 := congrArg Complex.re e
    have h2 : y = 0 := congrArg Complex.im e
    rcases h with h | h <;> contradiction
  have hr : 0 < ‖z‖ := norm_pos_iff.2 hz0
  have hx : ‖z‖ * cos z.arg = x := Complex.norm_mul_cos_arg z
  have hy : ‖z‖ * sin z.arg = y := Complex.norm_mul_sin_arg z
  have hat : tf2Atan2 y x = z.arg := rfl
  have hlow := Complex.neg_pi_lt_arg z
  have hup := Complex.arg_le_pi z
  have hpi := Real.pi_pos
  have hneg : z.arg < 0 ↔ y < 0 := Complex.arg_neg_iff
  have hxp : |z.arg| ≤ π / 2 ↔ 0 ≤ x := Complex.abs_arg_le_pi_div_two_iff
  have hs2 : (0 : ℝ) < √2 / 2 := by positivity
  set p := |z.arg| with hp
  have hp0 : 0 ≤ p := abs_nonneg _
  have hp1 : p ≤ π := by rw [hp, abs_le]; constructor <;> linarith
  have hxc : x = ‖z‖ * cos p := by rw [hp, cos_abs, hx]
  have hsp : 0 ≤ sin p := sin_nonneg_of_nonneg_of_le_pi hp0 hp1
  have hyc : |y| = ‖z‖ * sin p := by
    rw [← hy, abs_mul, abs_of_pos hr]
    congr 1
    rcases le_total 0 z.arg with h0 | h0
    · rw [hp, abs_of_nonneg h0, abs_of_nonneg (sin_nonneg_of_nonneg_of_le_pi h0 hup)]
    · rw [hp, abs_of_nonpos h0, sin_neg, abs_of_nonpos]
      exact sin_nonpos_of_nonpos_of_neg_pi_le h0 hlow.le
  have hang : (if x ≥ 0 then if x + |y| = 0 then none else some (π / 4 - π / 4 * ((x - |y|) / (x + |y|)))
      else some (3 * (π / 4) - π / 4 * ((x + |y|) / (|y| - x)))) = some (curve p) := by
    unfold curve
    by_cases h0 : 0 ≤ x
    · have hpp : p ≤ π / 2 := hxp.2 h0
      rw [if_pos h0, if_pos hpp]
      have hcp : 0 ≤ cos p := cos_nonneg_of_mem_Icc ⟨by linarith, hpp⟩
      have hc : 0 < cos (π / 4 - p) := cos_pos_of_mem_Ioo ⟨by linarith, by linarith⟩
      have ec : cos (π / 4 - p) = √2 / 2 * (cos p + sin p) := by rw [cos_sub, cos_pi_div_four, sin_pi_div_four]; ring
      have es : sin (π / 4 - p) = √2 / 2 * (cos p - sin p) := by rw [sin_sub, cos_pi_div_four, sin_pi_div_four]; ring
      have hsum : 0 < cos p + sin p := by
        rw [ec] at hc
        exact (mul_pos_iff_of_pos_left hs2).1 hc
      rw [if_neg]
      · rw [tan_eq_sin_div_cos, ec, es, hxc, hyc, mul_div_mul_left _ _ hs2.ne', ← mul_sub, ← mul_add,
          mul_div_mul_left _ _ hr.ne']
      · rw [hxc, hyc, ← mul_add]
        exact (mul_pos hr hsum).ne'
    · have hpp : ¬ p ≤ π / 2 := fun h => h0 (hxp.1 h)
      rw [if_neg h0, if_neg hpp]
      have e34 : 3 * (π / 4) = π - π / 4 := by ring
      have hc : 0 < cos (3 * (π / 4) - p) := cos_pos_of_mem_Ioo ⟨by linarith, by linarith⟩
      have ec : cos (3 * (π / 4) - p) = √2 / 2 * (sin p - cos p) := by
        rw [e34, cos_sub, cos_pi_sub, sin_pi_sub, cos_pi_div_four, sin_pi_div_four]; ring
      have es : sin (3 * (π / 4) - p) = √2 / 2 * (cos p + sin p) := by
        rw [e34, sin_sub, cos_pi_sub, sin_pi_sub, cos_pi_div_four, sin_pi_div_four]; ring
      rw [tan_eq_sin_div_cos, ec, es, hxc, hyc, mul_div_mul_left _ _ hs2.ne', ← mul_sub, ← mul_add,
          mul_div_mul_left _ _ hr.ne']
  unfold atan2Fast
  dsimp only
  rw [hang, hat]
  by_cases hyn : y < 0
  · have h1 := hneg.2 hyn
    rw [if_pos hyn, if_pos h1, Option.map_some, hp, abs_of_neg h1]
  · have h1 : ¬ z.arg < 0 := fun h => hyn (hneg.1 h)
    rw [if_neg hyn, if_neg h1, hp, abs_of_nonneg (not_lt.1 h1)]

end Tf2.Scalar
