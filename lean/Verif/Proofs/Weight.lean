import Verif.Proofs.Slerp
import Mathlib.Analysis.SpecialFunctions.Trigonometric.Deriv
import Mathlib.Analysis.SpecialFunctions.Trigonometric.Bounds
import Mathlib.Analysis.Calculus.Deriv.MeanValue

/-!
# The weights of spherical interpolation
-/
namespace Tf2

open Real

/-- The weight `sin (t θ) / sin θ`, with its limit at `0`. -/
noncomputable def wt (t θ : ℝ) : ℝ := if θ = 0 then t else Real.sin (t * θ) / Real.sin θ

theorem sin_mul_ge {t θ : ℝ} (h0 : 0 ≤ t) (h1 : t ≤ 1) (k0 : 0 ≤ θ) (k1 : θ ≤ π / 2) : t * Real.sin θ ≤ Real.sin (t * θ) := by
  have hx : (0 : ℝ) ∈ Set.Icc 0 π := ⟨le_rfl, pi_pos.le⟩
  have hy : θ ∈ Set.Icc 0 π := ⟨k0, by linarith [pi_pos]⟩
  have hc := strictConcaveOn_sin_Icc.concaveOn.2 hx hy (sub_nonneg.2 h1) h0 (sub_add_cancel 1 t)
  simpa using hc

theorem sin_pos' {θ : ℝ} (k0 : 0 < θ) (k1 : θ ≤ π / 2) : 0 < Real.sin θ :=
  Real.sin_pos_of_pos_of_lt_pi k0 (by linarith [pi_pos])

theorem wt_nonneg {t θ : ℝ} (h0 : 0 ≤ t) (h1 : t ≤ 1) (k0 : 0 ≤ θ) (k1 : θ ≤ π / 2) : t ≤ wt t θ := by
  unfold wt
  split
  · exact le_rfl
  · next h => 
    have hs := sin_pos' (lt_of_le_of_ne k0 (Ne.symm h)) k1
    rw [le_div_iff₀ hs]
    exact sin_mul_ge h0 h1 k0 k1

theorem id_le {θ : ℝ} (k0 : 0 ≤ θ) (k1 : θ ≤ π / 2) : θ ≤ Real.sin θ * (2 - Real.cos θ) := by
  have hmono : MonotoneOn (fun x => Real.sin x * (2 - Real.cos x) - x) (Set.Icc 0 (π / 2)) := by
    refine monotoneOn_of_deriv_nonneg (convex_Icc _ _) (by fun_prop) (by fun_prop) ?_
    intro x hx
    rw [interior_Icc] at hx
    have hd : HasDerivAt (fun x => Real.sin x * (2 - Real.cos x) - x)
        (Real.cos x * (2 - Real.cos x) + Real.sin x * (0 - -Real.sin x) - 1) x :=
      (((Real.hasDerivAt_sin x).mul ((hasDerivAt_const x 2).sub (Real.hasDerivAt_cos x))).sub (hasDerivAt_id x))
    rw [hd.deriv]
    have hc0 := Real.cos_nonneg_of_neg_pi_div_two_le_of_le (x := x) (by linarith [hx.1, pi_pos]) hx.2.le
    have hc1 := Real.cos_le_one x
    have := Real.sin_sq_add_cos_sq x
    nlinarith
  have := hmono ⟨le_rfl, by linarith⟩ ⟨k0, k1⟩ k0
  simp at this
  linarith

theorem wt_zero_diff {t θ : ℝ} (h0 : 0 ≤ t) (h1 : t ≤ 1) (k0 : 0 ≤ θ) (k1 : θ ≤ π / 2) : wt t θ - t ≤ 1 - Real.cos θ := by
  unfold wt
  split
  · linarith [Real.cos_le_one θ]
  · next h =>
    have hs := sin_pos' (lt_of_le_of_ne k0 (Ne.symm h)) k1
    have h2 : Real.sin (t * θ) ≤ t * (Real.sin θ * (2 - Real.cos θ)) :=
      (Real.sin_le (by positivity)).trans (mul_le_mul_of_nonneg_left (id_le k0 k1) h0)
    have h3 : Real.sin (t * θ) / Real.sin θ ≤ t * (2 - Real.cos θ) := by
      rw [div_le_iff₀ hs]; linarith
    nlinarith [Real.cos_le_one θ]

/-- the numerator of the derivative -/
theorem num_bounds {t θ : ℝ} (h0 : 0 ≤ t) (h1 : t ≤ 1) (k0 : 0 ≤ θ) (k1 : θ ≤ π / 2) :
    0 ≤ t * Real.cos (t * θ) * Real.sin θ - Real.sin (t * θ) * Real.cos θ ∧
    t * Real.cos (t * θ) * Real.sin θ - Real.sin (t * θ) * Real.cos θ ≤ Real.sin θ ^ 2 * Real.sin θ := by
  have hs : 0 ≤ Real.sin θ := Real.sin_nonneg_of_nonneg_of_le_pi k0 (by linarith [pi_pos])
  have hc : 0 ≤ Real.cos θ := Real.cos_nonneg_of_neg_pi_div_two_le_of_le (by linarith [pi_pos]) k1
  constructor
  · have hmono : MonotoneOn (fun x => t * Real.cos (t * x) * Real.sin x - Real.sin (t * x) * Real.cos x) (Set.Icc 0 (π / 2)) := by
      refine monotoneOn_of_deriv_nonneg (convex_Icc _ _) (by fun_prop) (by fun_prop) ?_
      intro x hx
      rw [interior_Icc] at hx
      have hl : HasDerivAt (fun x => t * x) t x := by simpa using (hasDerivAt_id x).const_mul t
      have hd : HasDerivAt (fun x => t * Real.cos (t * x) * Real.sin x - Real.sin (t * x) * Real.cos x)
          ((t * (-Real.sin (t * x) * t)) * Real.sin x + t * Real.cos (t * x) * Real.cos x -
            ((Real.cos (t * x) * t) * Real.cos x + Real.sin (t * x) * -Real.sin x)) x :=
        ((hl.cos.const_mul t).mul (Real.hasDerivAt_sin x)).sub (hl.sin.mul (Real.hasDerivAt_cos x))
      rw [hd.deriv]
      have s1 : 0 ≤ Real.sin x := Real.sin_nonneg_of_nonneg_of_le_pi hx.1.le (by linarith [hx.2, pi_pos])
      have s2 : 0 ≤ Real.sin (t * x) := Real.sin_nonneg_of_nonneg_of_le_pi (mul_nonneg h0 hx.1.le) (by nlinarith [hx.1, hx.2, pi_pos])
      have : (t * (-Real.sin (t * x) * t)) * Real.sin x + t * Real.cos (t * x) * Real.cos x -
            ((Real.cos (t * x) * t) * Real.cos x + Real.sin (t * x) * -Real.sin x) = (1 - t ^ 2) * (Real.sin (t * x) * Real.sin x) := by ring
      rw [this]
      exact mul_nonneg (by nlinarith) (mul_nonneg s2 s1)
    have := hmono ⟨le_rfl, by linarith [pi_pos]⟩ ⟨k0, k1⟩ k0
    simpa using this
  · have g := mul_le_mul_of_nonneg_right (sin_mul_ge h0 h1 k0 k1) hc
    have c1 := Real.cos_le_one (t * θ)
    have e1 : 1 - Real.cos θ ≤ Real.sin θ ^ 2 := by
      have := Real.sin_sq_add_cos_sq θ
      nlinarith [Real.cos_le_one θ]
    have e2 : t * Real.cos (t * θ) * Real.sin θ ≤ t * Real.sin θ := by
      have := mul_le_mul_of_nonneg_left c1 (mul_nonneg h0 hs)
      linarith
    have e3 : t * Real.sin θ * (1 - Real.cos θ) ≤ Real.sin θ * Real.sin θ ^ 2 :=
      mul_le_mul (by nlinarith) e1 (by linarith [Real.cos_le_one θ]) hs
    nlinarith

theorem wt_deriv {t x : ℝ} (hs : Real.sin x ≠ 0) : HasDerivAt (fun x => Real.sin (t * x) / Real.sin x)
    ((t * Real.cos (t * x) * Real.sin x - Real.sin (t * x) * Real.cos x) / Real.sin x ^ 2) x := by
  have hl : HasDerivAt (fun x => t * x) t x := by simpa using (hasDerivAt_id x).const_mul t
  have := hl.sin.div (Real.hasDerivAt_sin x) hs
  have e : Real.cos (t * x) * t * Real.sin x - Real.sin (t * x) * Real.cos x =
    t * Real.cos (t * x) * Real.sin x - Real.sin (t * x) * Real.cos x := by ring
  rw [e] at this
  exact this

/-- The weight is a Lipschitz function of the cosine. -/
theorem wt_diff_aux {t x y : ℝ} (h0 : 0 ≤ t) (h1 : t ≤ 1) (hx : 0 < x) (hxy : x ≤ y) (hy : y ≤ π / 2) :
    Real.sin (t * x) / Real.sin x ≤ Real.sin (t * y) / Real.sin y ∧
    Real.sin (t * y) / Real.sin y - Real.sin (t * x) / Real.sin x ≤ Real.cos x - Real.cos y := by
  have pos : ∀ z ∈ Set.Icc x y, 0 < Real.sin z := fun z hz => sin_pos' (lt_of_lt_of_le hx hz.1) (hz.2.trans hy)
  have cont : ContinuousOn (fun x => Real.sin (t * x) / Real.sin x) (Set.Icc x y) :=
    fun z hz => (wt_deriv (t := t) (pos z hz).ne').continuousAt.continuousWithinAt
  have diff : DifferentiableOn ℝ (fun x => Real.sin (t * x) / Real.sin x) (interior (Set.Icc x y)) :=
    fun z hz => (wt_deriv (t := t) (pos z (interior_subset hz)).ne').differentiableAt.differentiableWithinAt
  constructor
  · have hmono : MonotoneOn (fun x => Real.sin (t * x) / Real.sin x) (Set.Icc x y) := by
      refine monotoneOn_of_deriv_nonneg (convex_Icc _ _) cont diff ?_
      intro z hz
      have hz := interior_subset hz
      rw [(wt_deriv (pos z hz).ne').deriv]
      exact div_nonneg (num_bounds h0 h1 (by linarith [hz.1]) (by linarith [hz.2])).1 (sq_nonneg _)
    exact hmono ⟨le_rfl, hxy⟩ ⟨hxy, le_rfl⟩ hxy
  · have hanti : AntitoneOn (fun x => Real.sin (t * x) / Real.sin x + Real.cos x) (Set.Icc x y) := by
      refine antitoneOn_of_deriv_nonpos (convex_Icc _ _) (cont.add Real.continuous_cos.continuousOn)
        (diff.add Real.differentiable_cos.differentiableOn) ?_
      intro z hz
      have hz := interior_subset hz
      have hd := (wt_deriv (t := t) (pos z hz).ne').add (Real.hasDerivAt_cos z)
      have e : deriv (fun x => Real.sin (t * x) / Real.sin x + Real.cos x) z = _ := hd.deriv
      rw [e]
      have := (num_bounds h0 h1 (θ := z) (by linarith [hz.1]) (by linarith [hz.2])).2
      have k : (t * Real.cos (t * z) * Real.sin z - Real.sin (t * z) * Real.cos z) / Real.sin z ^ 2 ≤ Real.sin z := by
        rw [div_le_iff₀ (by have := pos z hz; positivity)]; linarith
      linarith
    have := hanti ⟨le_rfl, hxy⟩ ⟨hxy, le_rfl⟩ hxy
    simp only at this
    linarith

theorem wt_diff {t x y : ℝ} (h0 : 0 ≤ t) (h1 : t ≤ 1) (hx : 0 ≤ x) (hx' : x ≤ π / 2) (hy : 0 ≤ y) (hy' : y ≤ π / 2) :
    |wt t x - wt t y| ≤ |Real.cos x - Real.cos y| := by
  have key : ∀ {x y : ℝ}, 0 ≤ x → x ≤ y → y ≤ π / 2 → |wt t x - wt t y| ≤ |Real.cos x - Real.cos y| := by
    intro x y hx hxy hy
    have hc : Real.cos y ≤ Real.cos x := Real.cos_le_cos_of_nonneg_of_le_pi hx (by linarith [pi_pos]) hxy
    rw [abs_of_nonneg (sub_nonneg.2 hc), abs_sub_comm]
    by_cases e : x = 0
    · subst e
      have a := wt_nonneg h0 h1 hxy hy
      have b := wt_zero_diff h0 h1 hxy hy
      have e : wt t 0 = t := if_pos rfl
      rw [e, Real.cos_zero, abs_of_nonneg (by linarith)]
      exact b
    · have e' : y ≠ 0 := fun h => e (le_antisymm (h ▸ hxy) hx)
      obtain ⟨a, b⟩ := wt_diff_aux h0 h1 (lt_of_le_of_ne hx (Ne.symm e)) hxy hy
      unfold wt
      rw [if_neg e, if_neg e', abs_of_nonneg (by linarith)]
      exact b
  rcases le_total x y with h | h
  · exact key hx h hy'
  · rw [abs_sub_comm, abs_sub_comm (Real.cos x)]; exact key hy h hx'

theorem wt_le {t θ : ℝ} (h0 : 0 ≤ t) (h1 : t ≤ 1) (k0 : 0 ≤ θ) (k1 : θ ≤ π / 2) : wt t θ ≤ 1 := by
  unfold wt
  split
  · exact h1
  · next h =>
    have hs := sin_pos' (lt_of_le_of_ne k0 (Ne.symm h)) k1
    rw [div_le_one hs]
    exact Real.sin_le_sin_of_le_of_le_pi_div_two (by nlinarith [pi_pos]) k1 (by nlinarith)

end Tf2
