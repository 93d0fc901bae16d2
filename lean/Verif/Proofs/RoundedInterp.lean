import Verif.Spec.RoundedInterp
import Verif.Proofs.Rounded
import Verif.Proofs.Weight
import Mathlib.Analysis.Real.Pi.Bounds

/-!
# Rounding errors of interpolation
-/
namespace Tf2

open Real

/-- What is used of the rounding: errors of `double`s, exact zero, no number between `1 - 1e-16` and `1`. -/
structure Fine (F : Rounding) : Prop where
  u : F.u ≤ 12 / 10 ^ 17
  η : F.η ≤ 1 / 10 ^ 60
  Ω : 10 ^ 20 ≤ F.Ω
  zero : F.rnd 0 = 0
  gap : ∀ x, |x| ≤ F.Ω → F.rnd x < 1 → F.rnd x ≤ 1 - 1 / 10 ^ 16

namespace Rounding

variable {F : Rounding} {M : Libm}

theorem err_le (hF : Fine F) {x B : ℝ} (h : |x| ≤ B) (hB : B ≤ 10 ^ 20) : |F.rnd x - x| ≤ 12 / 10 ^ 17 * B + 1 / 10 ^ 60 := by
  have h1 := F.err x (h.trans (hB.trans hF.Ω))
  have h2 : F.u * |x| ≤ 12 / 10 ^ 17 * B := mul_le_mul hF.u h (abs_nonneg _) (by norm_num)
  have := hF.η
  linarith

/-! ### The ratio -/

theorem toSec_near (hF : Fine F) {n : Int} (h0 : 0 ≤ n) (h1 : n ≤ 10 ^ 19) :
    |F.toSec n - (n : ℝ) / 1000000000| ≤ 4 / 10 ^ 16 * ((n : ℝ) / 1000000000) := by
  rcases h0.eq_or_lt with e | hpos
  · subst e
    unfold toSec
    norm_num [hF.zero]
  · unfold toSec
    have hS0 : (0 : Int) ≤ n / 1000000000 := Int.ediv_nonneg h0 (by norm_num)
    have hN0 : (0 : Int) ≤ n % 1000000000 := Int.emod_nonneg _ (by norm_num)
    have hN1 : n % 1000000000 ≤ 1000000000 := (Int.emod_lt_of_pos _ (by norm_num)).le
    have hdm : 1000000000 * (n / 1000000000) + n % 1000000000 = n := Int.mul_ediv_add_emod n 1000000000
    generalize n / 1000000000 = S at *
    generalize n % 1000000000 = N at *
    have r0 : (0 : ℝ) ≤ S := by exact_mod_cast hS0
    have r1 : (0 : ℝ) ≤ N := by exact_mod_cast hN0
    have r2 : (N : ℝ) ≤ 1000000000 := by exact_mod_cast hN1
    have r3 : (n : ℝ) = 1000000000 * S + N := by exact_mod_cast hdm.symm
    have r4 : (1 : ℝ) ≤ n := by exact_mod_cast hpos
    have r5 : (n : ℝ) ≤ 10 ^ 19 := by exact_mod_cast h1
    generalize (n : ℝ) = n at *
    generalize (S : ℝ) = S at *
    generalize (N : ℝ) = N at *
    have e1 := err_le hF (x := 1e-9) (B := 1 / 10 ^ 9) (by rw [abs_of_pos (by norm_num)]; norm_num) (by norm_num)
    generalize F.rnd 1e-9 = k at *
    have e1' : |k - 1 / 10 ^ 9| ≤ 121 / 10 ^ 27 := by norm_num at *; linarith
    obtain ⟨k1, k2⟩ := abs_le.1 e1'
    have k3 : |k * N - N / 10 ^ 9| ≤ 121 / 10 ^ 27 * N := by
      have : k * N - N / 10 ^ 9 = (k - 1 / 10 ^ 9) * N := by ring
      rw [this, abs_mul, abs_of_nonneg r1]
      exact mul_le_mul_of_nonneg_right e1' r1
    have k0 : 0 ≤ k := by norm_num at *; linarith
    obtain ⟨k4, k5⟩ := abs_le.1 k3
    have e2 := err_le hF (x := k * N) (B := k * N) (by rw [abs_of_nonneg (by positivity)]) (by norm_num at *; linarith)
    generalize F.rnd (k * N) = y at *
    obtain ⟨y1, y2⟩ := abs_le.1 e2
    have y3 : |(S : ℝ) + y| ≤ n / 10 ^ 9 + 3 / 10 ^ 25 * N + 1 / 10 ^ 60 := by
      rw [abs_le]; norm_num at *; constructor <;> linarith
    have e3 := err_le hF y3 (by norm_num at *; linarith)
    generalize F.rnd ((S : ℝ) + y) = z at *
    obtain ⟨z1, z2⟩ := abs_le.1 e3
    rw [abs_le]
    norm_num at *
    constructor <;> linarith

theorem ratio_near (hF : Fine F) {num den : Int} (h0 : 0 ≤ num) (h1 : num ≤ den) (h2 : 0 < den) (h3 : den ≤ 10 ^ 19) :
    |F.rnd (F.toSec num / F.toSec den) - (num : ℝ) / den| ≤ 2 / 10 ^ 15 := by
  have a := toSec_near hF h0 (h1.trans h3)
  have b := toSec_near hF h2.le h3
  have r0 : (0 : ℝ) ≤ num := by exact_mod_cast h0
  have r1 : (num : ℝ) ≤ den := by exact_mod_cast h1
  have r2 : (0 : ℝ) < den := by exact_mod_cast h2
  have er : (num : ℝ) / den = ((num : ℝ) / 1000000000) / ((den : ℝ) / 1000000000) := by field_simp
  rw [er]
  have x0 : 0 ≤ (num : ℝ) / 1000000000 := by positivity
  have y0 : 0 < (den : ℝ) / 1000000000 := by positivity
  have xy : (num : ℝ) / 1000000000 ≤ (den : ℝ) / 1000000000 := by linarith
  generalize (num : ℝ) / 1000000000 = x at *
  generalize (den : ℝ) / 1000000000 = y at *
  generalize F.toSec num = p at *
  generalize F.toSec den = q at *
  obtain ⟨a1, a2⟩ := abs_le.1 a
  obtain ⟨b1, b2⟩ := abs_le.1 b
  have q0 : 0 < q := by norm_num at *; linarith
  have k : |p / q - x / y| ≤ 9 / 10 ^ 16 := by
    have e : p / q - x / y = (p * y - x * q) / (q * y) := by field_simp
    rw [e, abs_div, abs_of_pos (mul_pos q0 y0), div_le_iff₀ (mul_pos q0 y0)]
    have e2 : p * y - x * q = (p - x) * y - x * (q - y) := by ring
    have h1 : |(p - x) * y| ≤ 4 / 10 ^ 16 * y * y := by
      rw [abs_mul, abs_of_pos y0]
      refine mul_le_mul_of_nonneg_right (a.trans ?_) y0.le
      exact mul_le_mul_of_nonneg_left xy (by norm_num)
    have h2 : |x * (q - y)| ≤ y * (4 / 10 ^ 16 * y) := by
      rw [abs_mul, abs_of_nonneg x0]
      exact mul_le_mul xy b (abs_nonneg _) y0.le
    have h3 := abs_sub ((p - x) * y) (x * (q - y))
    rw [e2]
    have h4 : (1 - 4 / 10 ^ 16) * y * y ≤ q * y := mul_le_mul_of_nonneg_right (by linarith) y0.le
    have yy : 0 ≤ y * y := by positivity
    norm_num at *
    linarith
  have t0 : 0 ≤ x / y := by positivity
  have t1 : x / y ≤ 1 := (div_le_one y0).2 xy
  generalize p / q = r at *
  generalize x / y = t at *
  obtain ⟨c1, c2⟩ := abs_le.1 k
  have hr : |r| ≤ 2 := by rw [abs_le]; norm_num at *; constructor <;> linarith
  obtain ⟨d1, d2⟩ := abs_le.1 (err_le hF hr (by norm_num))
  rw [abs_le]
  norm_num at *
  constructor <;> linarith

/-! ### The cosine -/

theorem dot_near (hF : Fine F) (a b : Quat ℝ) (ha : a.length ≤ 101 / 100) (hb : b.length ≤ 101 / 100) :
    |F.dot a b - a.dot b| ≤ 7 / 10 ^ 16 := by
  have cs := Quat.cs a b
  have hu := hF.u
  have hη := hF.η
  have hΩ := hF.Ω
  have u0 := F.u_nonneg
  have e0 := F.η_nonneg
  have a0 := a.length_nonneg'
  have b0 := b.length_nonneg'
  have hab : a.length * b.length ≤ 11 / 10 := (mul_le_mul ha hb b0 (by norm_num)).trans (by norm_num)
  have hab0 : 0 ≤ a.length * b.length := mul_nonneg a0 b0
  have big : 2 * (a.length * b.length) + 10 * F.η ≤ F.Ω := by norm_num at *; linarith
  have nn := fun r s : ℝ => abs_nonneg (r * s)
  have P : ∀ {r s : ℝ}, |r * s| ≤ a.length * b.length → |F.rnd (r * s) - r * s| ≤ F.u * |r * s| + F.η :=
    fun h => prod_err h big
  have := dot4_err (F := F) (by norm_num at *; linarith) a b
    (P (r := a.x) (s := b.x) (by linarith [nn a.y b.y, nn a.z b.z, nn a.w b.w]))
    (P (r := a.y) (s := b.y) (by linarith [nn a.x b.x, nn a.z b.z, nn a.w b.w]))
    (P (r := a.z) (s := b.z) (by linarith [nn a.x b.x, nn a.y b.y, nn a.w b.w]))
    (P (r := a.w) (s := b.w) (by linarith [nn a.x b.x, nn a.y b.y, nn a.z b.z])) cs big
  have e : a.dot b = a.x * b.x + a.y * b.y + a.z * b.z + a.w * b.w := rfl
  rw [e]
  refine this.trans ?_
  have m : 5 * F.u * (a.length * b.length) ≤ 5 * (12 / 10 ^ 17) * (11 / 10) :=
    mul_le_mul (by linarith) hab hab0 (by norm_num)
  norm_num at *
  linarith

/-- The machine's cosine: `dot / sqrt (length2 * length2)` for arguments that are not opposite. -/
theorem cosine_near (hF : Fine F) (hM : M.Accurate) (a b : Quat ℝ) (ha : |a.length2 - 1| ≤ 1 / 1000000)
    (hb : |b.length2 - 1| ≤ 1 / 1000000) (q : Quat ℝ) (hq : q.length2 = b.length2) (hd : 0 ≤ a.dot q)
    (hdot : a.dot q ≤ Real.sqrt (a.length2 * b.length2)) :
    |F.rnd (F.dot a q / M.sqrt (F.rnd (F.dot a a * F.dot b b))) - a.dot q / Real.sqrt (a.length2 * b.length2)| ≤ 25 / 10 ^ 16 := by
  have lens : ∀ c : Quat ℝ, |c.length2 - 1| ≤ 1 / 1000000 → c.length ≤ 101 / 100 := by
    intro c hc
    refine Real.sqrt_le_iff.2 ⟨by norm_num, ?_⟩
    have := (abs_le.1 hc).2
    norm_num at *; linarith
  have la := lens a ha
  have lb := lens b hb
  have lq := lens q (by rw [hq]; exact hb)
  have dA := dot_near hF a a la la
  have dB := dot_near hF b b lb lb
  have dQ := dot_near hF a q la lq
  have eA : a.dot a = a.length2 := rfl
  have eB : b.dot b = b.length2 := rfl
  rw [eA] at dA
  rw [eB] at dB
  generalize F.dot a a = A' at *
  generalize F.dot b b = B' at *
  generalize F.dot a q = D' at *
  generalize a.length2 = A at *
  generalize b.length2 = B at *
  generalize a.dot q = D at *
  obtain ⟨A1, A2⟩ := abs_le.1 ha
  obtain ⟨B1, B2⟩ := abs_le.1 hb
  -- product
  have hAB : |A' * B' - A * B| ≤ 15 / 10 ^ 16 := by
    have e : A' * B' - A * B = (A' - A) * B' + A * (B' - B) := by ring
    have b1 : |B'| ≤ 1 + 2 / 1000000 := by
      obtain ⟨_, _⟩ := abs_le.1 dB
      rw [abs_le]; norm_num at *; constructor <;> linarith
    have a1 : |A| ≤ 1 + 2 / 1000000 := by rw [abs_le]; constructor <;> linarith
    have h1 : |(A' - A) * B'| ≤ 7 / 10 ^ 16 * (1 + 2 / 1000000) := by
      rw [abs_mul]; exact mul_le_mul dA b1 (abs_nonneg _) (by norm_num)
    have h2 : |A * (B' - B)| ≤ (1 + 2 / 1000000) * (7 / 10 ^ 16) := by
      rw [abs_mul]; exact mul_le_mul a1 dB (abs_nonneg _) (by norm_num)
    have := abs_add_le ((A' - A) * B') (A * (B' - B))
    rw [e]
    norm_num at *; linarith
  have AB1 : A * B ≤ 1 + 3 / 1000000 := by
    have := mul_le_mul (by linarith : A ≤ 1 + 1 / 1000000) (by linarith : B ≤ 1 + 1 / 1000000) (by linarith) (by norm_num)
    norm_num at *; linarith
  have AB0 : 1 - 3 / 1000000 ≤ A * B := by
    have := mul_le_mul (by linarith : 1 - 1 / 1000000 ≤ A) (by linarith : 1 - 1 / 1000000 ≤ B) (by norm_num) (by linarith)
    norm_num at *; linarith
  obtain ⟨AB2, AB3⟩ := abs_le.1 hAB
  generalize A' * B' = P at *
  generalize A * B = Q at *
  have e1 := err_le hF (x := P) (B := 101 / 100) (by rw [abs_le]; norm_num at *; constructor <;> linarith) (by norm_num)
  generalize F.rnd P = P' at *
  obtain ⟨p1, p2⟩ := abs_le.1 e1
  have hPQ : |P' - Q| ≤ 17 / 10 ^ 16 := by rw [abs_le]; norm_num at *; constructor <;> linarith
  obtain ⟨p3, p4⟩ := abs_le.1 hPQ
  have P0 : 0 ≤ P' := by norm_num at *; linarith
  -- square root
  have s1 : 99 / 100 ≤ Real.sqrt Q := Real.le_sqrt_of_sq_le (by norm_num at *; linarith)
  have s2 : Real.sqrt Q ≤ 101 / 100 := Real.sqrt_le_iff.2 ⟨by norm_num, by norm_num at *; linarith⟩
  have s3 : 99 / 100 ≤ Real.sqrt P' := Real.le_sqrt_of_sq_le (by norm_num at *; linarith)
  have s4 : Real.sqrt P' ≤ 101 / 100 := Real.sqrt_le_iff.2 ⟨by norm_num, by norm_num at *; linarith⟩
  have s5 : |Real.sqrt P' - Real.sqrt Q| ≤ 9 / 10 ^ 16 := by
    have e : (Real.sqrt P' - Real.sqrt Q) * (Real.sqrt P' + Real.sqrt Q) = P' - Q := by
      have a1 := Real.sq_sqrt P0
      have a2 := Real.sq_sqrt (by linarith : 0 ≤ Q)
      ring_nf; rw [a1, a2]
    have h1 : |Real.sqrt P' - Real.sqrt Q| * (Real.sqrt P' + Real.sqrt Q) ≤ 17 / 10 ^ 16 := by
      rw [← abs_of_nonneg (by linarith : 0 ≤ Real.sqrt P' + Real.sqrt Q), ← abs_mul, e]; exact hPQ
    have h2 : |Real.sqrt P' - Real.sqrt Q| * (198 / 100) ≤ |Real.sqrt P' - Real.sqrt Q| * (Real.sqrt P' + Real.sqrt Q) :=
      mul_le_mul_of_nonneg_left (by linarith) (abs_nonneg _)
    norm_num at *; linarith
  have s6 := hM.sqrt P' P0 (by norm_num at *; linarith)
  generalize M.sqrt P' = s' at *
  generalize Real.sqrt P' = sp at *
  generalize Real.sqrt Q = s at *
  have s7 : |s' - s| ≤ 15 / 10 ^ 16 := by
    obtain ⟨_, _⟩ := abs_le.1 s5
    obtain ⟨_, _⟩ := abs_le.1 s6
    rw [abs_le]; norm_num at *; constructor <;> linarith
  obtain ⟨s8, s9⟩ := abs_le.1 s7
  have s'0 : 98 / 100 ≤ s' := by norm_num at *; linarith
  have s0 : 0 < s := by linarith
  -- quotient
  have c0 : 0 ≤ D / s := by positivity
  have c1 : D / s ≤ 1 := (div_le_one s0).2 hdot
  have k : |D' / s' - D / s| ≤ 2350 / 10 ^ 18 := by
    have e : D' / s' - D / s = ((D' - D) - D / s * (s' - s)) / s' := by field_simp; ring
    have h1 : |D / s * (s' - s)| ≤ 1 * (15 / 10 ^ 16) := by
      rw [abs_mul, abs_of_nonneg c0]; exact mul_le_mul c1 s7 (abs_nonneg _) (by norm_num)
    have h2 := abs_sub (D' - D) (D / s * (s' - s))
    rw [e, abs_div, abs_of_pos (by linarith : 0 < s'), div_le_iff₀ (by linarith)]
    norm_num at *; linarith
  generalize D / s = c at *
  generalize D' / s' = c' at *
  obtain ⟨k1, k2⟩ := abs_le.1 k
  have e2 := err_le hF (x := c') (B := 101 / 100) (by rw [abs_le]; norm_num at *; constructor <;> linarith) (by norm_num)
  obtain ⟨k3, k4⟩ := abs_le.1 e2
  rw [abs_le]
  norm_num at *
  constructor <;> linarith

/-! ### The angle -/

theorem arccos_le_sub {c : ℝ} (h0 : 0 ≤ c) (h1 : c ≤ 1) : Real.arccos c ≤ π / 2 - c := by
  have h : Real.sin c ≤ c := Real.sin_le h0
  have h2 : c ≤ Real.arcsin c := by
    rw [Real.le_arcsin_iff_sin_le ⟨by linarith [pi_pos], by linarith [Real.pi_gt_three]⟩ ⟨by linarith, h1⟩]
    exact h
  unfold Real.arccos
  linarith

theorem theta_near (hF : Fine F) (hM : M.Accurate) {y c : ℝ} (hy : |y| ≤ F.Ω) (h : |F.rnd y - c| ≤ 25 / 10 ^ 16)
    (c0 : 1 / 10 ^ 13 ≤ c) :
    (F.rnd (F.rnd (M.acosClamped (F.rnd y) * 2) / 2) = 0 ∧ 1 - 25 / 10 ^ 16 ≤ c) ∨
    (1 / 10 ^ 8 ≤ F.rnd (F.rnd (M.acosClamped (F.rnd y) * 2) / 2) ∧
      F.rnd (F.rnd (M.acosClamped (F.rnd y) * 2) / 2) ≤ π / 2 ∧
      |Real.cos (F.rnd (F.rnd (M.acosClamped (F.rnd y) * 2) / 2)) - c| ≤ 6 / 10 ^ 15) := by
  obtain ⟨h1, h2⟩ := abs_le.1 h
  have low : ¬ F.rnd y < -1 := by norm_num at *; linarith
  unfold Libm.acosClamped
  simp only [if_neg low]
  split
  · next hgt =>
    left
    have ha := hM.acos 1 (by norm_num) le_rfl
    rw [Real.arccos_one, mul_zero, sub_zero] at ha
    have ha' : M.acos 1 = 0 := abs_eq_zero.1 (le_antisymm ha (abs_nonneg _))
    rw [ha', zero_mul, hF.zero, zero_div, hF.zero]
    exact ⟨rfl, by linarith⟩
  · next hgt =>
    rcases (not_lt.1 hgt).eq_or_lt with e | hlt
    · left
      have ha := hM.acos 1 (by norm_num) le_rfl
      rw [Real.arccos_one, mul_zero, sub_zero] at ha
      have ha' : M.acos 1 = 0 := abs_eq_zero.1 (le_antisymm ha (abs_nonneg _))
      rw [e, ha', zero_mul, hF.zero, zero_div, hF.zero]
      exact ⟨rfl, by rw [e] at h1 h2; linarith⟩
    · right
      have hg := hF.gap y hy hlt
      generalize F.rnd y = k at *
      have k0 : 9 / 10 ^ 14 ≤ k := by norm_num at *; linarith
      have k0' : 0 ≤ k := le_trans (by norm_num) k0
      have ha := hM.acos k k0' hlt.le
      have a1 := arccos_le_sub k0' hlt.le
      have a2 : Real.cos (Real.arccos k) = k := Real.cos_arccos (by linarith) hlt.le
      have a0 := Real.arccos_nonneg k
      have a3 : 14 / 10 ^ 9 ≤ Real.arccos k := by
        have h3 := Real.one_sub_sq_div_two_le_cos (x := Real.arccos k)
        rw [a2] at h3
        refine le_of_not_gt fun hh => ?_
        have := pow_lt_pow_left₀ hh a0 (n := 2) (by norm_num)
        norm_num at *
        linarith
      have pi1 := Real.pi_lt_d2
      generalize Real.arccos k = al at *
      generalize M.acos k = x at *
      obtain ⟨x1, x2⟩ := abs_le.1 ha
      have x0 : 0 ≤ x := by norm_num at *; linarith
      have e1 := err_le hF (x := x * 2) (B := 201 / 100 * al) (by rw [abs_of_nonneg (by positivity)]; norm_num at *; linarith) (by norm_num at *; linarith)
      generalize F.rnd (x * 2) = z at *
      obtain ⟨z1, z2⟩ := abs_le.1 e1
      have e2 := err_le hF (x := z / 2) (B := 101 / 100 * al) (by rw [abs_le]; norm_num at *; constructor <;> linarith) (by norm_num at *; linarith)
      generalize F.rnd (z / 2) = th at *
      obtain ⟨w1, w2⟩ := abs_le.1 e2
      have near : |th - al| ≤ 8 / 10 ^ 16 * al := by rw [abs_le]; norm_num at *; constructor <;> linarith
      obtain ⟨n1, n2⟩ := abs_le.1 near
      refine ⟨by norm_num at *; linarith, by norm_num at *; linarith, ?_⟩
      have hc := Real.abs_cos_sub_cos_le th al
      rw [a2] at hc
      obtain ⟨c3, c4⟩ := abs_le.1 (hc.trans near)
      rw [abs_le]
      norm_num at *
      constructor <;> linarith

/-! ### The weights -/

theorem sine_near (hF : Fine F) (hM : M.Accurate) {t t' θ : ℝ} (h0 : 0 ≤ t) (h1 : t ≤ 1) (ht : |t' - t| ≤ 3 / 10 ^ 15)
    (k0 : 1 / 10 ^ 8 ≤ θ) (k1 : θ ≤ π / 2) : |M.sin (F.rnd (t' * θ)) - Real.sin (t * θ)| ≤ 4 / 10 ^ 15 * θ := by
  have pi1 := Real.pi_lt_d2
  have th0 : 0 < θ := lt_of_lt_of_le (by norm_num) k0
  obtain ⟨t1, t2⟩ := abs_le.1 ht
  have e0 : |t' * θ - t * θ| ≤ 3 / 10 ^ 15 * θ := by
    rw [← sub_mul, abs_mul, abs_of_pos th0]
    exact mul_le_mul_of_nonneg_right ht th0.le
  have tt : |t * θ| ≤ θ := by
    rw [abs_mul, abs_of_nonneg h0, abs_of_pos th0]
    nlinarith
  obtain ⟨e1, e2⟩ := abs_le.1 e0
  obtain ⟨t3, t4⟩ := abs_le.1 tt
  have e3 := err_le hF (x := t' * θ) (B := 101 / 100 * θ) (by rw [abs_le]; norm_num at *; constructor <;> linarith) (by norm_num at *; linarith)
  generalize F.rnd (t' * θ) = x at *
  obtain ⟨x1, x2⟩ := abs_le.1 e3
  have e4 : |x - t * θ| ≤ 32 / 10 ^ 16 * θ := by rw [abs_le]; norm_num at *; constructor <;> linarith
  obtain ⟨x3, x4⟩ := abs_le.1 e4
  have hx : |x| ≤ 101 / 100 * θ := by rw [abs_le]; norm_num at *; constructor <;> linarith
  have e5 := hM.sin x (by norm_num at *; linarith)
  have e6 : |Real.sin x| ≤ 101 / 100 * θ := Real.abs_sin_le_abs.trans hx
  have e7 := (Real.abs_sin_sub_sin_le x (t * θ)).trans e4
  obtain ⟨y1, y2⟩ := abs_le.1 e5
  obtain ⟨y3, y4⟩ := abs_le.1 e7
  rw [abs_le]
  norm_num at *
  constructor <;> linarith

theorem recip_near (hF : Fine F) (hM : M.Accurate) {θ : ℝ} (k0 : 1 / 10 ^ 8 ≤ θ) (k1 : θ ≤ π / 2) :
    |F.rnd (1 / M.sin θ) - 1 / Real.sin θ| ≤ 8 / 10 ^ 16 * (1 / Real.sin θ) ∧ 1 / Real.sin θ ≤ 16 / 10 * (1 / θ) := by
  have pi1 := Real.pi_lt_d2
  have th0 : 0 < θ := lt_of_lt_of_le (by norm_num) k0
  have hs := Real.mul_le_sin th0.le k1
  have hp : 63 / 100 * θ ≤ Real.sin θ := by
    refine le_trans (mul_le_mul_of_nonneg_right ?_ th0.le) hs
    rw [le_div_iff₀ pi_pos]; linarith
  have hsp : 0 < Real.sin θ := by linarith
  have r1 : 1 / Real.sin θ ≤ 16 / 10 * (1 / θ) := by
    rw [div_le_iff₀ hsp]
    have : 16 / 10 * (1 / θ) * (63 / 100 * θ) ≤ 16 / 10 * (1 / θ) * Real.sin θ :=
      mul_le_mul_of_nonneg_left hp (by positivity)
    have e : 16 / 10 * (1 / θ) * (63 / 100 * θ) = 1008 / 1000 := by field_simp; norm_num
    rw [e] at this
    linarith
  refine ⟨?_, r1⟩
  have hb : 1 / θ ≤ 10 ^ 8 := by
    rw [div_le_iff₀ th0]; linarith
  have s1 := Real.sin_le_one θ
  have hM1 := hM.sin θ (by rw [abs_of_pos th0]; linarith)
  rw [abs_of_pos hsp] at hM1
  obtain ⟨m1, m2⟩ := abs_le.1 hM1
  generalize Real.sin θ = σ at *
  generalize M.sin θ = σ' at *
  have σ0 : 0 < σ' := by norm_num at *; linarith
  have e1 : |1 / σ' - 1 / σ| ≤ 6 / 10 ^ 16 * (1 / σ) := by
    have e : 1 / σ' - 1 / σ = (σ - σ') / σ' * (1 / σ) := by field_simp
    rw [e, abs_mul, abs_of_pos (by positivity : 0 < 1 / σ)]
    refine mul_le_mul_of_nonneg_right ?_ (by positivity)
    rw [abs_div, abs_of_pos σ0, div_le_iff₀ σ0, abs_sub_comm]
    norm_num at *; linarith
  have big : 1 ≤ 1 / σ * 2 := by
    rw [div_mul_eq_mul_div, le_div_iff₀ hsp]; linarith
  generalize 1 / σ = d at *
  generalize 1 / σ' = d' at *
  generalize 1 / θ = i at *
  obtain ⟨d1, d2⟩ := abs_le.1 e1
  have e2 := err_le hF (x := d') (B := 101 / 100 * d) (by rw [abs_le]; norm_num at *; constructor <;> linarith) (by norm_num at *; linarith)
  obtain ⟨d3, d4⟩ := abs_le.1 e2
  rw [abs_le]
  norm_num at *
  constructor <;> linarith

theorem weight_near {t θ s d : ℝ} (h0 : 0 ≤ t) (h1 : t ≤ 1) (k0 : 1 / 10 ^ 8 ≤ θ) (k1 : θ ≤ π / 2)
    (hs : |s - Real.sin (t * θ)| ≤ 4 / 10 ^ 15 * θ) (hd : |d - 1 / Real.sin θ| ≤ 8 / 10 ^ 16 * (1 / Real.sin θ))
    (hσ : 1 / Real.sin θ ≤ 16 / 10 * (1 / θ)) : |s * d - wt t θ| ≤ 9 / 10 ^ 15 := by
  have th0 : 0 < θ := lt_of_lt_of_le (by norm_num) k0
  have hsp := sin_pos' th0 k1
  have hle : Real.sin (t * θ) ≤ Real.sin θ := Real.sin_le_sin_of_le_of_le_pi_div_two (by nlinarith [pi_pos]) k1 (by nlinarith)
  have hge : 0 ≤ Real.sin (t * θ) := Real.sin_nonneg_of_nonneg_of_le_pi (by positivity) (by nlinarith [pi_pos])
  unfold wt
  rw [if_neg th0.ne']
  have e : s * d - Real.sin (t * θ) / Real.sin θ =
      (s - Real.sin (t * θ)) * d + Real.sin (t * θ) * (d - 1 / Real.sin θ) := by ring
  rw [e]
  have dd : |d| ≤ 17 / 10 * (1 / θ) := by
    obtain ⟨_, _⟩ := abs_le.1 hd
    have : 0 < 1 / θ := by positivity
    have : 0 < 1 / Real.sin θ := by positivity
    rw [abs_le]; norm_num at *; constructor <;> linarith
  have a1 : |(s - Real.sin (t * θ)) * d| ≤ 68 / 10 ^ 16 := by
    rw [abs_mul]
    refine (mul_le_mul hs dd (abs_nonneg _) (by positivity)).trans (le_of_eq ?_)
    field_simp; norm_num
  have a2 : |Real.sin (t * θ) * (d - 1 / Real.sin θ)| ≤ 8 / 10 ^ 16 := by
    rw [abs_mul, abs_of_nonneg hge]
    refine (mul_le_mul hle hd (abs_nonneg _) hsp.le).trans (le_of_eq ?_)
    field_simp
  have := abs_add_le ((s - Real.sin (t * θ)) * d) (Real.sin (t * θ) * (d - 1 / Real.sin θ))
  norm_num at *
  linarith

theorem mix_near (hF : Fine F) {s0 s1 d p r θ w0 w1 : ℝ} (k0 : 1 / 10 ^ 8 ≤ θ) (k1 : θ ≤ 2) (hp : |p| ≤ 101 / 100) (hr : |r| ≤ 101 / 100)
    (h0 : |s0| ≤ 11 / 10 * θ) (h1 : |s1| ≤ 11 / 10 * θ) (hd : |d| ≤ 17 / 10 * (1 / θ))
    (hw0 : |s0 * d - w0| ≤ 9 / 10 ^ 15) (hw1 : |s1 * d - w1| ≤ 9 / 10 ^ 15) :
    |F.mix s0 s1 d p r - (w0 * p + w1 * r)| ≤ 23 / 10 ^ 15 := by
  have th0 : 0 < θ := lt_of_lt_of_le (by norm_num) k0
  have hi : 1 / θ ≤ 10 ^ 8 := by rw [div_le_iff₀ th0]; linarith
  unfold mix
  have b0 : |p * s0| ≤ 12 / 10 * θ := by
    rw [abs_mul]
    refine (mul_le_mul hp h0 (abs_nonneg _) (by norm_num)).trans ?_
    linarith
  have b1 : |r * s1| ≤ 12 / 10 * θ := by
    rw [abs_mul]
    refine (mul_le_mul hr h1 (abs_nonneg _) (by norm_num)).trans ?_
    linarith
  have e0 := err_le hF b0 (by norm_num at *; linarith)
  have e1 := err_le hF b1 (by norm_num at *; linarith)
  have key : |(p * s0 + r * s1) * d - (w0 * p + w1 * r)| ≤ 1818 / 10 ^ 17 := by
    have e : (p * s0 + r * s1) * d - (w0 * p + w1 * r) = p * (s0 * d - w0) + r * (s1 * d - w1) := by ring
    have a1 : |p * (s0 * d - w0)| ≤ 101 / 100 * (9 / 10 ^ 15) := by
      rw [abs_mul]; exact mul_le_mul hp hw0 (abs_nonneg _) (by norm_num)
    have a2 : |r * (s1 * d - w1)| ≤ 101 / 100 * (9 / 10 ^ 15) := by
      rw [abs_mul]; exact mul_le_mul hr hw1 (abs_nonneg _) (by norm_num)
    have := abs_add_le (p * (s0 * d - w0)) (r * (s1 * d - w1))
    rw [e]
    norm_num at *; linarith
  generalize F.rnd (p * s0) = x at *
  generalize F.rnd (r * s1) = y at *
  generalize p * s0 = x0 at *
  generalize r * s1 = y0 at *
  obtain ⟨c1, c2⟩ := abs_le.1 b0
  obtain ⟨c3, c4⟩ := abs_le.1 b1
  obtain ⟨c5, c6⟩ := abs_le.1 e0
  obtain ⟨c7, c8⟩ := abs_le.1 e1
  have b2 : |x + y| ≤ 25 / 10 * θ := by rw [abs_le]; norm_num at *; constructor <;> linarith
  have e2 := err_le hF b2 (by norm_num at *; linarith)
  generalize F.rnd (x + y) = z at *
  obtain ⟨c9, c10⟩ := abs_le.1 e2
  have e3 : |z - (x0 + y0)| ≤ 7 / 10 ^ 16 * θ := by rw [abs_le]; norm_num at *; constructor <;> linarith
  have e4 : |z * d - (x0 + y0) * d| ≤ 12 / 10 ^ 16 := by
    rw [← sub_mul, abs_mul]
    refine (mul_le_mul e3 hd (abs_nonneg _) (by positivity)).trans ?_
    have : 7 / 10 ^ 16 * θ * (17 / 10 * (1 / θ)) = 119 / 10 ^ 17 := by field_simp; norm_num
    rw [this]; norm_num
  have b3 : |z| ≤ 26 / 10 * θ := by
    obtain ⟨_, _⟩ := abs_le.1 e3
    rw [abs_le]; norm_num at *; constructor <;> linarith
  have b4 : |z * d| ≤ 5 := by
    rw [abs_mul]
    refine (mul_le_mul b3 hd (abs_nonneg _) (by positivity)).trans ?_
    have : 26 / 10 * θ * (17 / 10 * (1 / θ)) = 442 / 100 := by field_simp; norm_num
    rw [this]; norm_num
  have e5 := err_le hF b4 (by norm_num)
  obtain ⟨f1, f2⟩ := abs_le.1 e5
  obtain ⟨f3, f4⟩ := abs_le.1 e4
  obtain ⟨f5, f6⟩ := abs_le.1 key
  rw [abs_le]
  norm_num at *
  constructor <;> linarith

end Rounding

/-! ### Combinations of two quaternions -/

/-- `w0 a + w1 b` -/
def Quat.comb (w0 w1 : ℝ) (a b : Quat ℝ) : Quat ℝ :=
  ⟨w0 * a.x + w1 * b.x, w0 * a.y + w1 * b.y, w0 * a.z + w1 * b.z, w0 * a.w + w1 * b.w⟩

theorem Quat.length_scale (k : ℝ) (a : Quat ℝ) : (⟨k * a.x, k * a.y, k * a.z, k * a.w⟩ : Quat ℝ).length = |k| * a.length := by
  unfold Quat.length
  rw [← Real.sqrt_sq_eq_abs, ← Real.sqrt_mul (sq_nonneg k)]
  congr 1
  simp only [Quat.length2, Quat.dot]; ring

theorem Quat.comb_apart (w0 w1 : ℝ) (a b : Quat ℝ) :
    (Quat.comb w0 w1 a b).apart a ≤ |w1| * b.apart a + |w0 + w1 - 1| * a.length := by
  rw [Quat.apart_eq, Quat.apart_eq b a, ← Quat.length_scale, ← Quat.length_scale]
  refine le_trans (le_of_eq ?_) (Quat.length_add_le _ _)
  congr 1
  ext <;> simp only [Quat.minus, Quat.comb] <;> ring

theorem Quat.abs_le_length (a : Quat ℝ) : |a.x| ≤ a.length ∧ |a.y| ≤ a.length ∧ |a.z| ≤ a.length ∧ |a.w| ≤ a.length := by
  have nx := mul_self_nonneg a.x
  have ny := mul_self_nonneg a.y
  have nz := mul_self_nonneg a.z
  have nw := mul_self_nonneg a.w
  refine ⟨?_, ?_, ?_, ?_⟩ <;>
  · refine Real.abs_le_sqrt ?_
    simp only [Quat.length2, Quat.dot]; linarith

/-- `slerp` in terms of the weights. -/
theorem Quat.slerp_form (a q : Quat ℝ) (t : ℝ) :
    (Real.arccos (|a.dot q| / Real.sqrt (a.length2 * q.length2)) = 0 → a.slerp q t = a) ∧
    (Real.arccos (|a.dot q| / Real.sqrt (a.length2 * q.length2)) ≠ 0 → a.slerp q t =
      Quat.comb (wt (1 - t) (Real.arccos (|a.dot q| / Real.sqrt (a.length2 * q.length2))))
        (wt t (Real.arccos (|a.dot q| / Real.sqrt (a.length2 * q.length2)))) a (a.side q)) := by
  have hang : a.angleShortestPath q / 2 = Real.arccos (|a.dot q| / Real.sqrt (a.length2 * q.length2)) := by
    unfold angleShortestPath
    simp only [tf2Acos_eq]
    split
    · next h => rw [dot_neg, abs_of_neg h]; ring
    · next h => rw [abs_of_nonneg (not_lt.1 h)]; ring
  generalize Real.arccos (|a.dot q| / Real.sqrt (a.length2 * q.length2)) = th at *
  constructor
  · intro h
    unfold slerp
    simp only [hang]
    rw [if_neg (not_not.2 h)]
  · intro h
    unfold slerp side comb wt
    simp only [hang]
    rw [if_pos h, if_neg h]
    split <;> ext <;> simp only [neg] <;> ring

theorem Quat.apart_side {a q : Quat ℝ} {τ c e : ℝ} (hτ : τ ≤ 1 / 1000000) (ha : |a.length2 - 1| ≤ τ) (hq : |q.length2 - 1| ≤ τ)
    (hc : |a.dot q| = c * Real.sqrt (a.length2 * q.length2)) (he : 0 ≤ e) (h : 2 * (101 / 100) * (1 - c) ≤ e ^ 2) (hc1 : c ≤ 1) :
    (a.side q).apart a ≤ 101 / 100 * τ + e := by
  have t0 : 0 ≤ τ := (abs_nonneg _).trans ha
  have hd := dot_side a q
  have hl := length2_side a q
  refine Real.sqrt_le_iff.2 ⟨by positivity, ?_⟩
  have e1 : ((a.side q).x - a.x) ^ 2 + ((a.side q).y - a.y) ^ 2 + ((a.side q).z - a.z) ^ 2 + ((a.side q).w - a.w) ^ 2 =
      a.length2 + q.length2 - 2 * (c * Real.sqrt (a.length2 * q.length2)) := by
    rw [← hc, ← hd, ← hl]
    simp only [length2, dot]; ring
  rw [e1]
  have la := length2_nonneg' a
  have lq := length2_nonneg' q
  rw [Real.sqrt_mul la]
  obtain ⟨a1, a2⟩ := abs_le.1 ha
  obtain ⟨q1, q2⟩ := abs_le.1 hq
  have sa := Real.sq_sqrt la
  have sq := Real.sq_sqrt lq
  have ga : 99 / 100 + 1 / 200 ≤ Real.sqrt a.length2 := Real.le_sqrt_of_sq_le (by norm_num at *; linarith)
  have gq : 99 / 100 + 1 / 200 ≤ Real.sqrt q.length2 := Real.le_sqrt_of_sq_le (by norm_num at *; linarith)
  have ga' : Real.sqrt a.length2 ≤ 1002 / 1000 := Real.sqrt_le_iff.2 ⟨by norm_num, by norm_num at *; linarith⟩
  have gq' : Real.sqrt q.length2 ≤ 1002 / 1000 := Real.sqrt_le_iff.2 ⟨by norm_num, by norm_num at *; linarith⟩
  generalize Real.sqrt a.length2 = x at *
  generalize Real.sqrt q.length2 = y at *
  generalize a.length2 = A at *
  generalize q.length2 = B at *
  subst sa
  subst sq
  have hxy : |x - y| ≤ 101 / 100 * τ := by
    have : |x - y| * (x + y) ≤ 2 * τ := by
      rw [← abs_of_nonneg (by linarith : 0 ≤ x + y), ← abs_mul]
      rw [abs_le]
      constructor <;> nlinarith
    have h2 : |x - y| * (199 / 100) ≤ |x - y| * (x + y) := mul_le_mul_of_nonneg_left (by linarith) (abs_nonneg _)
    linarith
  have h3 : (x - y) ^ 2 ≤ (101 / 100 * τ) ^ 2 := sq_le_sq.2 (by rw [abs_of_nonneg (by positivity : 0 ≤ 101 / 100 * τ)]; exact hxy)
  have h4 : x * y ≤ 101 / 100 := (mul_le_mul ga' gq' (by linarith) (by norm_num)).trans (by norm_num)
  have h5 : 2 * (x * y) * (1 - c) ≤ 2 * (101 / 100) * (1 - c) := mul_le_mul_of_nonneg_right (by linarith) (by linarith)
  have h6 : 0 ≤ 101 / 100 * τ * e := by positivity
  nlinarith

namespace Rounding

variable {F : Rounding} {M : Libm}

/-- The machine's `slerp` on arguments that are not opposite, with the sign resolved. -/
theorem slerp_eq_mix (hF : Fine F) (a q : Quat ℝ) (la : a.length ≤ 101 / 100) (lq : q.length ≤ 101 / 100)
    (hd : 1 / 10 ^ 12 ≤ |a.dot q|) (t : ℝ) :
    F.slerp M a q t =
      let y := F.dot a (a.side q) / M.sqrt (F.rnd (F.dot a a * F.dot q q))
      let theta := F.rnd (F.rnd (M.acosClamped (F.rnd y) * 2) / 2)
      if theta = 0 then a else
        let d := F.rnd (1 / M.sin theta)
        let s0 := M.sin (F.rnd (F.rnd (1 - t) * theta))
        let s1 := M.sin (F.rnd (t * theta))
        ⟨F.mix s0 s1 d a.x (a.side q).x, F.mix s0 s1 d a.y (a.side q).y, F.mix s0 s1 d a.z (a.side q).z,
          F.mix s0 s1 d a.w (a.side q).w⟩ := by
  have hn := dot_near hF a q la lq
  obtain ⟨n1, n2⟩ := abs_le.1 hn
  unfold slerp angleShortestPath Quat.side
  by_cases h : a.dot q < 0
  · rw [abs_of_neg h] at hd
    have h' : F.dot a q < 0 := by norm_num at *; linarith
    simp only [if_pos h, if_pos h', ite_not]
    rfl
  · rw [abs_of_nonneg (not_lt.1 h)] at hd
    have h' : ¬ F.dot a q < 0 := by norm_num at *; linarith
    simp only [if_neg h, if_neg h', ite_not]

set_option maxHeartbeats 4000000 in
/-- The machine's `slerp` is close to `slerp`. -/
theorem slerp_near (hF : Fine F) (hM : M.Accurate) {a q : Quat ℝ} {τ : ℝ} (hτ : τ ≤ 1 / 1000000)
    (ha : |a.length2 - 1| ≤ τ) (hq : |q.length2 - 1| ≤ τ) (hd : 1 / 10 ^ 12 ≤ |a.dot q|) {t t' : ℝ} (h0 : 0 ≤ t) (h1 : t ≤ 1)
    (ht : |t' - t| ≤ 2 / 10 ^ 15) : (F.slerp M a q t').apart (a.slerp q t) ≤ 1 / 10 ^ 7 + 2 * τ := by
  have t0 : 0 ≤ τ := (abs_nonneg _).trans ha
  have lens : ∀ c : Quat ℝ, |c.length2 - 1| ≤ τ → c.length ≤ 101 / 100 := by
    intro c hc
    refine Real.sqrt_le_iff.2 ⟨by norm_num, ?_⟩
    have := (abs_le.1 hc).2
    norm_num at *; linarith
  have la := lens a ha
  have lq := lens q hq
  have lside : (a.side q).length ≤ 101 / 100 := by
    unfold Quat.length; rw [Quat.length2_side]; exact lq
  obtain ⟨A1, A2⟩ := abs_le.1 ha
  obtain ⟨Q1, Q2⟩ := abs_le.1 hq
  have hAp : 0 < a.length2 := by linarith
  have hQp : 0 < q.length2 := by linarith
  have hsp : 0 < Real.sqrt (a.length2 * q.length2) := Real.sqrt_pos.2 (mul_pos hAp hQp)
  have hs1 : Real.sqrt (a.length2 * q.length2) ≤ 11 / 10 := by
    refine Real.sqrt_le_iff.2 ⟨by norm_num, ?_⟩
    have := mul_le_mul (by linarith : a.length2 ≤ 11 / 10) (by linarith : q.length2 ≤ 11 / 10) hQp.le (by norm_num)
    norm_num at *; linarith
  have hs0 : 9 / 10 ≤ Real.sqrt (a.length2 * q.length2) := by
    refine Real.le_sqrt_of_sq_le ?_
    have := mul_le_mul (by linarith : 95 / 100 ≤ a.length2) (by linarith : 95 / 100 ≤ q.length2) (by norm_num) hAp.le
    norm_num at *; linarith
  have hcs : |a.dot q| ≤ Real.sqrt (a.length2 * q.length2) := by
    rw [Real.sqrt_mul hAp.le]
    have := Quat.cs a q
    refine le_trans ?_ this
    unfold Quat.dot
    have i1 := abs_add_le (a.x * q.x + a.y * q.y + a.z * q.z) (a.w * q.w)
    have i2 := abs_add_le (a.x * q.x + a.y * q.y) (a.z * q.z)
    have i3 := abs_add_le (a.x * q.x) (a.y * q.y)
    linarith
  have hform := Quat.slerp_form a q t
  have hside := fun e : ℝ => Quat.apart_side (e := e) (c := |a.dot q| / Real.sqrt (a.length2 * q.length2)) hτ ha hq (by field_simp)
  have hcos := cosine_near hF hM a q (ha.trans hτ) (hq.trans hτ) (a.side q) (Quat.length2_side a q)
    (by rw [Quat.dot_side]; exact abs_nonneg _) (by rw [Quat.dot_side]; exact hcs)
  rw [Quat.dot_side] at hcos
  have hc0 : 1 / 10 ^ 13 ≤ |a.dot q| / Real.sqrt (a.length2 * q.length2) := by
    rw [le_div_iff₀ hsp]; norm_num at *; linarith
  have hc1 : |a.dot q| / Real.sqrt (a.length2 * q.length2) ≤ 1 := (div_le_one hsp).2 hcs
  rw [slerp_eq_mix hF a q la lq hd]
  -- the argument of the rounding is not large
  have hyb : |F.dot a (a.side q) / M.sqrt (F.rnd (F.dot a a * F.dot q q))| ≤ F.Ω := by
    have hn := dot_near hF a (a.side q) la lside
    have hAA := dot_near hF a a la la
    have hQQ := dot_near hF q q lq lq
    rw [Quat.dot_side] at hn
    have eA : a.dot a = a.length2 := rfl
    have eQ : q.dot q = q.length2 := rfl
    rw [eA] at hAA
    rw [eQ] at hQQ
    obtain ⟨x1, x2⟩ := abs_le.1 hAA
    obtain ⟨x3, x4⟩ := abs_le.1 hQQ
    obtain ⟨x5, x6⟩ := abs_le.1 hn
    generalize F.dot a a = A' at *
    generalize F.dot q q = Q' at *
    generalize F.dot a (a.side q) = D' at *
    have p1 : A' * Q' ≤ 11 / 10 * (11 / 10) := mul_le_mul (by norm_num at *; linarith) (by norm_num at *; linarith) (by norm_num at *; linarith) (by norm_num)
    have p2 : 9 / 10 * (9 / 10) ≤ A' * Q' := mul_le_mul (by norm_num at *; linarith) (by norm_num at *; linarith) (by norm_num) (by norm_num at *; linarith)
    obtain ⟨y1, y2⟩ := abs_le.1 (err_le hF (x := A' * Q') (B := 2) (by rw [abs_le]; constructor <;> linarith) (by norm_num))
    generalize F.rnd (A' * Q') = P at *
    have P0 : 81 / 100 - 1 / 100 ≤ P := by norm_num at *; linarith
    have sM := hM.sqrt P (by norm_num at *; linarith) (by norm_num at *; linarith)
    have sP : 1 / 2 ≤ Real.sqrt P := Real.le_sqrt_of_sq_le (by norm_num at *; linarith)
    obtain ⟨z1, z2⟩ := abs_le.1 sM
    generalize M.sqrt P = s at *
    have s0 : 1 / 4 ≤ s := by norm_num at *; linarith
    refine le_trans ?_ hF.Ω
    rw [abs_div, abs_of_pos (by linarith : 0 < s), div_le_iff₀ (by linarith)]
    have : |D'| ≤ 2 := by rw [abs_le]; norm_num at *; constructor <;> linarith
    norm_num at *; linarith
  dsimp only
  generalize |a.dot q| / Real.sqrt (a.length2 * q.length2) = c at *
  have hth := theta_near hF hM hyb hcos hc0
  generalize F.dot a (a.side q) / M.sqrt (F.rnd (F.dot a a * F.dot q q)) = y at *
  generalize F.rnd (F.rnd (M.acosClamped (F.rnd y) * 2) / 2) = th' at *
  have cth : Real.cos (Real.arccos c) = c := Real.cos_arccos (by norm_num at *; linarith) hc1
  have th0 := Real.arccos_nonneg c
  have thle : Real.arccos c ≤ π / 2 := Real.arccos_le_pi_div_two.2 (by norm_num at *; linarith)
  generalize Real.arccos c = th at *
  rcases hth with ⟨e0, hc⟩ | ⟨k0, k1, kc⟩
  · -- the machine takes the angle for zero and returns the older rotation
    rw [if_pos e0]
    by_cases hz : th = 0
    · rw [hform.1 hz, Quat.apart_self]; positivity
    · rw [hform.2 hz, Quat.apart_comm]
      have hs := hside (8 / 10 ^ 8) (by norm_num) (by norm_num at *; linarith) hc1
      refine (Quat.comb_apart _ _ _ _).trans ?_
      have w1 := wt_nonneg h0 h1 th0 thle
      have w2 := wt_le h0 h1 th0 thle
      have w3 := wt_zero_diff h0 h1 th0 thle
      have w4 := wt_nonneg (t := 1 - t) (by linarith) (by linarith) th0 thle
      have w5 := wt_zero_diff (t := 1 - t) (by linarith) (by linarith) th0 thle
      rw [cth] at w3 w5
      have m1 : |wt t th| * (a.side q).apart a ≤ 1 * (101 / 100 * τ + 8 / 10 ^ 8) := by
        rw [abs_of_nonneg (by linarith)]
        exact mul_le_mul w2 hs (Quat.apart_nonneg _ _) (by norm_num)
      have m2 : |wt (1 - t) th + wt t th - 1| * a.length ≤ 50 / 10 ^ 16 * (101 / 100) := by
        rw [abs_of_nonneg (by linarith)]
        exact mul_le_mul (by norm_num at *; linarith) la a.length_nonneg' (by norm_num)
      norm_num at *
      linarith
  · -- the machine computes the weights
    have hne : th' ≠ 0 := by
      intro h; rw [h] at k0; norm_num at k0
    rw [if_neg hne]
    have th'0 : 0 < th' := lt_of_lt_of_le (by norm_num) k0
    have pi1 := Real.pi_lt_d2
    have hw : ∀ s : ℝ, 0 ≤ s → s ≤ 1 → |wt s th' - wt s th| ≤ 6 / 10 ^ 15 := by
      intro s s0 s1
      refine (wt_diff s0 s1 th'0.le k1 th0 thle).trans ?_
      rw [cth]; exact kc
    -- the numbers of the machine
    obtain ⟨t1, t2⟩ := abs_le.1 ht
    have hs1 := sine_near hF hM h0 h1 (ht.trans (by norm_num)) k0 k1
    have e1 := err_le hF (x := 1 - t') (B := 2) (by rw [abs_le]; norm_num at *; constructor <;> linarith) (by norm_num)
    have hs0 : |M.sin (F.rnd (F.rnd (1 - t') * th')) - Real.sin ((1 - t) * th')| ≤ 4 / 10 ^ 15 * th' := by
      refine sine_near hF hM (by linarith) (by linarith) ?_ k0 k1
      obtain ⟨_, _⟩ := abs_le.1 e1
      rw [abs_le]; norm_num at *; constructor <;> linarith
    obtain ⟨hd1, hd2⟩ := recip_near hF hM k0 k1
    have hw1 := weight_near h0 h1 k0 k1 hs1 hd1 hd2
    have hw0 := weight_near (t := 1 - t) (by linarith) (by linarith) k0 k1 hs0 hd1 hd2
    have b : ∀ {s r : ℝ}, 0 ≤ r → r ≤ 1 → |s - Real.sin (r * th')| ≤ 4 / 10 ^ 15 * th' → |s| ≤ 11 / 10 * th' := by
      intro s r r0 r1 h
      have h2 : |Real.sin (r * th')| ≤ th' := by
        refine Real.abs_sin_le_abs.trans ?_
        rw [abs_of_nonneg (by positivity)]
        nlinarith
      obtain ⟨_, _⟩ := abs_le.1 h
      obtain ⟨_, _⟩ := abs_le.1 h2
      rw [abs_le]; norm_num at *; constructor <;> linarith
    have b1 := b h0 h1 hs1
    have b0 := b (r := 1 - t) (by linarith) (by linarith) hs0
    have bd : |F.rnd (1 / M.sin th')| ≤ 17 / 10 * (1 / th') := by
      obtain ⟨_, _⟩ := abs_le.1 hd1
      have : 0 < 1 / th' := by positivity
      have := sin_pos' th'0 k1
      have : 0 < 1 / Real.sin th' := by positivity
      rw [abs_le]; norm_num at *; constructor <;> linarith
    generalize M.sin (F.rnd (F.rnd (1 - t') * th')) = s0 at *
    generalize M.sin (F.rnd (t' * th')) = s1 at *
    generalize F.rnd (1 / M.sin th') = d at *
    have near : ∀ p r : ℝ, |p| ≤ 101 / 100 → |r| ≤ 101 / 100 →
        |F.mix s0 s1 d p r - (wt (1 - t) th * p + wt t th * r)| ≤ 4 / 10 ^ 14 := by
      intro p r hp hr
      have m := mix_near hF k0 (by linarith) hp hr b0 b1 bd hw0 hw1
      have v0 := hw (1 - t) (by linarith) (by linarith)
      have v1 := hw t h0 h1
      have m0 : |(wt (1 - t) th' - wt (1 - t) th) * p| ≤ 6 / 10 ^ 15 * (101 / 100) := by
        rw [abs_mul]; exact mul_le_mul v0 hp (abs_nonneg _) (by norm_num)
      have m1 : |(wt t th' - wt t th) * r| ≤ 6 / 10 ^ 15 * (101 / 100) := by
        rw [abs_mul]; exact mul_le_mul v1 hr (abs_nonneg _) (by norm_num)
      have e0 : (wt (1 - t) th' - wt (1 - t) th) * p = wt (1 - t) th' * p - wt (1 - t) th * p := by ring
      have e1 : (wt t th' - wt t th) * r = wt t th' * r - wt t th * r := by ring
      rw [e0] at m0
      rw [e1] at m1
      obtain ⟨_, _⟩ := abs_le.1 m
      obtain ⟨_, _⟩ := abs_le.1 m0
      obtain ⟨_, _⟩ := abs_le.1 m1
      rw [abs_le]; norm_num at *; constructor <;> linarith
    obtain ⟨ax, ay, az, aw⟩ := Quat.abs_le_length a
    obtain ⟨qx, qy, qz, qw⟩ := Quat.abs_le_length (a.side q)
    have hap : Quat.apart ⟨F.mix s0 s1 d a.x (a.side q).x, F.mix s0 s1 d a.y (a.side q).y, F.mix s0 s1 d a.z (a.side q).z,
        F.mix s0 s1 d a.w (a.side q).w⟩ (Quat.comb (wt (1 - t) th) (wt t th) a (a.side q)) ≤ 2 * (4 / 10 ^ 14) :=
      Quat.apart_le (near _ _ (ax.trans la) (qx.trans lside)) (near _ _ (ay.trans la) (qy.trans lside))
        (near _ _ (az.trans la) (qz.trans lside)) (near _ _ (aw.trans la) (qw.trans lside))
    by_cases hz : th = 0
    · rw [hform.1 hz]
      have hc : c = 1 := by rw [← cth, hz, Real.cos_zero]
      have hs := hside 0 le_rfl (by rw [hc]; norm_num) hc1
      have hcomb := Quat.comb_apart (wt (1 - t) th) (wt t th) a (a.side q)
      have ww : ∀ s, wt s th = s := fun s => if_pos hz
      rw [ww, ww, show 1 - t + t - 1 = 0 by ring, abs_zero, zero_mul, add_zero, abs_of_nonneg h0] at hcomb
      rw [ww, ww] at hap
      have m1 : t * (a.side q).apart a ≤ 1 * (101 / 100 * τ + 0) := mul_le_mul h1 hs (Quat.apart_nonneg _ _) (by norm_num)
      refine (Quat.apart_triangle _ _ _).trans (add_le_add hap hcomb |>.trans ?_)
      norm_num at *
      linarith
    · rw [hform.2 hz]
      refine hap.trans ?_
      norm_num at *
      linarith

/-! ### The translation -/

theorem interpolate3_near (hF : Fine F) {v w : Vec3 ℝ} {L : ℝ} (hL : L ≤ 10 ^ 9) (hv : v.length ≤ L) (hw : w.length ≤ L)
    {t t' : ℝ} (h0 : 0 ≤ t) (h1 : t ≤ 1) (ht : |t' - t| ≤ 2 / 10 ^ 15) :
    (F.interpolate3 v w t').apart (Vec3.interpolate3 v w t) ≤ 2 / 10 ^ 14 * L + 1 / 10 ^ 50 := by
  have L0 : 0 ≤ L := v.length_nonneg'.trans hv
  obtain ⟨t1, t2⟩ := abs_le.1 ht
  have e1 := err_le hF (x := 1 - t') (B := 101 / 100) (by rw [abs_le]; norm_num at *; constructor <;> linarith) (by norm_num)
  obtain ⟨t3, t4⟩ := abs_le.1 e1
  have comp : ∀ p r : ℝ, |p| ≤ L → |r| ≤ L →
      |F.rnd (F.rnd (F.rnd (1 - t') * p) + F.rnd (t' * r)) - ((1 - t) * p + t * r)| ≤ 1 / 10 ^ 14 * L + 5 / 10 ^ 60 := by
    intro p r hp hr
    generalize F.rnd (1 - t') = s at *
    have s1 : |s - (1 - t)| ≤ 22 / 10 ^ 16 := by rw [abs_le]; norm_num at *; constructor <;> linarith
    have a1 : |s * p - (1 - t) * p| ≤ 22 / 10 ^ 16 * L := by
      rw [← sub_mul, abs_mul]; exact mul_le_mul s1 hp (abs_nonneg _) (by norm_num)
    have a2 : |t' * r - t * r| ≤ 2 / 10 ^ 15 * L := by
      rw [← sub_mul, abs_mul]; exact mul_le_mul ht hr (abs_nonneg _) (by norm_num)
    have a3 : |(1 - t) * p| ≤ L := by
      rw [abs_mul, abs_of_nonneg (by linarith)]
      have := mul_le_mul (by linarith : 1 - t ≤ 1) hp (abs_nonneg _) (by norm_num)
      linarith
    have a4 : |t * r| ≤ L := by
      rw [abs_mul, abs_of_nonneg h0]
      have := mul_le_mul h1 hr (abs_nonneg _) (by norm_num)
      linarith
    generalize s * p = x at *
    generalize (1 - t) * p = x0 at *
    generalize t' * r = z at *
    generalize t * r = z0 at *
    obtain ⟨b1, b2⟩ := abs_le.1 a1
    obtain ⟨b3, b4⟩ := abs_le.1 a2
    obtain ⟨b5, b6⟩ := abs_le.1 a3
    obtain ⟨b7, b8⟩ := abs_le.1 a4
    obtain ⟨c1, c2⟩ := abs_le.1 (err_le hF (x := x) (B := 101 / 100 * L) (by rw [abs_le]; norm_num at *; constructor <;> linarith) (by norm_num at *; linarith))
    obtain ⟨c3, c4⟩ := abs_le.1 (err_le hF (x := z) (B := 101 / 100 * L) (by rw [abs_le]; norm_num at *; constructor <;> linarith) (by norm_num at *; linarith))
    generalize F.rnd x = x' at *
    generalize F.rnd z = z' at *
    obtain ⟨c5, c6⟩ := abs_le.1 (err_le hF (x := x' + z') (B := 203 / 100 * L + 3 / 10 ^ 60) (by rw [abs_le]; norm_num at *; constructor <;> linarith) (by norm_num at *; linarith))
    rw [abs_le]
    norm_num at *
    constructor <;> linarith
  have hc : ∀ v : Vec3 ℝ, |v.x| ≤ v.length ∧ |v.y| ≤ v.length ∧ |v.z| ≤ v.length := by
    intro v
    have nx := mul_self_nonneg v.x
    have ny := mul_self_nonneg v.y
    have nz := mul_self_nonneg v.z
    refine ⟨?_, ?_, ?_⟩ <;>
    · refine Real.abs_le_sqrt ?_
      simp only [Vec3.length2, Vec3.dot]; linarith
  obtain ⟨vx, vy, vz⟩ := hc v
  obtain ⟨wx, wy, wz⟩ := hc w
  have := Vec3.apart_le (a := F.interpolate3 v w t') (b := Vec3.interpolate3 v w t)
    (comp _ _ (vx.trans hv) (wx.trans hw)) (comp _ _ (vy.trans hv) (wy.trans hw)) (comp _ _ (vz.trans hv) (wz.trans hw))
  norm_num at *
  linarith

end Rounding

end Tf2
