import Verif.Proofs.FloatsChain

/-!
# Interpolation of finite transforms

As `Verif.Proofs.RoundedInterp`, for quaternions whose length is off by up to a half percent and also for half turns: the
result need not be close to the exact one, but its length is.
-/
namespace Tf2

open Real (pi_pos)
local notation "π" => Real.pi

/-- The library's `acos` on all arguments. -/
def Libm.AcosAll (M : Libm) : Prop := ∀ x, -1 ≤ x → x ≤ 1 → |M.acos x - Real.arccos x| ≤ 5 / 10 ^ 16 * Real.arccos x

/-- Almost a unit quaternion. -/
def Quat.Loose (q : Quat ℝ) : Prop := |q.length2 - 1| ≤ 101 / 10000

theorem Quat.Loose.length {q : Quat ℝ} (h : q.Loose) : q.length ≤ 1006 / 1000 := by
  refine Real.sqrt_le_iff.2 ⟨by norm_num, ?_⟩
  have := (abs_le.1 h).2
  norm_num at *; linarith

theorem Quat.Loose.firm {q : Quat ℝ} (h : q.Loose) : q.Firm := by
  refine ⟨Real.le_sqrt_of_sq_le ?_, h.length⟩
  have := (abs_le.1 h).1
  norm_num at *; linarith

namespace Wide

variable {F : Rounding} {M : Libm}

theorem cosine (hF : Fine F) (hM : M.Accurate) (a b : Quat ℝ) (ha : a.Loose) (hb : b.Loose) (q : Quat ℝ) (hq : q.length2 = b.length2)
    (hd : -(7 / 10 ^ 16) ≤ a.dot q) (hdot : a.dot q ≤ Real.sqrt (a.length2 * b.length2)) :
    |F.rnd (F.dot a q / M.sqrt (F.rnd (F.dot a a * F.dot b b))) - a.dot q / Real.sqrt (a.length2 * b.length2)| ≤ 1 / 10 ^ 14 ∧
    |F.dot a q / M.sqrt (F.rnd (F.dot a a * F.dot b b))| ≤ 2 ∧ 9 / 10 ≤ F.rnd (F.dot a a * F.dot b b) ∧
    98 / 100 * (99 / 100) ≤ M.sqrt (F.rnd (F.dot a a * F.dot b b)) ∧
    -(1 / 10 ^ 15) ≤ a.dot q / Real.sqrt (a.length2 * b.length2) ∧ 97 / 100 ≤ Real.sqrt (a.length2 * b.length2) ∧
    |F.dot a a * F.dot b b| ≤ 2 := by
  have lq : q.Loose := by unfold Quat.Loose; rw [hq]; exact hb
  have dA := Rounding.dot_near hF a a (by linarith [ha.length]) (by linarith [ha.length])
  have dB := Rounding.dot_near hF b b (by linarith [hb.length]) (by linarith [hb.length])
  have dQ := Rounding.dot_near hF a q (by linarith [ha.length]) (by linarith [lq.length])
  have eA : a.dot a = a.length2 := rfl
  have eB : b.dot b = b.length2 := rfl
  rw [eA] at dA
  rw [eB] at dB
  unfold Quat.Loose at ha hb
  clear lq hq eA eB
  generalize F.dot a a = A' at *
  generalize F.dot b b = B' at *
  generalize F.dot a q = D' at *
  generalize a.length2 = A at *
  generalize b.length2 = B at *
  generalize a.dot q = D at *
  obtain ⟨A1, A2⟩ := abs_le.1 ha
  obtain ⟨B1, B2⟩ := abs_le.1 hb
  have hAB : |A' * B' - A * B| ≤ 15 / 10 ^ 16 := by
    have e : A' * B' - A * B = (A' - A) * B' + A * (B' - B) := by ring
    have b1 : |B'| ≤ 102 / 100 := by
      obtain ⟨_, _⟩ := abs_le.1 dB
      rw [abs_le]; norm_num at *; constructor <;> linarith
    have a1 : |A| ≤ 102 / 100 := by rw [abs_le]; constructor <;> linarith
    have h1 : |(A' - A) * B'| ≤ 7 / 10 ^ 16 * (102 / 100) := by
      rw [abs_mul]; exact mul_le_mul dA b1 (abs_nonneg _) (by norm_num)
    have h2 : |A * (B' - B)| ≤ 102 / 100 * (7 / 10 ^ 16) := by
      rw [abs_mul]; exact mul_le_mul a1 dB (abs_nonneg _) (by norm_num)
    have := abs_add_le ((A' - A) * B') (A * (B' - B))
    rw [e]
    norm_num at *; linarith
  have AB1 : A * B ≤ 103 / 100 := by
    have := mul_le_mul (by linarith : A ≤ 10101 / 10000) (by linarith : B ≤ 10101 / 10000) (by linarith) (by norm_num)
    norm_num at *; linarith
  have AB0 : 97 / 100 ≤ A * B := by
    have := mul_le_mul (by linarith : 9899 / 10000 ≤ A) (by linarith : 9899 / 10000 ≤ B) (by norm_num) (by linarith)
    norm_num at *; linarith
  obtain ⟨AB2, AB3⟩ := abs_le.1 hAB
  generalize A' * B' = P at *
  generalize A * B = Q at *
  have hP : |P| ≤ 104 / 100 := by rw [abs_le]; norm_num at *; constructor <;> linarith
  have e1 := Rounding.err_le hF (x := P) (B := 104 / 100) hP (by norm_num)
  generalize F.rnd P = P' at *
  obtain ⟨p1, p2⟩ := abs_le.1 e1
  have hPQ : |P' - Q| ≤ 17 / 10 ^ 16 := by rw [abs_le]; norm_num at *; constructor <;> linarith
  obtain ⟨p3, p4⟩ := abs_le.1 hPQ
  have P0 : 9 / 10 ≤ P' := by norm_num at *; linarith
  have P00 : 0 ≤ P' := by linarith
  have s1 : 98 / 100 ≤ Real.sqrt Q := Real.le_sqrt_of_sq_le (by norm_num at *; linarith)
  have s2 : Real.sqrt Q ≤ 102 / 100 := Real.sqrt_le_iff.2 ⟨by norm_num, by norm_num at *; linarith⟩
  have s3 : 98 / 100 ≤ Real.sqrt P' := Real.le_sqrt_of_sq_le (by norm_num at *; linarith)
  have s4 : Real.sqrt P' ≤ 102 / 100 := Real.sqrt_le_iff.2 ⟨by norm_num, by norm_num at *; linarith⟩
  have s5 : |Real.sqrt P' - Real.sqrt Q| ≤ 9 / 10 ^ 16 := by
    have e : (Real.sqrt P' - Real.sqrt Q) * (Real.sqrt P' + Real.sqrt Q) = P' - Q := by
      have a1 := Real.sq_sqrt P00
      have a2 := Real.sq_sqrt (by linarith : 0 ≤ Q)
      ring_nf; rw [a1, a2]
    have h1 : |Real.sqrt P' - Real.sqrt Q| * (Real.sqrt P' + Real.sqrt Q) ≤ 17 / 10 ^ 16 := by
      rw [← abs_of_nonneg (by linarith : 0 ≤ Real.sqrt P' + Real.sqrt Q), ← abs_mul, e]; exact hPQ
    have h2 : |Real.sqrt P' - Real.sqrt Q| * (196 / 100) ≤ |Real.sqrt P' - Real.sqrt Q| * (Real.sqrt P' + Real.sqrt Q) :=
      mul_le_mul_of_nonneg_left (by linarith) (abs_nonneg _)
    norm_num at *; linarith
  have s6 := hM.sqrt P' P00 (by norm_num at *; linarith)
  generalize M.sqrt P' = s' at *
  generalize Real.sqrt P' = sp at *
  generalize Real.sqrt Q = s at *
  have s7 : |s' - s| ≤ 15 / 10 ^ 16 := by
    obtain ⟨_, _⟩ := abs_le.1 s5
    obtain ⟨_, _⟩ := abs_le.1 s6
    rw [abs_le]; norm_num at *; constructor <;> linarith
  obtain ⟨s8, s9⟩ := abs_le.1 s7
  have s'0 : 98 / 100 * (99 / 100) ≤ s' := by norm_num at *; linarith
  have s0 : 0 < s := by linarith
  have s'p : 0 < s' := by linarith
  have c0 : -(1 / 10 ^ 15) ≤ D / s := by
    rw [le_div_iff₀ s0]
    norm_num at *; linarith
  have c1 : D / s ≤ 1 := (div_le_one s0).2 hdot
  have ca : |D / s| ≤ 1 := by rw [abs_le]; norm_num at *; constructor <;> linarith
  have k : |D' / s' - D / s| ≤ 3 / 10 ^ 15 := by
    have e : D' / s' - D / s = ((D' - D) - D / s * (s' - s)) / s' := by field_simp; ring
    have h1 : |D / s * (s' - s)| ≤ 1 * (15 / 10 ^ 16) := by
      rw [abs_mul]; exact mul_le_mul ca s7 (abs_nonneg _) (by norm_num)
    have h2 := abs_sub (D' - D) (D / s * (s' - s))
    rw [e, abs_div, abs_of_pos s'p, div_le_iff₀ s'p]
    norm_num at *; linarith
  generalize D / s = c at *
  generalize D' / s' = c' at *
  obtain ⟨k1, k2⟩ := abs_le.1 k
  have hc' : |c'| ≤ 101 / 100 := by rw [abs_le]; norm_num at *; constructor <;> linarith
  have e2 := Rounding.err_le hF (x := c') (B := 101 / 100) hc' (by norm_num)
  obtain ⟨k3, k4⟩ := abs_le.1 e2
  refine ⟨?_, by linarith, P0, s'0, c0, by linarith, by linarith⟩
  rw [abs_le]
  norm_num at *
  constructor <;> linarith

theorem cos_1572 : Real.cos (1572 / 1000) ≤ -(1 / 10 ^ 6) := by
  have p1 := Real.pi_gt_d4
  have p2 := Real.pi_lt_d4
  have e : Real.cos (1572 / 1000) = -Real.sin (1572 / 1000 - π / 2) := by
    rw [← Real.cos_add_pi_div_two]; congr 1; ring
  have h := Real.mul_le_sin (x := 1572 / 1000 - π / 2) (by linarith) (by linarith)
  have h2 : 1 / 2 * (1 / 1000) ≤ 2 / π * (1572 / 1000 - π / 2) :=
    mul_le_mul (by rw [le_div_iff₀ pi_pos]; linarith) (by linarith) (by norm_num) (by positivity)
  rw [e]
  norm_num at *
  linarith

theorem theta (hF : Fine F) (hM : M.AcosAll) {y c : ℝ} (hy : |y| ≤ F.Ω) (h : |F.rnd y - c| ≤ 1 / 10 ^ 14)
    (c0 : -(1 / 10 ^ 15) ≤ c) :
    |M.acosClamped (F.rnd y)| ≤ 2 ∧ |F.rnd (M.acosClamped (F.rnd y) * 2)| ≤ 4 ∧
    (F.rnd (F.rnd (M.acosClamped (F.rnd y) * 2) / 2) = 0 ∨
    (1 / 10 ^ 8 ≤ F.rnd (F.rnd (M.acosClamped (F.rnd y) * 2) / 2) ∧
      F.rnd (F.rnd (M.acosClamped (F.rnd y) * 2) / 2) ≤ 158 / 100 ∧
      |Real.cos (F.rnd (F.rnd (M.acosClamped (F.rnd y) * 2) / 2)) - c| ≤ 3 / 10 ^ 14)) := by
  obtain ⟨h1, h2⟩ := abs_le.1 h
  have low : ¬ F.rnd y < -1 := by norm_num at *; linarith
  have ha1 : M.acos 1 = 0 := by
    have ha := hM 1 (by norm_num) le_rfl
    rw [Real.arccos_one, mul_zero, sub_zero] at ha
    exact abs_eq_zero.1 (le_antisymm ha (abs_nonneg _))
  have z0 : F.rnd 0 = 0 := hF.zero
  unfold Libm.acosClamped
  simp only [if_neg low]
  split
  · next hgt =>
    rw [ha1, zero_mul, z0, zero_div, z0, abs_zero]
    exact ⟨by norm_num, by norm_num, .inl rfl⟩
  · next hgt =>
    rcases (not_lt.1 hgt).eq_or_lt with e | hlt
    · rw [e, ha1, zero_mul, z0, zero_div, z0, abs_zero]
      exact ⟨by norm_num, by norm_num, .inl rfl⟩
    · have hg := hF.gap y hy hlt
      generalize F.rnd y = k at *
      have k0 : -(2 / 10 ^ 14) ≤ k := by norm_num at *; linarith
      have k0' : -1 ≤ k := le_trans (by norm_num) k0
      have ha := hM k k0' hlt.le
      have a2 : Real.cos (Real.arccos k) = k := Real.cos_arccos (by linarith) hlt.le
      have a0 := Real.arccos_nonneg k
      have a1 : Real.arccos k ≤ 1572 / 1000 := by
        refine le_of_not_gt fun hh => ?_
        have := Real.cos_lt_cos_of_nonneg_of_le_pi (by norm_num) (Real.arccos_le_pi k) hh
        rw [a2] at this
        have := cos_1572
        norm_num at *; linarith
      have a3 : 14 / 10 ^ 9 ≤ Real.arccos k := by
        have h3 := Real.one_sub_sq_div_two_le_cos (x := Real.arccos k)
        rw [a2] at h3
        refine le_of_not_gt fun hh => ?_
        have := pow_lt_pow_left₀ hh a0 (n := 2) (by norm_num)
        norm_num at *
        linarith
      generalize Real.arccos k = al at *
      generalize M.acos k = x at *
      obtain ⟨x1, x2⟩ := abs_le.1 ha
      have x0 : 0 ≤ x := by norm_num at *; linarith
      have e1 := Rounding.err_le hF (x := x * 2) (B := 201 / 100 * al) (by rw [abs_of_nonneg (by positivity)]; norm_num at *; linarith) (by norm_num at *; linarith)
      generalize F.rnd (x * 2) = z at *
      obtain ⟨z1, z2⟩ := abs_le.1 e1
      have e2 := Rounding.err_le hF (x := z / 2) (B := 101 / 100 * al) (by rw [abs_le]; norm_num at *; constructor <;> linarith) (by norm_num at *; linarith)
      generalize F.rnd (z / 2) = th at *
      obtain ⟨w1, w2⟩ := abs_le.1 e2
      have near : |th - al| ≤ 8 / 10 ^ 16 * al := by rw [abs_le]; norm_num at *; constructor <;> linarith
      obtain ⟨n1, n2⟩ := abs_le.1 near
      refine ⟨by rw [abs_le]; norm_num at *; constructor <;> linarith, by rw [abs_le]; norm_num at *; constructor <;> linarith,
        .inr ⟨by norm_num at *; linarith, by norm_num at *; linarith, ?_⟩⟩
      have hc := Real.abs_cos_sub_cos_le th al
      rw [a2] at hc
      obtain ⟨c3, c4⟩ := abs_le.1 (hc.trans near)
      rw [abs_le]
      norm_num at *
      constructor <;> linarith

theorem sine (hF : Fine F) (hM : M.Accurate) {t t' θ : ℝ} (h0 : 0 ≤ t) (h1 : t ≤ 1) (ht : |t' - t| ≤ 3 / 10 ^ 15)
    (k0 : 1 / 10 ^ 8 ≤ θ) (k1 : θ ≤ 158 / 100) : |M.sin (F.rnd (t' * θ)) - Real.sin (t * θ)| ≤ 4 / 10 ^ 15 * θ ∧ |t' * θ| ≤ 2 := by
  have th0 : 0 < θ := lt_of_lt_of_le (by norm_num) k0
  obtain ⟨t1, t2⟩ := abs_le.1 ht
  have e0 : |t' * θ - t * θ| ≤ 3 / 10 ^ 15 * θ := by
    rw [← sub_mul, abs_mul, abs_of_pos th0]
    exact mul_le_mul_of_nonneg_right ht th0.le
  have tt : |t * θ| ≤ θ := by
    rw [abs_mul, abs_of_nonneg h0, abs_of_pos th0]
    nlinarith
  obtain ⟨e1, e2⟩ := abs_le.1 e0
  obtain ⟨t3, t4⟩ := abs_le.1 tt
  have e8 : |t' * θ| ≤ 101 / 100 * θ := by rw [abs_le]; norm_num at *; constructor <;> linarith
  refine ⟨?_, by linarith⟩
  have e3 := Rounding.err_le hF (x := t' * θ) (B := 101 / 100 * θ) e8 (by norm_num at *; linarith)
  generalize F.rnd (t' * θ) = x at *
  obtain ⟨x1, x2⟩ := abs_le.1 e3
  have e4 : |x - t * θ| ≤ 32 / 10 ^ 16 * θ := by rw [abs_le]; norm_num at *; constructor <;> linarith
  obtain ⟨x3, x4⟩ := abs_le.1 e4
  have hx : |x| ≤ 101 / 100 * θ := by rw [abs_le]; norm_num at *; constructor <;> linarith
  have e5 := hM.sin x (by norm_num at *; linarith)
  have e6 : |Real.sin x| ≤ 101 / 100 * θ := Real.abs_sin_le_abs.trans hx
  have e7 := (Real.abs_sin_sub_sin_le x (t * θ)).trans e4
  obtain ⟨y1, y2⟩ := abs_le.1 e5
  obtain ⟨y3, y4⟩ := abs_le.1 e7
  rw [abs_le]
  norm_num at *
  constructor <;> linarith

theorem sin_low {θ : ℝ} (k0 : 0 ≤ θ) (k1 : θ ≤ 158 / 100) : 63 / 100 * θ ≤ Real.sin θ := by
  have pi1 := Real.pi_lt_d2
  have pi2 := Real.pi_gt_d2
  by_cases h : θ ≤ π / 2
  · refine le_trans (mul_le_mul_of_nonneg_right ?_ k0) (Real.mul_le_sin k0 h)
    rw [le_div_iff₀ pi_pos]; linarith
  · have e : Real.sin θ = Real.cos (θ - π / 2) := (Real.cos_sub_pi_div_two θ).symm
    have c := Real.one_sub_sq_div_two_le_cos (x := θ - π / 2)
    have : (θ - π / 2) ^ 2 ≤ (1 / 50) ^ 2 := pow_le_pow_left₀ (by linarith) (by linarith) 2
    rw [e]
    norm_num at *
    linarith

theorem recip (hF : Fine F) (hM : M.Accurate) {θ : ℝ} (k0 : 1 / 10 ^ 8 ≤ θ) (k1 : θ ≤ 158 / 100) :
    |F.rnd (1 / M.sin θ) - 1 / Real.sin θ| ≤ 8 / 10 ^ 16 * (1 / Real.sin θ) ∧ 1 / Real.sin θ ≤ 16 / 10 * (1 / θ) ∧
      0 < M.sin θ ∧ |1 / M.sin θ| ≤ 2 * 10 ^ 8 := by
  have th0 : 0 < θ := lt_of_lt_of_le (by norm_num) k0
  have hp := sin_low th0.le k1
  have hsp : 0 < Real.sin θ := by linarith
  have r1 : 1 / Real.sin θ ≤ 16 / 10 * (1 / θ) := by
    rw [div_le_iff₀ hsp]
    have : 16 / 10 * (1 / θ) * (63 / 100 * θ) ≤ 16 / 10 * (1 / θ) * Real.sin θ :=
      mul_le_mul_of_nonneg_left hp (by positivity)
    have e : 16 / 10 * (1 / θ) * (63 / 100 * θ) = 1008 / 1000 := by field_simp; norm_num
    rw [e] at this
    linarith
  have hb : 1 / θ ≤ 10 ^ 8 := by
    rw [div_le_iff₀ th0]; linarith
  have s1 := Real.sin_le_one θ
  have hM1 := hM.sin θ (by rw [abs_of_pos th0]; linarith)
  rw [abs_of_pos hsp] at hM1
  obtain ⟨m1, m2⟩ := abs_le.1 hM1
  generalize Real.sin θ = σ at *
  generalize M.sin θ = σ' at *
  have σ0 : 0 < σ' := by norm_num at *; linarith
  have e1 : |1 / σ' - 1 / σ| ≤ 6 / 10 ^ 16 * (1 / σ) := by
    have e : 1 / σ' - 1 / σ = (σ - σ') / σ' * (1 / σ) := by field_simp
    rw [e, abs_mul, abs_of_pos (by positivity : 0 < 1 / σ)]
    refine mul_le_mul_of_nonneg_right ?_ (by positivity)
    rw [abs_div, abs_of_pos σ0, div_le_iff₀ σ0, abs_sub_comm]
    norm_num at *; linarith
  have big : 1 ≤ 1 / σ * 2 := by
    rw [div_mul_eq_mul_div, le_div_iff₀ hsp]; linarith
  generalize 1 / σ = d at *
  generalize 1 / σ' = d' at *
  generalize 1 / θ = i at *
  obtain ⟨d1, d2⟩ := abs_le.1 e1
  have e2 := Rounding.err_le hF (x := d') (B := 101 / 100 * d) (by rw [abs_le]; norm_num at *; constructor <;> linarith) (by norm_num at *; linarith)
  obtain ⟨d3, d4⟩ := abs_le.1 e2
  refine ⟨?_, r1, σ0, ?_⟩
  · rw [abs_le]
    norm_num at *
    constructor <;> linarith
  · rw [abs_le]
    norm_num at *
    constructor <;> linarith

theorem weight {t θ s d : ℝ} (h0 : 0 ≤ t) (h1 : t ≤ 1) (k0 : 1 / 10 ^ 8 ≤ θ) (k1 : θ ≤ 158 / 100)
    (hs : |s - Real.sin (t * θ)| ≤ 4 / 10 ^ 15 * θ) (hd : |d - 1 / Real.sin θ| ≤ 8 / 10 ^ 16 * (1 / Real.sin θ))
    (hσ : 1 / Real.sin θ ≤ 16 / 10 * (1 / θ)) :
    |s * d - Real.sin (t * θ) / Real.sin θ| ≤ 9 / 10 ^ 15 ∧ 0 ≤ Real.sin (t * θ) / Real.sin θ ∧ Real.sin (t * θ) / Real.sin θ ≤ 2 ∧
      |s| ≤ 11 / 10 * θ ∧ |d| ≤ 17 / 10 * (1 / θ) := by
  have pi2 := Real.pi_gt_d2
  have th0 : 0 < θ := lt_of_lt_of_le (by norm_num) k0
  have hsp : 0 < Real.sin θ := lt_of_lt_of_le (by positivity) (sin_low th0.le k1)
  have tθ : t * θ ≤ θ := by nlinarith
  have tθ0 : 0 ≤ t * θ := by positivity
  have hle1 : Real.sin (t * θ) ≤ θ := (Real.sin_le tθ0).trans tθ
  have hle : Real.sin (t * θ) ≤ 16 / 10 * Real.sin θ := by
    have := sin_low th0.le k1
    linarith
  have hge : 0 ≤ Real.sin (t * θ) := Real.sin_nonneg_of_nonneg_of_le_pi tθ0 (by linarith)
  have e : s * d - Real.sin (t * θ) / Real.sin θ =
      (s - Real.sin (t * θ)) * d + Real.sin (t * θ) * (d - 1 / Real.sin θ) := by ring
  have dd : |d| ≤ 17 / 10 * (1 / θ) := by
    obtain ⟨_, _⟩ := abs_le.1 hd
    have : 0 < 1 / θ := by positivity
    have : 0 < 1 / Real.sin θ := by positivity
    rw [abs_le]; norm_num at *; constructor <;> linarith
  have a1 : |(s - Real.sin (t * θ)) * d| ≤ 68 / 10 ^ 16 := by
    rw [abs_mul]
    refine (mul_le_mul hs dd (abs_nonneg _) (by positivity)).trans (le_of_eq ?_)
    field_simp; norm_num
  have a2 : |Real.sin (t * θ) * (d - 1 / Real.sin θ)| ≤ 16 / 10 * (8 / 10 ^ 16) := by
    rw [abs_mul, abs_of_nonneg hge]
    refine (mul_le_mul hle hd (abs_nonneg _) (by positivity)).trans (le_of_eq ?_)
    field_simp
  have := abs_add_le ((s - Real.sin (t * θ)) * d) (Real.sin (t * θ) * (d - 1 / Real.sin θ))
  refine ⟨?_, by positivity, ?_, ?_, dd⟩
  · rw [e]
    norm_num at *
    linarith
  · rw [div_le_iff₀ hsp]; linarith
  · obtain ⟨_, _⟩ := abs_le.1 hs
    rw [abs_le]; norm_num at *; constructor <;> linarith

theorem sin_identity (A B : ℝ) :
    Real.sin A ^ 2 + Real.sin B ^ 2 + 2 * (Real.sin A * Real.sin B * Real.cos (A + B)) = Real.sin (A + B) ^ 2 := by
  rw [Real.sin_add, Real.cos_add]
  have h1 := Real.sin_sq_add_cos_sq A
  have h2 := Real.sin_sq_add_cos_sq B
  linear_combination (-Real.sin A ^ 2) * h2 + (-Real.sin B ^ 2) * h1

theorem weights_sum {t θ : ℝ} (h : 0 < Real.sin θ) :
    (Real.sin ((1 - t) * θ) / Real.sin θ) ^ 2 + (Real.sin (t * θ) / Real.sin θ) ^ 2 +
      2 * (Real.sin ((1 - t) * θ) / Real.sin θ * (Real.sin (t * θ) / Real.sin θ) * Real.cos θ) = 1 := by
  have := sin_identity ((1 - t) * θ) (t * θ)
  rw [show (1 - t) * θ + t * θ = θ by ring] at this
  field_simp
  linarith

theorem comb_length {w0 w1 x : ℝ} {a r : Quat ℝ} (h0 : 0 ≤ w0) (h1 : 0 ≤ w1) (k0 : w0 ≤ 2) (k1 : w1 ≤ 2)
    (hs : w0 ^ 2 + w1 ^ 2 + 2 * (w0 * w1 * x) = 1) (hx : -(1 / 10 ^ 12) ≤ x) (ha : a.length2 ≤ 10101 / 10000)
    (hr : r.length2 ≤ 10101 / 10000) (hd : |a.dot r - x * Real.sqrt (a.length2 * r.length2)| ≤ 1 / 10 ^ 12) :
    (Quat.comb w0 w1 a r).length ≤ 10055 / 10000 := by
  refine Real.sqrt_le_iff.2 ⟨by norm_num, ?_⟩
  have e : (Quat.comb w0 w1 a r).length2 = w0 ^ 2 * a.length2 + w1 ^ 2 * r.length2 + 2 * (w0 * w1 * a.dot r) := by
    simp only [Quat.comb, Quat.length2, Quat.dot]; ring
  rw [e]
  have a0 := Quat.length2_nonneg' a
  have r0 := Quat.length2_nonneg' r
  have N0 := Real.sqrt_nonneg (a.length2 * r.length2)
  have N1 : Real.sqrt (a.length2 * r.length2) ≤ 10101 / 10000 := by
    refine Real.sqrt_le_iff.2 ⟨by norm_num, ?_⟩
    have := mul_le_mul ha hr r0 (by norm_num)
    norm_num at *; linarith
  generalize Real.sqrt (a.length2 * r.length2) = N at *
  generalize a.length2 = A at *
  generalize r.length2 = R at *
  generalize a.dot r = D at *
  have ww : 0 ≤ w0 * w1 := by positivity
  have ww4 : w0 * w1 ≤ 4 := by nlinarith
  obtain ⟨_, d2⟩ := abs_le.1 hd
  have m1 := mul_le_mul_of_nonneg_left ha (sq_nonneg w0)
  have m2 := mul_le_mul_of_nonneg_left hr (sq_nonneg w1)
  have m3 : w0 * w1 * D ≤ w0 * w1 * (x * N) + 4 / 10 ^ 12 := by
    have := mul_le_mul_of_nonneg_left (by linarith : D ≤ x * N + 1 / 10 ^ 12) ww
    have : w0 * w1 * (1 / 10 ^ 12) ≤ 4 * (1 / 10 ^ 12) := mul_le_mul_of_nonneg_right ww4 (by norm_num)
    linarith
  have m4 : w0 * w1 * (x * N) ≤ w0 * w1 * x * (10101 / 10000) + 5 / 10 ^ 12 := by
    by_cases h : 0 ≤ x
    · have : w0 * w1 * x * N ≤ w0 * w1 * x * (10101 / 10000) := mul_le_mul_of_nonneg_left N1 (by positivity)
      norm_num; linarith
    · have h3 : w0 * w1 * x * N ≤ 0 := mul_nonpos_of_nonpos_of_nonneg (mul_nonpos_of_nonneg_of_nonpos ww (by linarith)) N0
      have h4 : 4 * -(1 / 10 ^ 12) ≤ w0 * w1 * x := by
        have := mul_le_mul_of_nonneg_left hx ww
        have : w0 * w1 * (1 / 10 ^ 12) ≤ 4 * (1 / 10 ^ 12) := mul_le_mul_of_nonneg_right ww4 (by norm_num)
        linarith
      norm_num at *; linarith
  norm_num at *
  linarith

theorem comb_low {w0 w1 x : ℝ} {a r : Quat ℝ} (h0 : 0 ≤ w0) (h1 : 0 ≤ w1) (k0 : w0 ≤ 2) (k1 : w1 ≤ 2)
    (hs : w0 ^ 2 + w1 ^ 2 + 2 * (w0 * w1 * x) = 1) (hx : -(1 / 10 ^ 12) ≤ x) (ha : 9899 / 10000 ≤ a.length2)
    (hr : 9899 / 10000 ≤ r.length2) (ha' : a.length2 ≤ 10101 / 10000) (hr' : r.length2 ≤ 10101 / 10000)
    (hd : |a.dot r - x * Real.sqrt (a.length2 * r.length2)| ≤ 1 / 10 ^ 12) :
    99485 / 100000 ≤ (Quat.comb w0 w1 a r).length := by
  refine Real.le_sqrt_of_sq_le ?_
  have e : (Quat.comb w0 w1 a r).length2 = w0 ^ 2 * a.length2 + w1 ^ 2 * r.length2 + 2 * (w0 * w1 * a.dot r) := by
    simp only [Quat.comb, Quat.length2, Quat.dot]; ring
  rw [e]
  have N0 : 9899 / 10000 ≤ Real.sqrt (a.length2 * r.length2) := by
    refine Real.le_sqrt_of_sq_le ?_
    have := mul_le_mul ha hr (by norm_num) (by linarith)
    norm_num at *; linarith
  have N1 : Real.sqrt (a.length2 * r.length2) ≤ 10101 / 10000 := by
    refine Real.sqrt_le_iff.2 ⟨by norm_num, ?_⟩
    have := mul_le_mul ha' hr' (by linarith) (by norm_num)
    norm_num at *; linarith
  generalize Real.sqrt (a.length2 * r.length2) = N at *
  generalize a.length2 = A at *
  generalize r.length2 = R at *
  generalize a.dot r = D at *
  have ww : 0 ≤ w0 * w1 := by positivity
  have ww4 : w0 * w1 ≤ 4 := by nlinarith
  obtain ⟨d1, _⟩ := abs_le.1 hd
  have m1 := mul_le_mul_of_nonneg_left ha (sq_nonneg w0)
  have m2 := mul_le_mul_of_nonneg_left hr (sq_nonneg w1)
  have m3 : w0 * w1 * (x * N) - 4 / 10 ^ 12 ≤ w0 * w1 * D := by
    have := mul_le_mul_of_nonneg_left (by linarith : x * N - 1 / 10 ^ 12 ≤ D) ww
    have : w0 * w1 * (1 / 10 ^ 12) ≤ 4 * (1 / 10 ^ 12) := mul_le_mul_of_nonneg_right ww4 (by norm_num)
    linarith
  have m4 : w0 * w1 * x * (9899 / 10000) - 5 / 10 ^ 12 ≤ w0 * w1 * (x * N) := by
    by_cases h : 0 ≤ x
    · have : w0 * w1 * x * (9899 / 10000) ≤ w0 * w1 * x * N := mul_le_mul_of_nonneg_left N0 (by positivity)
      norm_num; linarith
    · have hx' : -(1 / 10 ^ 12) * N ≤ x * N := mul_le_mul_of_nonneg_right hx (by linarith)
      have h3 : w0 * w1 * x ≤ 0 := mul_nonpos_of_nonneg_of_nonpos ww (by linarith)
      have h4 : -(11 / 10 ^ 13) ≤ x * N := by norm_num at *; linarith
      have h5 := mul_le_mul_of_nonneg_left h4 ww
      norm_num at *; linarith
  norm_num at *
  linarith

end Wide

/-! ### On the machine -/

namespace Extends

variable {K : Machine} {F : Rounding}

theorem omega (h : Extends K F) : 10 ^ 20 ≤ F.Ω := h.fine.Ω

theorem dot (h : Extends K F) {a b : Quat ℝ} (ha : a.Box 2) (hb : b.Box 2) :
    K.dot a.up b.up = .fin (F.dot a b) := by
  have hΩ := h.omega
  obtain ⟨ax, ay, az, aw⟩ := ha
  obtain ⟨bx, by_, bz, bw⟩ := hb
  have P : ∀ {x y : ℝ}, |x| ≤ 2 → |y| ≤ 2 → K.mul (.fin x) (.fin y) = .fin (F.rnd (x * y)) ∧ |F.rnd (x * y)| ≤ 102 / 100 * 4 :=
    fun hx hy => h.prod (by norm_num) hx hy (by norm_num) (by norm_num at *; linarith)
  unfold Machine.dot Quat.up Rounding.dot
  dsimp only
  rw [(P ax bx).1, (P ay by_).1, (P az bz).1, (P aw bw).1]
  exact (h.sum4 (C := 102 / 100 * 4) (by norm_num) (P ax bx).2 (P ay by_).2 (P az bz).2 (P aw bw).2 (by norm_num at *; linarith)).1

theorem mix (h : Extends K F) {s0 s1 d p r : ℝ} (h0 : |s0| ≤ 2) (h1 : |s1| ≤ 2) (hd : |d| ≤ 10 ^ 9) (hp : |p| ≤ 2) (hr : |r| ≤ 2) :
    K.mix (.fin s0) (.fin s1) (.fin d) (.fin p) (.fin r) = .fin (F.mix s0 s1 d p r) := by
  have hΩ := h.omega
  obtain ⟨e1, b1⟩ := h.prod (C := 4) (by norm_num) hp h0 (by norm_num) (by norm_num at *; linarith)
  obtain ⟨e2, b2⟩ := h.prod (C := 4) (by norm_num) hr h1 (by norm_num) (by norm_num at *; linarith)
  obtain ⟨e3, b3⟩ := h.add (C := 10) (by norm_num) ((Extends.abs_add b1 b2).trans (by norm_num)) (by norm_num at *; linarith)
  obtain ⟨e4, _⟩ := h.prod (C := 10 ^ 11) (by norm_num) b3 hd (by norm_num) (by norm_num at *; linarith)
  unfold Machine.mix Rounding.mix
  rw [e1, e2, e3, e4]

/-- The angle, for the side `r` of `q` that was chosen. -/
theorem angle (h : Extends K F) (hM : K.lib.Accurate) (hA : K.lib.AcosAll) {a q r : Quat ℝ} (ha : a.Loose) (hq : q.Loose)
    (hr : r.length2 = q.length2) (hd : -(7 / 10 ^ 16) ≤ a.dot r) :
    let y := F.dot a r / K.lib.sqrt (F.rnd (F.dot a a * F.dot q q))
    let α := F.rnd (K.lib.acosClamped (F.rnd y) * 2)
    let θ := F.rnd (α / 2)
    K.mul (K.acos (K.div (K.dot a.up r.up) (K.sqrt (K.mul (K.dot a.up a.up) (K.dot q.up q.up))))) (.fin 2) = .fin α ∧
    K.div (.fin α) (.fin 2) = .fin θ ∧
    (θ = 0 ∨ (1 / 10 ^ 8 ≤ θ ∧ θ ≤ 158 / 100 ∧ |Real.cos θ - a.dot r / Real.sqrt (a.length2 * q.length2)| ≤ 3 / 10 ^ 14)) ∧
    -(1 / 10 ^ 15) ≤ a.dot r / Real.sqrt (a.length2 * q.length2) ∧ 97 / 100 ≤ Real.sqrt (a.length2 * q.length2) := by
  intro y α θ
  have hΩ := h.omega
  have hr' : r.Loose := by unfold Quat.Loose; rw [hr]; exact hq
  have hdot : a.dot r ≤ Real.sqrt (a.length2 * q.length2) := by
    rw [← hr]
    refine Real.le_sqrt_of_sq_le ?_
    simp only [Quat.dot, Quat.length2]
    nlinarith [sq_nonneg (a.x * r.y - a.y * r.x), sq_nonneg (a.x * r.z - a.z * r.x), sq_nonneg (a.x * r.w - a.w * r.x),
      sq_nonneg (a.y * r.z - a.z * r.y), sq_nonneg (a.y * r.w - a.w * r.y), sq_nonneg (a.z * r.w - a.w * r.z)]
  obtain ⟨c1, c2, c3, c4, c5, c6, c7⟩ := Wide.cosine h.fine hM a q ha hq r hr hd hdot
  have hy : |y| ≤ F.Ω := by norm_num at *; linarith
  obtain ⟨t1, t2, t3⟩ := Wide.theta (M := K.lib) (y := y) h.fine hA hy c1 c5
  refine ⟨?_, ?_, t3, c5, c6⟩
  · rw [h.dot (a.box_length.mono (by linarith [ha.length])) (r.box_length.mono (by linarith [hr'.length])),
      h.dot (a.box_length.mono (by linarith [ha.length])) (a.box_length.mono (by linarith [ha.length])),
      h.dot (q.box_length.mono (by linarith [hq.length])) (q.box_length.mono (by linarith [hq.length])),
      (h.mul (C := 2) (by norm_num) c7 (by norm_num at *; linarith)).1]
    have e1 : K.sqrt (.fin (F.rnd (F.dot a a * F.dot q q))) = .fin (K.lib.sqrt (F.rnd (F.dot a a * F.dot q q))) := by
      unfold Machine.sqrt
      dsimp only
      rw [if_neg (by linarith)]
    have e2 : K.div (.fin (F.dot a r)) (.fin (K.lib.sqrt (F.rnd (F.dot a a * F.dot q q)))) = .fin (F.rnd y) := by
      unfold Machine.div
      dsimp only
      rw [if_neg (by intro e; rw [e] at c4; norm_num at c4)]
      exact h.fl _ hy
    rw [e1, e2]
    have e3 : K.acos (.fin (F.rnd y)) = .fin (K.lib.acosClamped (F.rnd y)) := rfl
    rw [e3, (h.mul (C := 4) (by norm_num) (by rw [abs_mul, abs_of_pos (by norm_num : (0 : ℝ) < 2)]; linarith) (by norm_num at *; linarith)).1]
  · unfold Machine.div
    dsimp only
    rw [if_neg (by norm_num)]
    refine h.fl _ ?_
    rw [abs_div, abs_of_pos (by norm_num : (0 : ℝ) < 2)]
    have : |α| ≤ 4 := t2
    norm_num at *; linarith

set_option maxHeartbeats 400000 in
/-- The mixed quaternion, for the side `r` of `q` that was chosen. -/
theorem mixed (h : Extends K F) (hM : K.lib.Accurate) {a q r : Quat ℝ} (ha : a.Loose) (hq : q.Loose) (hr : r.length2 = q.length2)
    {θ t t' : ℝ} (k0 : 1 / 10 ^ 8 ≤ θ) (k1 : θ ≤ 158 / 100)
    (k2 : |Real.cos θ - a.dot r / Real.sqrt (a.length2 * q.length2)| ≤ 3 / 10 ^ 14)
    (k3 : -(1 / 10 ^ 15) ≤ a.dot r / Real.sqrt (a.length2 * q.length2)) (k4 : 97 / 100 ≤ Real.sqrt (a.length2 * q.length2))
    (h0 : 0 ≤ t) (h1 : t ≤ 1) (ht : |t' - t| ≤ 2 / 10 ^ 15) :
    let d := F.rnd (1 / K.lib.sin θ)
    let s0 := K.lib.sin (F.rnd (F.rnd (1 - t') * θ))
    let s1 := K.lib.sin (F.rnd (t' * θ))
    let m : Quat ℝ := ⟨F.mix s0 s1 d a.x r.x, F.mix s0 s1 d a.y r.y, F.mix s0 s1 d a.z r.z, F.mix s0 s1 d a.w r.w⟩
    K.div (.fin 1) (K.sin (.fin θ)) = .fin d ∧ K.sin (K.mul (K.sub (.fin 1) (.fin t')) (.fin θ)) = .fin s0 ∧
    K.sin (K.mul (.fin t') (.fin θ)) = .fin s1 ∧
    (⟨K.mix (.fin s0) (.fin s1) (.fin d) (.fin a.x) (.fin r.x), K.mix (.fin s0) (.fin s1) (.fin d) (.fin a.y) (.fin r.y),
      K.mix (.fin s0) (.fin s1) (.fin d) (.fin a.z) (.fin r.z), K.mix (.fin s0) (.fin s1) (.fin d) (.fin a.w) (.fin r.w)⟩ : Quat Fl) = m.up ∧
    m.Firm := by
  intro d s0 s1 m
  have hΩ := h.omega
  have hr' : r.Loose := by unfold Quat.Loose; rw [hr]; exact hq
  have la := ha.length
  have lr := hr'.length
  have th0 : 0 < θ := lt_of_lt_of_le (by norm_num) k0
  obtain ⟨r1, r2, r3, r4⟩ := Wide.recip h.fine hM k0 k1
  obtain ⟨t1, t2⟩ := abs_le.1 ht
  have e1 := Rounding.err_le h.fine (x := 1 - t') (B := 101 / 100) (by rw [abs_le]; norm_num at *; constructor <;> linarith) (by norm_num)
  obtain ⟨u1, u2⟩ := abs_le.1 e1
  have hs1 := Wide.sine h.fine hM (t' := t') h0 h1 (ht.trans (by norm_num)) k0 k1
  have hs0 := Wide.sine h.fine hM (t := 1 - t) (t' := F.rnd (1 - t')) (by linarith) (by linarith)
    (by rw [abs_le]; norm_num at *; constructor <;> linarith) k0 k1
  obtain ⟨w1, n1, m1, b1, bd⟩ := Wide.weight (s := s1) (d := d) h0 h1 k0 k1 hs1.1 r1 r2
  obtain ⟨w0, n0, m0, b0, _⟩ := Wide.weight (t := 1 - t) (s := s0) (d := d) (by linarith) (by linarith) k0 k1 hs0.1 r1 r2
  have hi : 1 / θ ≤ 10 ^ 8 := by rw [div_le_iff₀ th0]; linarith
  have hd9 : |d| ≤ 10 ^ 9 := by norm_num at *; linarith
  have hs0' : |s0| ≤ 2 := by linarith
  have hs1' : |s1| ≤ 2 := by linarith
  have ba := a.box_length
  have br := r.box_length
  refine ⟨?_, ?_, ?_, ?_, ?_⟩
  · show K.div (.fin 1) (.fin (K.lib.sin θ)) = _
    unfold Machine.div
    dsimp only
    rw [if_neg r3.ne']
    exact h.fl _ (by norm_num at *; linarith)
  · rw [(h.sub (C := 2) (by norm_num) (by rw [abs_le]; norm_num at *; constructor <;> linarith) (by norm_num at *; linarith)).1,
      (h.mul (C := 2) (by norm_num) hs0.2 (by norm_num at *; linarith)).1]
    rfl
  · rw [(h.mul (C := 2) (by norm_num) hs1.2 (by norm_num at *; linarith)).1]
    rfl
  · rw [h.mix hs0' hs1' hd9 (by linarith [ba.1]) (by linarith [br.1]), h.mix hs0' hs1' hd9 (by linarith [ba.2.1]) (by linarith [br.2.1]),
      h.mix hs0' hs1' hd9 (by linarith [ba.2.2.1]) (by linarith [br.2.2.1]), h.mix hs0' hs1' hd9 (by linarith [ba.2.2.2]) (by linarith [br.2.2.2])]
    rfl
  · have mx : ∀ {p s : ℝ}, |p| ≤ a.length → |s| ≤ r.length →
        |F.mix s0 s1 d p s - (Real.sin ((1 - t) * θ) / Real.sin θ * p + Real.sin (t * θ) / Real.sin θ * s)| ≤ 23 / 10 ^ 15 := fun hp hs =>
      Rounding.mix_near h.fine k0 (by linarith) (by linarith) (by linarith) b0 b1 bd w0 w1
    have near : m.apart (Quat.comb (Real.sin ((1 - t) * θ) / Real.sin θ) (Real.sin (t * θ) / Real.sin θ) a r) ≤ 2 * (23 / 10 ^ 15) :=
      Quat.apart_le (mx ba.1 br.1) (mx ba.2.1 br.2.1) (mx ba.2.2.1 br.2.2.1) (mx ba.2.2.2 br.2.2.2)
    have hsp : 0 < Real.sin θ := lt_of_lt_of_le (by positivity) (Wide.sin_low th0.le k1)
    obtain ⟨c1, c2⟩ := abs_le.1 k2
    have hx : |a.dot r - Real.cos θ * Real.sqrt (a.length2 * r.length2)| ≤ 1 / 10 ^ 12 := by
        rw [hr]
        have N1 : Real.sqrt (a.length2 * q.length2) ≤ 11 / 10 := by
          refine Real.sqrt_le_iff.2 ⟨by norm_num, ?_⟩
          have q0 := Quat.length2_nonneg' q
          have := mul_le_mul (by linarith [(abs_le.1 ha).2] : a.length2 ≤ 10101 / 10000) (by linarith [(abs_le.1 hq).2] : q.length2 ≤ 10101 / 10000) q0 (by norm_num)
          norm_num at *; linarith
        have Np : 0 < Real.sqrt (a.length2 * q.length2) := by linarith
        have e : a.dot r - Real.cos θ * Real.sqrt (a.length2 * q.length2) =
            -((Real.cos θ - a.dot r / Real.sqrt (a.length2 * q.length2)) * Real.sqrt (a.length2 * q.length2)) := by
          field_simp; ring
        rw [e, abs_neg, abs_mul, abs_of_pos Np]
        exact (mul_le_mul k2 N1 Np.le (by norm_num)).trans (by norm_num)
    have hc : -(1 / 10 ^ 12) ≤ Real.cos θ := by norm_num at c1 k3 ⊢; linarith
    have lc := Wide.comb_length (a := a) (r := r) n0 n1 m0 m1 (Wide.weights_sum (t := t) hsp) hc
      (by linarith [(abs_le.1 ha).2]) (by linarith [(abs_le.1 hr').2]) hx
    have ld := Wide.comb_low (a := a) (r := r) n0 n1 m0 m1 (Wide.weights_sum (t := t) hsp) hc
      (by linarith [(abs_le.1 ha).1]) (by linarith [(abs_le.1 hr').1]) (by linarith [(abs_le.1 ha).2]) (by linarith [(abs_le.1 hr').2]) hx
    have la := Quat.length_le_apart m (Quat.comb (Real.sin ((1 - t) * θ) / Real.sin θ) (Real.sin (t * θ) / Real.sin θ) a r)
    have lb := Quat.length_le_apart (Quat.comb (Real.sin ((1 - t) * θ) / Real.sin θ) (Real.sin (t * θ) / Real.sin θ) a r) m
    rw [Quat.apart_comm] at lb
    have near' := near.trans (by norm_num : 2 * (23 / 10 ^ 15) ≤ (1 / 100000 : ℝ))
    exact ⟨by linarith, by linarith⟩

theorem slerp (h : Extends K F) (hM : K.lib.Accurate) (hA : K.lib.AcosAll) {a q : Quat ℝ} (ha : a.Loose) (hq : q.Loose)
    {t t' : ℝ} (h0 : 0 ≤ t) (h1 : t ≤ 1) (ht : |t' - t| ≤ 2 / 10 ^ 15) :
    K.slerp a.up q.up (.fin t') = (F.slerp K.lib a q t').up ∧ (F.slerp K.lib a q t').Firm := by
  have near := Rounding.dot_near h.fine a q (by linarith [ha.length]) (by linarith [hq.length])
  obtain ⟨n1, n2⟩ := abs_le.1 near
  have hdot : K.dot a.up q.up = .fin (F.dot a q) :=
    h.dot (a.box_length.mono (by linarith [ha.length])) (q.box_length.mono (by linarith [hq.length]))
  have hlt : (Fl.fin (F.dot a q)).lt (.fin 0) = decide (F.dot a q < 0) := rfl
  by_cases neg : F.dot a q < 0
  · have hr : q.neg.length2 = q.length2 := by simp only [Quat.neg, Quat.length2, Quat.dot]; ring
    have e0 : a.dot q.neg = -a.dot q := by simp only [Quat.neg, Quat.dot]; ring
    obtain ⟨a1, a2, a3, a4, a5⟩ := h.angle hM hA ha hq hr (by rw [e0]; linarith)
    have eang : K.angleShortestPath a.up q.up = .fin (F.angleShortestPath K.lib a q) := by
      unfold Machine.angleShortestPath Rounding.angleShortestPath
      simp only [hdot, hlt, neg, decide_true, if_true]
      exact a1
    have efa : F.angleShortestPath K.lib a q = F.rnd (K.lib.acosClamped (F.rnd (F.dot a q.neg / K.lib.sqrt (F.rnd (F.dot a a * F.dot q q)))) * 2) := by
      unfold Rounding.angleShortestPath
      simp only [neg, if_true]
    unfold Machine.slerp Rounding.slerp
    simp only [eang, efa, hdot, hlt, neg, decide_true, if_true]
    rw [a2]
    generalize F.rnd (F.rnd (K.lib.acosClamped (F.rnd (F.dot a q.neg / K.lib.sqrt (F.rnd (F.dot a a * F.dot q q)))) * 2) / 2) = θ at *
    have ene : (Fl.fin θ).ne0 = decide (θ ≠ 0) := rfl
    rw [ene]
    by_cases hz : θ = 0
    · simp only [hz, ne_eq, not_true_eq_false, decide_false, if_false, Bool.false_eq_true]
      exact ⟨trivial, ha.firm⟩
    · rcases a3 with a3 | ⟨k0, k1, k2⟩
      · exact absurd a3 hz
      · obtain ⟨m1, m2, m3, m4, m5⟩ := h.mixed hM ha hq hr k0 k1 k2 a4 a5 h0 h1 ht
        simp only [hz, ne_eq, not_false_eq_true, decide_true, if_true]
        rw [m1, m2, m3]
        exact ⟨m4, m5⟩
  · obtain ⟨a1, a2, a3, a4, a5⟩ := h.angle hM hA ha hq rfl (by linarith)
    have eang : K.angleShortestPath a.up q.up = .fin (F.angleShortestPath K.lib a q) := by
      unfold Machine.angleShortestPath Rounding.angleShortestPath
      simp only [hdot, hlt, neg, decide_false, if_false, Bool.false_eq_true]
      rw [← hdot]
      exact a1
    have efa : F.angleShortestPath K.lib a q = F.rnd (K.lib.acosClamped (F.rnd (F.dot a q / K.lib.sqrt (F.rnd (F.dot a a * F.dot q q)))) * 2) := by
      unfold Rounding.angleShortestPath
      simp only [neg, if_false]
    unfold Machine.slerp Rounding.slerp
    simp only [eang, efa, hdot, hlt, neg, decide_false, if_false, Bool.false_eq_true]
    rw [a2]
    generalize F.rnd (F.rnd (K.lib.acosClamped (F.rnd (F.dot a q / K.lib.sqrt (F.rnd (F.dot a a * F.dot q q)))) * 2) / 2) = θ at *
    have ene : (Fl.fin θ).ne0 = decide (θ ≠ 0) := rfl
    rw [ene]
    by_cases hz : θ = 0
    · simp only [hz, ne_eq, not_true_eq_false, decide_false, if_false, Bool.false_eq_true]
      exact ⟨trivial, ha.firm⟩
    · rcases a3 with a3 | ⟨k0, k1, k2⟩
      · exact absurd a3 hz
      · obtain ⟨m1, m2, m3, m4, m5⟩ := h.mixed hM ha hq rfl k0 k1 k2 a4 a5 h0 h1 ht
        simp only [hz, ne_eq, not_false_eq_true, decide_true, if_true]
        rw [m1, m2, m3]
        exact ⟨m4, m5⟩

end Extends

end Tf2
