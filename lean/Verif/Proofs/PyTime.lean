import Verif.Model.PyTime
import Verif.Spec.PyTime
import Mathlib.Tactic.Linarith
import Mathlib.Tactic.NormNum
import Mathlib.Tactic.Positivity
import Mathlib.Tactic.Ring
import Mathlib.Tactic.FieldSimp
import Mathlib.Data.Int.Log
import Mathlib.Tactic.LinearCombination
import Mathlib.Algebra.Order.Field.Power

/-!
# Helper lemmas: rounding, and the trip of a stamp through a double
-/
namespace Tf2.Py

/-! ### Representable numbers -/

theorem Rep.int (n : ℤ) (h : |n| ≤ 2 ^ 53) : Rep (n : ℚ) := ⟨n, 0, h, by simp⟩

theorem Rep.nat (n : ℕ) (h : n ≤ 2 ^ 53) : Rep (n : ℚ) := by
  have := Rep.int (n : ℤ) (by rw [abs_of_nonneg (by positivity)]; exact_mod_cast h)
  simpa using this

variable {fl : ℚ → ℚ}

theorem IsFl.exact (h : IsFl fl) {x : ℚ} (hx : Rep x) : fl x = x := by
  have := (h x).2 x hx
  simp only [sub_self, abs_zero] at this
  have := abs_nonpos_iff.1 this
  linarith

theorem IsFl.mono (h : IsFl fl) {x y : ℚ} (hxy : x ≤ y) : fl x ≤ fl y := by
  by_contra hlt
  rw [not_le] at hlt
  have h1 := (h x).2 (fl y) (h y).1
  have h2 := (h y).2 (fl x) (h x).1
  have key : x = y := by
    apply le_antisymm hxy
    have h1' := sq_le_sq.2 h1
    have h2' := sq_le_sq.2 h2
    nlinarith
  rw [key] at hlt
  exact lt_irrefl _ hlt

theorem rep_round {x : ℚ} {k : ℤ} (hx : |x| ≤ 2 ^ 53 * (2 : ℚ) ^ k) : Rep ((round (x / 2 ^ k) : ℤ) * (2 : ℚ) ^ k) := by
  have hk : (0 : ℚ) < 2 ^ k := zpow_pos (by norm_num) _
  have hb := abs_le.1 hx
  refine ⟨_, k, ?_, rfl⟩
  rw [abs_le]
  constructor
  · rw [round_eq, Int.le_floor]
    have : -(2 ^ 53 : ℚ) ≤ x / 2 ^ k := by rw [le_div_iff₀ hk]; linarith
    push_cast
    linarith
  · rw [round_eq, ← Int.lt_add_one_iff, Int.floor_lt]
    have : x / 2 ^ k ≤ (2 ^ 53 : ℚ) := by rw [div_le_iff₀ hk]; linarith
    push_cast
    linarith

theorem IsFl.err (h : IsFl fl) {x : ℚ} {k : ℤ} (hx : |x| ≤ 2 ^ 53 * (2 : ℚ) ^ k) : |fl x - x| ≤ (2 : ℚ) ^ k / 2 := by
  have hk : (0 : ℚ) < 2 ^ k := zpow_pos (by norm_num) _
  have hr := rep_round hx
  refine le_trans ((h x).2 _ hr) ?_
  have := abs_sub_round (x / 2 ^ k)
  have e : (round (x / 2 ^ k) : ℤ) * (2 : ℚ) ^ k - x = -((x / 2 ^ k - round (x / 2 ^ k)) * 2 ^ k) := by
    field_simp
    ring
  rw [e, abs_neg, abs_mul, abs_of_pos hk]
  nlinarith

/-- Large representable numbers are multiples of a power of two. -/
theorem Rep.multiple {x : ℚ} (hx : Rep x) {k : ℤ} (hk : 2 ^ 52 * (2 : ℚ) ^ k ≤ x) : ∃ n : ℤ, x = n * (2 : ℚ) ^ k := by
  obtain ⟨m, j, hm, rfl⟩ := hx
  rcases le_or_gt k j with hj | hj
  · refine ⟨m * 2 ^ (j - k).toNat, ?_⟩
    have : (2 : ℚ) ^ j = 2 ^ (j - k).toNat * 2 ^ k := by
      rw [← zpow_natCast, ← zpow_add₀ (by norm_num)]
      congr 1
      omega
    rw [this]
    push_cast
    ring
  · refine ⟨2 ^ 52, ?_⟩
    have hmq : (m : ℚ) ≤ 2 ^ 53 := by exact_mod_cast (abs_le.1 hm).2
    have hj2 : (2 : ℚ) ^ j * 2 ≤ 2 ^ k := by
      rw [← zpow_add_one₀ (by norm_num)]
      exact zpow_le_zpow_right₀ (by norm_num) (by omega)
    have hjp : (0 : ℚ) < 2 ^ j := zpow_pos (by norm_num) _
    apply le_antisymm _ (by push_cast; exact hk)
    push_cast
    nlinarith

/-- A double minus its integer part is a double. -/
theorem Rep.fract {x : ℚ} (hx : Rep x) (h0 : 0 ≤ x) : Rep (x - ⌊x⌋) := by
  obtain ⟨m, j, hm, rfl⟩ := hx
  rcases le_or_gt 0 j with hj | hj
  · refine ⟨0, 0, by norm_num, ?_⟩
    have : (m : ℚ) * 2 ^ j = ((m * 2 ^ j.toNat : ℤ) : ℚ) := by
      push_cast
      rw [← zpow_natCast, Int.toNat_of_nonneg hj]
    rw [this, Int.floor_intCast]
    simp
  · refine ⟨m - ⌊(m : ℚ) * 2 ^ j⌋ * 2 ^ (-j).toNat, j, ?_, ?_⟩
    · have hjp : (0 : ℚ) < 2 ^ j := zpow_pos (by norm_num) _
      have hone : (2 : ℚ) ^ (-j).toNat * 2 ^ j = 1 := by
        rw [← zpow_natCast, ← zpow_add₀ (by norm_num), Int.toNat_of_nonneg (by omega)]
        simp
      have hf0 : 0 ≤ ⌊(m : ℚ) * 2 ^ j⌋ := Int.floor_nonneg.2 h0
      have hm0 : 0 ≤ m := by
        by_contra hneg
        have : (m : ℚ) < 0 := by exact_mod_cast not_le.1 hneg
        nlinarith
      have hle : ((⌊(m : ℚ) * 2 ^ j⌋ * 2 ^ (-j).toNat : ℤ) : ℚ) ≤ m := by
        have hfl := Int.floor_le ((m : ℚ) * 2 ^ j)
        push_cast
        have hp : (0 : ℚ) < 2 ^ (-j).toNat := by positivity
        calc (⌊(m : ℚ) * 2 ^ j⌋ : ℚ) * 2 ^ (-j).toNat ≤ (m * 2 ^ j) * 2 ^ (-j).toNat := by nlinarith
          _ = m * (2 ^ (-j).toNat * 2 ^ j) := by ring
          _ = m := by rw [hone, mul_one]
      have hle' : ⌊(m : ℚ) * 2 ^ j⌋ * 2 ^ (-j).toNat ≤ m := by exact_mod_cast hle
      have hp : (0 : ℤ) ≤ ⌊(m : ℚ) * 2 ^ j⌋ * 2 ^ (-j).toNat := by positivity
      rw [abs_of_nonneg (by omega)]
      have := (abs_le.1 hm).2
      omega
    · have hone : (2 : ℚ) ^ (-j).toNat * 2 ^ j = 1 := by
        rw [← zpow_natCast, ← zpow_add₀ (by norm_num), Int.toNat_of_nonneg (by omega)]
        simp
      push_cast
      linear_combination (⌊(m : ℚ) * 2 ^ j⌋ : ℚ) * hone

/-! ### From a double to a stamp -/

/-- The nanoseconds `fromSec` finds. -/
def ns (fl : ℚ → ℚ) (T : ℚ) : ℤ := ⌊T⌋ * 1000000000 + round (fl ((T - ⌊T⌋) * 1000000000))

theorem fl_frac_bounds (h : IsFl fl) (T : ℚ) :
    0 ≤ fl ((T - ⌊T⌋) * 1000000000) ∧ fl ((T - ⌊T⌋) * 1000000000) ≤ 1000000000 := by
  have h0 := Int.floor_le T
  have h1 := Int.lt_floor_add_one T
  have e0 : fl 0 = 0 := h.exact (by simpa using Rep.int 0 (by norm_num))
  have e1 : fl 1000000000 = 1000000000 := h.exact (by simpa using Rep.int 1000000000 (by norm_num))
  constructor
  · rw [← e0]
    apply h.mono
    nlinarith
  · conv_rhs => rw [← e1]
    apply h.mono
    nlinarith

theorem round_frac_bounds (h : IsFl fl) (T : ℚ) :
    0 ≤ round (fl ((T - ⌊T⌋) * 1000000000)) ∧ round (fl ((T - ⌊T⌋) * 1000000000)) ≤ 1000000000 := by
  obtain ⟨h0, h1⟩ := fl_frac_bounds h T
  constructor
  · rw [round_eq, Int.le_floor]
    push_cast
    linarith
  · rw [round_eq, ← Int.lt_add_one_iff, Int.floor_lt]
    push_cast
    linarith

theorem ns_mono (h : IsFl fl) {T U : ℚ} (hTU : T ≤ U) : ns fl T ≤ ns fl U := by
  unfold ns
  rcases (Int.floor_mono hTU).lt_or_eq with hlt | heq
  · have := (round_frac_bounds h T).2
    have := (round_frac_bounds h U).1
    omega
  · rw [heq]
    have : fl ((T - ⌊U⌋) * 1000000000) ≤ fl ((U - ⌊U⌋) * 1000000000) := h.mono (by linarith)
    have : round (fl ((T - ⌊U⌋) * 1000000000)) ≤ round (fl ((U - ⌊U⌋) * 1000000000)) := by
      rw [round_eq, round_eq]
      exact Int.floor_mono (by linarith)
    omega

theorem ns_near (h : IsFl fl) (T : ℚ) : |(ns fl T : ℚ) - T * 1000000000| ≤ 1 / 2 + 1 / 2 ^ 24 := by
  have h0 := Int.floor_le T
  have h1 := Int.lt_floor_add_one T
  have h23 : (2 : ℚ) ^ (-23 : ℤ) = 1 / 2 ^ 23 := by norm_num
  have e := h.err (x := (T - ⌊T⌋) * 1000000000) (k := -23) (by
    rw [abs_of_nonneg (by nlinarith), h23]
    linarith)
  rw [h23] at e
  have r := abs_sub_round (fl ((T - ⌊T⌋) * 1000000000))
  unfold ns
  push_cast
  rw [abs_le] at *
  constructor <;> linarith [e.1, e.2, r.1, r.2]

theorem fromSec_big {T : ℚ} (hT : 2 ^ 32 ≤ T) : fromSec fl T = none := by
  have : (4294967295 : ℤ) < ⌊T⌋ := by
    have : (4294967296 : ℤ) ≤ ⌊T⌋ := Int.le_floor.2 (by norm_num at hT ⊢; exact hT)
    omega
  simp only [fromSec]
  rw [if_pos (Or.inr this)]

theorem fromSec_eq (h : IsFl fl) {T : ℚ} (hr : Rep T) (h0 : 0 ≤ T) (hT : T < 2 ^ 32) :
    fromSec fl T = some (ns fl T).toNat ∧ 0 ≤ ns fl T := by
  have hf0 : 0 ≤ ⌊T⌋ := Int.floor_nonneg.2 h0
  have hf1 : ⌊T⌋ ≤ 4294967295 := by
    have : ⌊T⌋ < 4294967296 := Int.floor_lt.2 (by norm_num at hT ⊢; exact hT)
    omega
  have ex : fl (T - ⌊T⌋) = T - ⌊T⌋ := h.exact (hr.fract h0)
  obtain ⟨r0, r1⟩ := round_frac_bounds h T
  have hlast : ⌊T⌋ = 4294967295 → round (fl ((T - ⌊T⌋) * 1000000000)) < 1000000000 := by
    intro hl
    have hge := Int.floor_le T
    rw [hl] at hge
    obtain ⟨n, hn⟩ := hr.multiple (k := -21) (by norm_num at hge ⊢; linarith)
    have hn1 : (n : ℚ) < 2 ^ 53 := by
      rw [hn] at hT
      norm_num at hT ⊢
      linarith
    have hn2 : n ≤ 2 ^ 53 - 1 := by
      have : n < 2 ^ 53 := by exact_mod_cast hn1
      omega
    have hn3 : (n : ℚ) ≤ 2 ^ 53 - 1 := by exact_mod_cast hn2
    have hd : (T - ⌊T⌋) * 1000000000 ≤ 999999900 := by
      rw [hl, hn]
      norm_num at hn3 ⊢
      linarith
    have e1 : fl 999999900 = 999999900 := h.exact (by simpa using Rep.int 999999900 (by norm_num))
    have hm := h.mono hd
    rw [e1] at hm
    rw [round_eq, Int.floor_lt]
    push_cast
    linarith
  have hns : 0 ≤ ns fl T := by
    unfold ns
    omega
  refine ⟨?_, hns⟩
  simp only [fromSec, ex]
  rw [if_neg (by omega)]
  congr 1
  unfold ns
  generalize hR : round (fl ((T - ⌊T⌋) * 1000000000)) = R at *
  generalize ⌊T⌋ = F at *
  have e1 : R.toNat % 2 ^ 32 = R.toNat := Nat.mod_eq_of_lt (by omega)
  rw [e1]
  rcases Nat.lt_or_ge R.toNat 1000000000 with hc | hc
  · rw [Nat.div_eq_of_lt hc, Nat.mod_eq_of_lt hc, Nat.add_zero, Nat.mod_eq_of_lt (by omega)]
    omega
  · have : R.toNat = 1000000000 := by omega
    rw [this]
    have hF : F < 4294967295 := by
      by_contra hcon
      have := hlast (by omega)
      omega
    rw [Nat.div_self (by norm_num), Nat.mod_self, Nat.mod_eq_of_lt (by omega)]
    omega

/-! ### From a stamp to a double -/

theorem toSec_eq (h : IsFl fl) {s n : ℕ} (hs : s < 2 ^ 32) (hn : n < 1000000000) :
    toSec fl s n = fl (s + fl (n / 1000000000)) := by
  rw [toSec, h.exact (Rep.nat s (by omega)), h.exact (Rep.nat n (by omega))]

theorem fl_nano (h : IsFl fl) {n : ℕ} (hn : n < 1000000000) :
    0 ≤ fl ((n : ℚ) / 1000000000) ∧ fl ((n : ℚ) / 1000000000) ≤ 1 ∧
    |fl ((n : ℚ) / 1000000000) - n / 1000000000| ≤ 1 / 2 ^ 54 := by
  have hq : (n : ℚ) ≤ 999999999 := by
    have : n ≤ 999999999 := by omega
    exact_mod_cast this
  have hq0 : (0 : ℚ) ≤ n := by positivity
  have e0 : fl 0 = 0 := h.exact (by simpa using Rep.int 0 (by norm_num))
  have e1 : fl 1 = 1 := h.exact (by simpa using Rep.int 1 (by norm_num))
  refine ⟨?_, ?_, ?_⟩
  · conv_lhs => rw [← e0]
    exact h.mono (by positivity)
  · conv_rhs => rw [← e1]
    exact h.mono (by rw [div_le_one (by norm_num)]; linarith)
  · have := h.err (x := (n : ℚ) / 1000000000) (k := -53) (by
      rw [abs_of_nonneg (by positivity), div_le_iff₀ (by norm_num)]
      norm_num
      linarith)
    norm_num at this ⊢
    exact this

theorem toSec_rep (h : IsFl fl) (s n : ℕ) : Rep (toSec fl s n) := (h _).1

theorem toSec_between (h : IsFl fl) {s n : ℕ} (hs : s < 2 ^ 32) (hn : n < 1000000000) :
    (s : ℚ) ≤ toSec fl s n ∧ toSec fl s n ≤ s + 1 := by
  obtain ⟨h0, h1, _⟩ := fl_nano h hn
  rw [toSec_eq h hs hn]
  have e0 : fl s = s := h.exact (Rep.nat s (by omega))
  have e1 : fl (s + 1) = s + 1 := h.exact (by simpa using Rep.nat (s + 1) (by omega))
  constructor
  · conv_lhs => rw [← e0]
    exact h.mono (by linarith)
  · conv_rhs => rw [← e1]
    exact h.mono (by linarith)

theorem toSec_near (h : IsFl fl) {s n : ℕ} (hs : s < 2 ^ 32) (hn : n < 1000000000) {k : ℤ}
    (hk : (s : ℚ) + 1 ≤ 2 ^ 53 * (2 : ℚ) ^ k) :
    |toSec fl s n - (s + n / 1000000000)| ≤ (2 : ℚ) ^ k / 2 + 1 / 2 ^ 54 := by
  obtain ⟨h0, h1, h2⟩ := fl_nano h hn
  rw [toSec_eq h hs hn]
  have hs0 : (0 : ℚ) ≤ s := by positivity
  have e := h.err (x := s + fl ((n : ℚ) / 1000000000)) (k := k) (by
    rw [abs_of_nonneg (by linarith)]
    linarith)
  rw [abs_le] at *
  constructor <;> linarith [e.1, e.2, h2.1, h2.2]

theorem toSec_mono (h : IsFl fl) {t u : ℕ} (htu : t ≤ u) (hu : u ≤ TIME_MAX) :
    toSec fl (t / 1000000000) (t % 1000000000) ≤ toSec fl (u / 1000000000) (u % 1000000000) := by
  have hu' : u ≤ 4294967295999999999 := hu
  have hd : t / 1000000000 ≤ u / 1000000000 := Nat.div_le_div_right htu
  rcases Nat.lt_or_eq_of_le hd with hlt | heq
  · have a := (toSec_between h (s := t / 1000000000) (n := t % 1000000000) (by omega) (by omega)).2
    have b := (toSec_between h (s := u / 1000000000) (n := u % 1000000000) (by omega) (by omega)).1
    have c : ((t / 1000000000 : ℕ) : ℚ) + 1 ≤ (u / 1000000000 : ℕ) := by exact_mod_cast hlt
    linarith
  · rw [toSec_eq h (by omega) (by omega), toSec_eq h (by omega) (by omega), heq]
    apply h.mono
    have : fl (((t % 1000000000 : ℕ) : ℚ) / 1000000000) ≤ fl (((u % 1000000000 : ℕ) : ℚ) / 1000000000) := by
      apply h.mono
      rw [div_le_div_iff_of_pos_right (by norm_num)]
      have : t % 1000000000 ≤ u % 1000000000 := by omega
      exact_mod_cast this
    linarith

theorem split_time (t : ℕ) :
    ((t / 1000000000 : ℕ) : ℚ) + ((t % 1000000000 : ℕ) : ℚ) / 1000000000 = (t : ℚ) / 1000000000 := by
  have : (t : ℚ) = ((1000000000 * (t / 1000000000) + t % 1000000000 : ℕ) : ℚ) := by rw [Nat.div_add_mod]
  rw [this]
  push_cast
  field_simp

/-! ### The trip -/

/-- The seconds, as a double, of a stamp. -/
def secsOf (fl : ℚ → ℚ) (t : ℕ) : ℚ := toSec fl (t / 1000000000) (t % 1000000000)

theorem secsOf_near (h : IsFl fl) {t K : ℕ} (ht : t < 2 ^ K * 1000000000) (hK : K ≤ 32) :
    |secsOf fl t - t / 1000000000| ≤ (2 : ℚ) ^ ((K : ℤ) - 54) + 1 / 2 ^ 54 := by
  have hp : 2 ^ K ≤ 2 ^ 32 := Nat.pow_le_pow_right (by norm_num) hK
  have hd : t / 1000000000 < 2 ^ K := (Nat.div_lt_iff_lt_mul (by norm_num)).2 ht
  have e := toSec_near h (s := t / 1000000000) (n := t % 1000000000) (by omega) (by omega) (k := (K : ℤ) - 53) (by
    have : ((t / 1000000000 : ℕ) : ℚ) + 1 ≤ 2 ^ K := by exact_mod_cast hd
    refine le_trans this (le_of_eq ?_)
    rw [zpow_sub₀ (by norm_num), zpow_natCast]
    have : (2 : ℚ) ^ (53 : ℤ) = 2 ^ 53 := by norm_cast
    rw [this]
    field_simp)
  rw [split_time] at e
  refine le_trans e (le_of_eq ?_)
  have : (2 : ℚ) ^ ((K : ℤ) - 54) = 2 ^ ((K : ℤ) - 53) / 2 := by
    have : (K : ℤ) - 54 = (K : ℤ) - 53 - 1 := by ring
    rw [this, zpow_sub_one₀ (by norm_num)]
    ring
  rw [this]

theorem secsOf_nonneg (h : IsFl fl) {t : ℕ} (ht : t ≤ TIME_MAX) : 0 ≤ secsOf fl t := by
  have ht' : t ≤ 4294967295999999999 := ht
  have := (toSec_between h (s := t / 1000000000) (n := t % 1000000000) (by omega) (by omega)).1
  have h0 : (0 : ℚ) ≤ ((t / 1000000000 : ℕ) : ℚ) := by positivity
  exact le_trans h0 this

theorem timeIn_eq (h : IsFl fl) {t : ℕ} (ht : t ≤ TIME_MAX) (hT : secsOf fl t < 2 ^ 32) :
    timeIn fl t = some (ns fl (secsOf fl t)).toNat ∧ 0 ≤ ns fl (secsOf fl t) :=
  fromSec_eq h (toSec_rep h _ _) (secsOf_nonneg h ht) hT

theorem trip_near (h : IsFl fl) {t K : ℕ} (ht : t < 2 ^ K * 1000000000) (hK : K ≤ 32) :
    |(ns fl (secsOf fl t) : ℚ) - t| ≤
      ((2 : ℚ) ^ ((K : ℤ) - 54) + 1 / 2 ^ 54) * 1000000000 + (1 / 2 + 1 / 2 ^ 24) := by
  have a := secsOf_near h ht hK
  have b := ns_near h (secsOf fl t)
  have c : |secsOf fl t * 1000000000 - t| ≤ ((2 : ℚ) ^ ((K : ℤ) - 54) + 1 / 2 ^ 54) * 1000000000 := by
    have : secsOf fl t * 1000000000 - t = (secsOf fl t - t / 1000000000) * 1000000000 := by ring
    rw [this, abs_mul, abs_of_pos (by norm_num : (0 : ℚ) < 1000000000)]
    exact mul_le_mul_of_nonneg_right a (by norm_num)
  calc |(ns fl (secsOf fl t) : ℚ) - t|
      = |((ns fl (secsOf fl t) : ℚ) - secsOf fl t * 1000000000) + (secsOf fl t * 1000000000 - t)| := by ring_nf
    _ ≤ _ := by
      refine le_trans (abs_add_le _ _) ?_
      linarith

theorem fromSec_le {T : ℚ} {r : ℕ} (h : fromSec fl T = some r) : r ≤ TIME_MAX := by
  simp only [fromSec] at h
  split at h
  · exact absurd h (by simp)
  · simp only [Option.some.injEq] at h
    have hs : ∀ a : ℕ, a % 2 ^ 32 < 2 ^ 32 := fun a => Nat.mod_lt _ (by norm_num)
    have hn : ∀ a : ℕ, a % 1000000000 < 1000000000 := fun a => Nat.mod_lt _ (by norm_num)
    show r ≤ 4294967295999999999
    generalize ha : (round (fl (fl (T - ⌊T⌋) * 1000000000))).toNat % 2 ^ 32 = a at h
    have h1 := hs (⌊T⌋.toNat + a / 1000000000)
    have h2 := hn a
    omega

/-- Every large double is determined by its neighbourhood. -/
theorem same_of_close {T U : ℚ} (hT : Rep T) (hU : Rep U) {k : ℤ} (h1 : 2 ^ 52 * (2 : ℚ) ^ k ≤ T)
    (h2 : 2 ^ 52 * (2 : ℚ) ^ k ≤ U) (h : |T - U| < (2 : ℚ) ^ k) : T = U := by
  obtain ⟨a, rfl⟩ := hT.multiple h1
  obtain ⟨b, rfl⟩ := hU.multiple h2
  have hk : (0 : ℚ) < 2 ^ k := zpow_pos (by norm_num) _
  have : (a : ℚ) * 2 ^ k - b * 2 ^ k = ((a - b : ℤ) : ℚ) * 2 ^ k := by push_cast; ring
  rw [this, abs_mul, abs_of_pos hk] at h
  have h' : |((a - b : ℤ) : ℚ)| < 1 := by
    by_contra hc
    rw [not_lt] at hc
    nlinarith
  have h'' : |a - b| < 1 := by exact_mod_cast h'
  have : a = b := by
    have := abs_lt.1 h''
    omega
  rw [this]

theorem secsOf_rep (h : IsFl fl) (t : ℕ) : Rep (secsOf fl t) := (h _).1

/-- The double of a stamp is nearest to its seconds, up to the rounding of the nanoseconds. -/
theorem secsOf_closest (h : IsFl fl) {t : ℕ} (ht : t ≤ TIME_MAX) {U : ℚ} (hU : Rep U) :
    |secsOf fl t - U| ≤ 2 * (|U - t / 1000000000| + 1 / 2 ^ 54) := by
  have ht' : t ≤ 4294967295999999999 := ht
  have e := toSec_eq h (s := t / 1000000000) (n := t % 1000000000) (by omega) (by omega)
  have n := (fl_nano h (n := t % 1000000000) (by omega)).2.2
  have sp := split_time t
  unfold secsOf
  rw [e]
  have c := (h (((t / 1000000000 : ℕ) : ℚ) + fl (((t % 1000000000 : ℕ) : ℚ) / 1000000000))).2 U hU
  generalize fl (((t / 1000000000 : ℕ) : ℚ) + fl (((t % 1000000000 : ℕ) : ℚ) / 1000000000)) = T at *
  generalize fl (((t % 1000000000 : ℕ) : ℚ) / 1000000000) = q at *
  have d : |U - (((t / 1000000000 : ℕ) : ℚ) + q)| ≤ |U - t / 1000000000| + 1 / 2 ^ 54 := by
    have : U - (((t / 1000000000 : ℕ) : ℚ) + q) =
        (U - t / 1000000000) + -(q - ((t % 1000000000 : ℕ) : ℚ) / 1000000000) := by
      rw [← sp]
      ring
    rw [this]
    refine le_trans (abs_add_le _ _) ?_
    rw [abs_neg]
    linarith
  have : T - U = (T - (((t / 1000000000 : ℕ) : ℚ) + q)) + -(U - (((t / 1000000000 : ℕ) : ℚ) + q)) := by ring
  rw [this]
  refine le_trans (abs_add_le _ _) ?_
  rw [abs_neg]
  linarith

theorem secsOf_ge (h : IsFl fl) {t s : ℕ} (ht : t ≤ TIME_MAX) (hs : s * 1000000000 ≤ t) : (s : ℚ) ≤ secsOf fl t := by
  have ht' : t ≤ 4294967295999999999 := ht
  have := (toSec_between h (s := t / 1000000000) (n := t % 1000000000) (by omega) (by omega)).1
  have h2 : (s : ℚ) ≤ ((t / 1000000000 : ℕ) : ℚ) := by
    have : s ≤ t / 1000000000 := (Nat.le_div_iff_mul_le (by norm_num)).2 hs
    exact_mod_cast this
  exact le_trans h2 this

theorem secsOf_overflow (h : IsFl fl) {t : ℕ} (ht : t ≤ TIME_MAX) (hb : TIME_MAX - 237 ≤ t) : 2 ^ 32 ≤ secsOf fl t := by
  have ht' : t ≤ 4294967295999999999 := ht
  have hb' : 4294967295999999999 - 237 ≤ t := hb
  have e21 : (2 : ℚ) ^ (-21 : ℤ) = 1 / 2 ^ 21 := by norm_num
  have hr : Rep (2 ^ 32 : ℚ) := by
    have := Rep.nat (2 ^ 32) (by norm_num)
    norm_num at this ⊢
    exact this
  have hge := secsOf_ge h ht (s := 2 ^ 31) (by omega)
  have c := secsOf_closest h ht hr
  have hx : |(2 ^ 32 : ℚ) - t / 1000000000| ≤ 238 / 1000000000 := by
    have h1 : (t : ℚ) ≤ 4294967295999999999 := by exact_mod_cast ht'
    have h2 : (4294967295999999762 : ℚ) ≤ t := by
      have : 4294967295999999762 ≤ t := by omega
      exact_mod_cast this
    rw [abs_le]
    constructor <;> linarith
  have := same_of_close (secsOf_rep h t) hr (k := -21) (by
    rw [e21]
    push_cast at hge
    linarith) (by rw [e21]; norm_num) (by
    rw [e21]
    refine lt_of_le_of_lt c ?_
    norm_num
    norm_num at hx
    linarith)
  rw [this]

theorem secsOf_fits (h : IsFl fl) {t : ℕ} (hb : t < TIME_MAX - 237) : secsOf fl t < 2 ^ 32 := by
  have hb' : t < 4294967295999999999 - 237 := hb
  have c := abs_le.1 (secsOf_near h (t := t) (K := 32) (by omega) le_rfl)
  have e : (2 : ℚ) ^ (((32 : ℕ) : ℤ) - 54) = 1 / 2 ^ 22 := by norm_num
  rw [e] at c
  have h2 : (t : ℚ) ≤ 4294967295999999761 := by
    have : t ≤ 4294967295999999761 := by omega
    exact_mod_cast this
  have := c.2
  norm_num at this ⊢
  linarith

/-! ### A correct rounding exists -/

/-- Rounding to a 53-bit significand. -/
def nearest (x : ℚ) : ℚ :=
  if x = 0 then 0 else round (x / 2 ^ (Int.log 2 |x| - 52)) * (2 : ℚ) ^ (Int.log 2 |x| - 52)

theorem nearest_isFl : IsFl nearest := by
  intro x
  by_cases hx : x = 0
  · subst hx
    simp only [nearest, if_true, sub_self, abs_zero]
    exact ⟨⟨0, 0, by norm_num, by simp⟩, fun _ _ => abs_nonneg _⟩
  · have hpos : 0 < |x| := abs_pos.2 hx
    have hlo := Int.zpow_log_le_self (R := ℚ) (b := 2) (by norm_num) hpos
    have hhi := Int.lt_zpow_succ_log_self (R := ℚ) (b := 2) (by norm_num) |x|
    simp only [nearest, if_neg hx]
    generalize Int.log 2 |x| = e at *
    have hk : (0 : ℚ) < 2 ^ (e - 52) := zpow_pos (by norm_num) _
    have he : (2 : ℚ) ^ e = 2 ^ 52 * 2 ^ (e - 52) := by
      rw [← zpow_natCast, ← zpow_add₀ (by norm_num)]
      congr 1
      push_cast
      ring
    have he1 : (2 : ℚ) ^ (e + 1) = 2 ^ 53 * 2 ^ (e - 52) := by
      rw [zpow_add_one₀ (by norm_num), he]
      ring
    push_cast at hlo hhi
    rw [he1] at hhi
    rw [he] at hlo
    refine ⟨rep_round hhi.le, fun y hy => ?_⟩
    have grid : ∀ n : ℤ, |(round (x / 2 ^ (e - 52)) : ℤ) * (2 : ℚ) ^ (e - 52) - x| ≤ |n * (2 : ℚ) ^ (e - 52) - x| := by
      intro n
      have := round_le (x / 2 ^ (e - 52)) n
      have e1 : ∀ m : ℤ, |m * (2 : ℚ) ^ (e - 52) - x| = |x / 2 ^ (e - 52) - m| * 2 ^ (e - 52) := by
        intro m
        rw [abs_sub_comm]
        conv_rhs => rw [← abs_of_pos hk, abs_of_pos hk]
        rw [show x - m * (2 : ℚ) ^ (e - 52) = (x / 2 ^ (e - 52) - m) * 2 ^ (e - 52) by field_simp, abs_mul,
          abs_of_pos hk]
      rw [e1, e1]
      exact mul_le_mul_of_nonneg_right this hk.le
    rcases le_or_gt |y| (2 ^ 52 * 2 ^ (e - 52)) with hs | hl
    · -- the power of two below `|x|` is nearer than `y`
      have hb : |(|x| : ℚ) - 2 ^ 52 * 2 ^ (e - 52)| ≤ |y - x| := by
        rw [abs_of_nonneg (by linarith), abs_sub_comm]
        have := abs_sub_abs_le_abs_sub x y
        linarith
      rcases le_or_gt 0 x with h0 | h0
      · refine le_trans (grid (2 ^ 52)) (le_trans (le_of_eq ?_) hb)
        rw [abs_of_nonneg h0, abs_sub_comm]
        push_cast
        rfl
      · refine le_trans (grid (-2 ^ 52)) (le_trans (le_of_eq ?_) hb)
        rw [abs_of_neg h0]
        push_cast
        congr 1
        ring
    · have hn : ∃ n : ℤ, y = n * (2 : ℚ) ^ (e - 52) := by
        rcases le_or_gt 0 y with h0 | h0
        · rw [abs_of_nonneg h0] at hl
          exact hy.multiple hl.le
        · rw [abs_of_neg h0] at hl
          have hy' : Rep (-y) := by
            obtain ⟨m, k, hm, rfl⟩ := hy
            exact ⟨-m, k, by rwa [abs_neg], by push_cast; ring⟩
          obtain ⟨n, hn⟩ := hy'.multiple hl.le
          exact ⟨-n, by push_cast; linarith⟩
      obtain ⟨n, rfl⟩ := hn
      exact grid n

end Tf2.Py
