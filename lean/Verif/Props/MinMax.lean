import Verif.Model.MinMax
import Mathlib.Tactic.FinCases
import Mathlib.Tactic.IntervalCases

/-!
# Smallest, largest, clamping, selecting and swapping bytes: C79
-/
namespace Tf2.MinMax

/-- Component `i` of a vector. -/
def comp {K : Type} (v : Vec3 K) : Fin 3 → K
  | 0 => v.x
  | 1 => v.y
  | 2 => v.z

section
variable {K : Type} [LinearOrder K]

/-- **C79.** `minAxis` and `maxAxis` name a smallest and a largest component; among equal ones `minAxis` names the last,
`maxAxis` the first. -/
theorem C79_axes (v : Vec3 K) :
    (∀ j, comp v (minAxis v) ≤ comp v j) ∧ (∀ j, minAxis v < j → comp v (minAxis v) < comp v j) ∧
    (∀ j, comp v j ≤ comp v (maxAxis v)) ∧ (∀ j, j < maxAxis v → comp v j < comp v (maxAxis v)) := by
  obtain ⟨x, y, z⟩ := v
  simp only [minAxis, maxAxis, Fin.forall_fin_succ, Fin.succ_zero_eq_one, Fin.succ_one_eq_two]
  by_cases h1 : x < y <;> by_cases h2 : x < z <;> by_cases h3 : y < z <;> simp [h1, h2, h3, comp] <;>
    (try simp only [not_lt] at *) <;> grind

/-- **C79.** Clamping to an interval gives the point of the interval nearest to the argument: an argument inside is left
alone, one outside is moved to the end on its side; both spellings agree. -/
theorem C79_clamp {a lb ub : K} (h : lb ≤ ub) :
    clamp a lb ub = clamped a lb ub ∧ lb ≤ clamp a lb ub ∧ clamp a lb ub ≤ ub ∧
    (lb ≤ a → a ≤ ub → clamp a lb ub = a) ∧ (∀ c, lb ≤ c → c ≤ ub → a ≤ c → clamp a lb ub ≤ c) ∧
    (∀ c, lb ≤ c → c ≤ ub → c ≤ a → c ≤ clamp a lb ub) ∧ clamp (clamp a lb ub) lb ub = clamp a lb ub ∧
    clamp a lb ub = max lb (min a ub) := by
  unfold clamp clamped
  refine ⟨rfl, ?_, ?_, ?_, ?_, ?_, ?_, ?_⟩ <;> grind

/-- **C79.** `tf2Min`, `tf2Max`, `tf2SetMin`, `tf2SetMax` are minimum and maximum. -/
theorem C79_min_max (a b : K) : tf2Min a b = min a b ∧ tf2Max a b = max a b ∧ setMin a b = min a b ∧ setMax a b = max a b := by
  unfold tf2Min tf2Max setMin setMax
  refine ⟨?_, ?_, ?_, ?_⟩ <;> grind

/-- **C79.** The box around any number of points: calling `setMin` (`setMax`) with each of them, starting from the first,
leaves the largest corner below (the smallest corner above) all of them. -/
theorem C79_box (v : Vec3 K) (pts : List (Vec3 K)) (i : Fin 3) :
    ((∀ p ∈ v :: pts, comp (pts.foldl vecSetMin v) i ≤ comp p i) ∧ (∃ p ∈ v :: pts, comp (pts.foldl vecSetMin v) i = comp p i)) ∧
    ((∀ p ∈ v :: pts, comp p i ≤ comp (pts.foldl vecSetMax v) i) ∧ (∃ p ∈ v :: pts, comp (pts.foldl vecSetMax v) i = comp p i)) := by
  have hmin : ∀ a b : Vec3 K, comp (vecSetMin a b) i = min (comp a i) (comp b i) := by
    intro a b
    fin_cases i <;> exact (C79_min_max _ _).2.2.1
  have hmax : ∀ a b : Vec3 K, comp (vecSetMax a b) i = max (comp a i) (comp b i) := by
    intro a b
    fin_cases i <;> exact (C79_min_max _ _).2.2.2
  constructor
  · induction pts generalizing v with
    | nil => simp
    | cons q r ih =>
      obtain ⟨h1, p, hp, h2⟩ := ih (vecSetMin v q)
      rw [List.foldl_cons]
      have hv := h1 _ (List.mem_cons_self ..)
      rw [hmin] at hv
      refine ⟨fun p hp => ?_, ?_⟩
      · rcases List.mem_cons.1 hp with rfl | hp
        · exact hv.trans (min_le_left _ _)
        · rcases List.mem_cons.1 hp with rfl | hp
          · exact hv.trans (min_le_right _ _)
          · exact h1 p (List.mem_cons_of_mem _ hp)
      · rcases List.mem_cons.1 hp with rfl | hp
        · rw [hmin] at h2
          rcases min_choice (comp v i) (comp q i) with e | e
          · exact ⟨v, List.mem_cons_self .., h2.trans e⟩
          · exact ⟨q, List.mem_cons_of_mem _ (List.mem_cons_self ..), h2.trans e⟩
        · exact ⟨p, List.mem_cons_of_mem _ (List.mem_cons_of_mem _ hp), h2⟩
  · induction pts generalizing v with
    | nil => simp
    | cons q r ih =>
      obtain ⟨h1, p, hp, h2⟩ := ih (vecSetMax v q)
      rw [List.foldl_cons]
      have hv := h1 _ (List.mem_cons_self ..)
      rw [hmax] at hv
      refine ⟨fun p hp => ?_, ?_⟩
      · rcases List.mem_cons.1 hp with rfl | hp
        · exact (le_max_left _ _).trans hv
        · rcases List.mem_cons.1 hp with rfl | hp
          · exact (le_max_right _ _).trans hv
          · exact h1 p (List.mem_cons_of_mem _ hp)
      · rcases List.mem_cons.1 hp with rfl | hp
        · rw [hmax] at h2
          rcases max_choice (comp v i) (comp q i) with e | e
          · exact ⟨v, List.mem_cons_self .., h2.trans e⟩
          · exact ⟨q, List.mem_cons_of_mem _ (List.mem_cons_self ..), h2.trans e⟩
        · exact ⟨p, List.mem_cons_of_mem _ (List.mem_cons_of_mem _ hp), h2⟩

/-- Where the search for the largest stands after the first `k` components. -/
def Good (l : K) (v : Fin 4 → K) (k : Nat) (s : Int × K) : Prop :=
  (s = (-1, l) ∧ ∀ j : Fin 4, j.val < k → v j ≤ l) ∨
  ∃ i : Fin 4, i.val < k ∧ s = ((i.val : Int), v i) ∧ l < v i ∧ (∀ j : Fin 4, j.val < k → v j ≤ v i) ∧ ∀ j, j < i → v j < v i

theorem Good.step {l : K} {v : Fin 4 → K} (k : Fin 4) {s : Int × K} (h : Good l v k.val s) :
    Good l v (k.val + 1) (if v k > s.2 then ((k.val : Int), v k) else s) := by
  rcases h with ⟨rfl, h⟩ | ⟨i, hi, rfl, h1, h2, h3⟩
  · by_cases hc : v k > l
    · rw [if_pos hc]
      refine .inr ⟨k, by omega, rfl, hc, fun j hj => ?_, fun j hj => (h j hj).trans_lt hc⟩
      rcases Nat.lt_succ_iff_lt_or_eq.1 hj with hj | hj
      · exact (h j hj).trans hc.le
      · rw [Fin.ext hj]
    · rw [if_neg hc]
      refine .inl ⟨rfl, fun j hj => ?_⟩
      rcases Nat.lt_succ_iff_lt_or_eq.1 hj with hj | hj
      · exact h j hj
      · rw [Fin.ext hj]; exact not_lt.1 hc
  · by_cases hc : v k > v i
    · rw [if_pos hc]
      refine .inr ⟨k, by omega, rfl, h1.trans hc, fun j hj => ?_, fun j hj => (h2 j hj).trans_lt hc⟩
      rcases Nat.lt_succ_iff_lt_or_eq.1 hj with hj | hj
      · exact (h2 j hj).trans hc.le
      · rw [Fin.ext hj]
    · rw [if_neg hc]
      refine .inr ⟨i, by omega, rfl, h1, fun j hj => ?_, h3⟩
      rcases Nat.lt_succ_iff_lt_or_eq.1 hj with hj | hj
      · exact h2 j hj
      · rw [Fin.ext hj]; exact not_lt.1 hc

theorem maxAxis4_spec (l : K) (v : Fin 4 → K) :
    (maxAxis4 l v = -1 ∧ ∀ j, v j ≤ l) ∨ ∃ i : Fin 4, maxAxis4 l v = i.val ∧ l < v i ∧ (∀ j, v j ≤ v i) ∧ ∀ j, j < i → v j < v i := by
  have h0 : Good l v 0 (-1, l) := .inl ⟨rfl, fun j hj => absurd hj (by omega)⟩
  have h := (((h0.step (k := 0)).step (k := 1)).step (k := 2)).step (k := 3)
  have e : maxAxis4 l v = (if v 3 > (if v 2 > (if v 1 > (if v 0 > l then ((0 : Int), v 0) else (-1, l)).2 then ((1 : Int), v 1) else
      (if v 0 > l then ((0 : Int), v 0) else (-1, l))).2 then ((2 : Int), v 2) else (if v 1 > (if v 0 > l then ((0 : Int), v 0) else
      (-1, l)).2 then ((1 : Int), v 1) else (if v 0 > l then ((0 : Int), v 0) else (-1, l)))).2 then ((3 : Int), v 3) else
      (if v 2 > (if v 1 > (if v 0 > l then ((0 : Int), v 0) else (-1, l)).2 then ((1 : Int), v 1) else
      (if v 0 > l then ((0 : Int), v 0) else (-1, l))).2 then ((2 : Int), v 2) else (if v 1 > (if v 0 > l then ((0 : Int), v 0) else
      (-1, l)).2 then ((1 : Int), v 1) else (if v 0 > l then ((0 : Int), v 0) else (-1, l))))).1 := by
    rw [apply_ite Prod.fst]; rfl
  rcases h with ⟨h1, h2⟩ | ⟨i, _, h1, h2, h3, h4⟩
  · exact .inl ⟨e.trans (congrArg Prod.fst h1), fun j => h2 j j.isLt⟩
  · exact .inr ⟨i, e.trans (congrArg Prod.fst h1), h2, fun j => h3 j j.isLt, h4⟩

/-- **C79.** `maxAxis4` and `minAxis4` name the first largest and the first smallest of four components, or -1 if no
component is above `-TF2_LARGE_FLOAT` (below `TF2_LARGE_FLOAT`). -/
theorem C79_axes4 (l : K) (v : Fin 4 → K) :
    ((maxAxis4 l v = -1 ∧ ∀ j, v j ≤ l) ∨ ∃ i : Fin 4, maxAxis4 l v = i.val ∧ l < v i ∧ (∀ j, v j ≤ v i) ∧ ∀ j, j < i → v j < v i) ∧
    ((minAxis4 l v = -1 ∧ ∀ j, l ≤ v j) ∨ ∃ i : Fin 4, minAxis4 l v = i.val ∧ v i < l ∧ (∀ j, v i ≤ v j) ∧ ∀ j, j < i → v i < v j) :=
  ⟨maxAxis4_spec l v, maxAxis4_spec (K := Kᵒᵈ) l v⟩

end

/-- **C79.** `furthestAxis` and `closestAxis` name the axes with the smallest and the largest absolute value; `closestAxis4`
always names an axis. -/
theorem C79_absolute (v : Vec3 ℝ) (w : Fin 4 → ℝ) :
    (∀ j, |comp v (furthestAxis v)| ≤ |comp v j|) ∧ (∀ j, |comp v j| ≤ |comp v (closestAxis v)|) ∧
    ∃ i : Fin 4, closestAxis4 w = i.val ∧ ∀ j, |w j| ≤ |w i| := by
  have hc : ∀ j, comp (absolute v) j = |comp v j| := by intro j; fin_cases j <;> rfl
  have h := C79_axes (absolute v)
  simp only [hc] at h
  refine ⟨h.1, h.2.2.1, ?_⟩
  rcases (C79_axes4 (-10 ^ 30 : ℝ) (fun i => |w i|)).1 with ⟨_, h2⟩ | ⟨i, h1, _, h3, _⟩
  · have := h2 0
    have h0 := abs_nonneg (w 0)
    norm_num at this
    linarith
  · exact ⟨i, h1, h3⟩

/-- The values of an example with equal components. -/
example : minAxis (⟨1, 1, 2⟩ : Vec3 Int) = 1 ∧ maxAxis (⟨2, 1, 2⟩ : Vec3 Int) = 0 ∧ clamp (7 : Int) 2 5 = 5 ∧
    maxAxis4 (-100 : Int) ![3, 8, 8, 1] = 1 := by decide

/-- **C79 (finding).** A vector has an axis with the largest value, but `maxAxis4` returns -1, no axis, if all components
are below `-TF2_LARGE_FLOAT`. -/
theorem C79_large_finding : maxAxis4 (-10 ^ 30 : Int) (fun _ => -2 * 10 ^ 30) = -1 := by decide

/-- **C79 (finding).** With the bounds exchanged the result is not between them. -/
theorem C79_exchanged_finding : clamp (0 : Int) 5 2 = 5 ∧ clamp (3 : Int) 5 2 = 5 ∧ clamp (9 : Int) 5 2 = 2 ∧
    clamp (5 : Int) 5 2 = 2 := by decide

/-! ### Selecting and swapping -/

/-- **C79.** `tf2Select` selects, except that it is undefined for one condition, `0x80000000`. -/
theorem C79_select (c a b : BitVec 32) :
    (c ≠ 0x80000000#32 → tf2Select c a b = some (if c ≠ 0 then a else b)) ∧ tf2Select 0x80000000#32 a b = none := by
  constructor
  · intro hc
    have hi : c ≠ BitVec.intMin 32 := by
      intro h; exact hc (h.trans (by decide))
    unfold tf2Select
    rw [if_neg hi]
    dsimp only
    by_cases h0 : c = 0
    · subst h0
      have : ((0 : BitVec 32) ||| -0).sshiftRight 31 = 0#32 := by decide
      rw [this, if_neg (by simp)]
      have e : ~~~(0#32) = BitVec.allOnes 32 := by decide
      rw [e, BitVec.and_allOnes, BitVec.and_zero, BitVec.zero_or]
    · have hm : (c ||| -c).msb = true := by
        rw [BitVec.msb_or, BitVec.msb_neg]
        have h1 : (c != 0#32) = true := by simpa using h0
        have h2 : (c != BitVec.intMin 32) = true := by simpa using hi
        rw [h1, h2]
        cases c.msb <;> rfl
      have : (c ||| -c).sshiftRight 31 = BitVec.allOnes 32 := by
        apply BitVec.eq_of_getLsbD_eq
        intro i hi
        rw [BitVec.getLsbD_sshiftRight, BitVec.getLsbD_allOnes]
        simp only [hi, decide_true]
        rcases Nat.eq_zero_or_pos i with rfl | hp
        · have := hm
          rw [BitVec.msb_eq_getLsbD_last] at this
          simpa using this
        · have : ¬ (31 + i < 32) := by omega
          simp [this, hm, hi]
      rw [this, if_pos h0]
      have e : ~~~(BitVec.allOnes 32) = 0#32 := by decide
      rw [e, BitVec.and_allOnes, BitVec.and_zero, BitVec.or_zero]
  · unfold tf2Select
    rw [if_pos (by decide)]

/-- Byte `i` of a word. -/
def byte {n : Nat} (v : BitVec n) (i : Nat) : BitVec 8 := v.extractLsb' (8 * i) 8

/-- **C79.** `tf2SwapEndian` reverses the order of the bytes, so doing it twice gives the value back. -/
theorem C79_swap (v : BitVec 32) (w : BitVec 16) :
    (∀ i < 4, byte (swapEndian v) i = byte v (3 - i)) ∧ swapEndian (swapEndian v) = v ∧
    (∀ i < 2, byte (swapEndian16 w) i = byte w (1 - i)) ∧ swapEndian16 (swapEndian16 w) = w := by
  have h32 : ∀ (v : BitVec 32) (i : Nat), i < 32 → (swapEndian v).getLsbD i = v.getLsbD (8 * (3 - i / 8) + i % 8) := by
    intro v i hi
    interval_cases i <;> simp [swapEndian]
  have h16 : ∀ (v : BitVec 16) (i : Nat), i < 16 → (swapEndian16 v).getLsbD i = v.getLsbD (8 * (1 - i / 8) + i % 8) := by
    intro v i hi
    interval_cases i <;> simp [swapEndian16]
  refine ⟨fun i hi => ?_, ?_, fun i hi => ?_, ?_⟩
  · apply BitVec.eq_of_getLsbD_eq
    intro j hj
    simp only [byte, BitVec.getLsbD_extractLsb', hj, decide_true, Bool.true_and]
    rw [h32 v _ (by omega)]
    congr 1
    omega
  · apply BitVec.eq_of_getLsbD_eq
    intro j hj
    rw [h32 _ j hj, h32 v _ (by omega)]
    congr 1
    omega
  · apply BitVec.eq_of_getLsbD_eq
    intro j hj
    simp only [byte, BitVec.getLsbD_extractLsb', hj, decide_true, Bool.true_and]
    rw [h16 w _ (by omega)]
    congr 1
    omega
  · apply BitVec.eq_of_getLsbD_eq
    intro j hj
    rw [h16 _ j hj, h16 w _ (by omega)]
    congr 1
    omega

example : swapEndian 0x12345678#32 = 0x78563412#32 ∧ swapEndian16 0x1234#16 = 0x3412#16 := by decide

end Tf2.MinMax
