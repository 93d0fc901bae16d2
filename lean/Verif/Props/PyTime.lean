import Verif.Proofs.PyTime
import Verif.Spec.PyBuffer
import Verif.Props.Origin
import Verif.Props.Listing

/-!
# C67: stamps of the Python buffer

Every theorem holds for every correct rounding to doubles (`IsFl`), whatever it does with ties; `nearest` is one.
-/
namespace Tf2.Py

variable {X : Type} {fl : ℚ → ℚ}

/-- There is a correct rounding. -/
theorem exists_rounding : ∃ fl, IsFl fl := ⟨nearest, nearest_isFl⟩

/-- **C67.** A stamp given by Python arrives in the buffer changed by at most 238 ns; by at most 119 ns before
January 2038 (`2^31` s); unchanged if it is less than `2^23` s (97 days). The last 238 representable stamps end the
process; no others do. -/
theorem C67_error (h : IsFl fl) {t : Time} (ht : t ≤ TIME_MAX) :
    (timeIn fl t = none ↔ TIME_MAX - 237 ≤ t) ∧
    (∀ t', timeIn fl t = some t' → t' ≤ t + 238 ∧ t ≤ t' + 238) ∧
    (t < 2 ^ 31 * 1000000000 → ∀ t', timeIn fl t = some t' → t' ≤ t + 119 ∧ t ≤ t' + 119) ∧
    (t < 2 ^ 23 * 1000000000 → timeIn fl t = some t) := by
  have ht' : t ≤ 4294967295999999999 := ht
  have hM : TIME_MAX = 4294967295999999999 := rfl
  -- the deviation, from a bound on the stamp
  have dev : ∀ K B : ℕ, K ≤ 32 → t < 2 ^ K * 1000000000 →
      ((2 : ℚ) ^ ((K : ℤ) - 54) + 1 / 2 ^ 54) * 1000000000 + (1 / 2 + 1 / 2 ^ 24) < (B + 1 : ℕ) →
      ∀ t', timeIn fl t = some t' → t' ≤ t + B ∧ t ≤ t' + B := by
    intro K B hK hlt hB t' hs
    have hT : secsOf fl t < 2 ^ 32 := by
      by_contra hc
      have : timeIn fl t = none := fromSec_big (not_lt.1 hc)
      rw [this] at hs
      cases hs
    obtain ⟨e, h0⟩ := timeIn_eq h ht hT
    rw [e] at hs
    injection hs with hs
    have near := lt_of_le_of_lt (trip_near h hlt hK) hB
    have hi : |ns fl (secsOf fl t) - (t : ℤ)| < (B + 1 : ℕ) := by exact_mod_cast near
    rw [abs_lt] at hi
    push_cast at hi
    omega
  refine ⟨⟨fun hn => ?_, fun hb => fromSec_big (secsOf_overflow h ht hb)⟩, ?_, ?_, ?_⟩
  · by_contra hc
    rw [(timeIn_eq h ht (secsOf_fits h (not_le.1 hc))).1] at hn
    cases hn
  · exact dev 32 238 le_rfl (by omega) (by norm_num)
  · intro hlt
    exact dev 31 119 (by norm_num) hlt (by norm_num)
  · intro hlt
    have hT : secsOf fl t < 2 ^ 32 := secsOf_fits h (by omega)
    obtain ⟨e, _⟩ := timeIn_eq h ht hT
    have := dev 23 0 (by norm_num) hlt (by norm_num) _ e
    rw [e]
    congr 1
    omega

/-- **C67.** Taking stamps through doubles never reverses their order. -/
theorem C67_monotone (h : IsFl fl) {t u : Time} (htu : t ≤ u) (hu : u ≤ TIME_MAX) {t' u' : Time}
    (h1 : timeIn fl t = some t') (h2 : timeIn fl u = some u') : t' ≤ u' := by
  have fits : ∀ {v v' : Time}, timeIn fl v = some v' → secsOf fl v < 2 ^ 32 := by
    intro v v' hv
    by_contra hc
    have : timeIn fl v = none := fromSec_big (not_lt.1 hc)
    rw [this] at hv
    cases hv
  obtain ⟨e1, n1⟩ := timeIn_eq h (Nat.le_trans htu hu) (fits h1)
  obtain ⟨e2, n2⟩ := timeIn_eq h hu (fits h2)
  rw [e1] at h1
  rw [e2] at h2
  injection h1 with h1
  injection h2 with h2
  have := ns_mono h (toSec_mono h htu hu)
  have : ns fl (secsOf fl t) ≤ ns fl (secsOf fl u) := this
  omega

/-- **C67.** A stamp that has been through a double once is not changed by a second trip: a stamp read from the
buffer, used again, means the same moment. -/
theorem C67_idempotent (h : IsFl fl) {t t' : Time} (ht : t ≤ TIME_MAX) (h1 : timeIn fl t = some t') :
    timeIn fl t' = some t' := by
  have ht' : t' ≤ TIME_MAX := fromSec_le h1
  by_cases hlt : t < 2 ^ 23 * 1000000000
  · have := (C67_error h ht).2.2.2 hlt
    rw [this] at h1
    injection h1 with h1
    rw [← h1]
    exact this
  · have hT : secsOf fl t < 2 ^ 32 := by
      by_contra hc
      have : timeIn fl t = none := fromSec_big (not_lt.1 hc)
      rw [this] at h1
      cases h1
    obtain ⟨e, hn0⟩ := timeIn_eq h ht hT
    have hge : ((2 ^ 23 : ℕ) : ℚ) ≤ secsOf fl t := secsOf_ge h ht (by omega)
    have hfl : (2 ^ 23 : ℤ) ≤ ⌊secsOf fl t⌋ := Int.le_floor.2 (by push_cast at hge ⊢; exact hge)
    have hns : 2 ^ 23 * 1000000000 ≤ ns fl (secsOf fl t) := by
      have := (round_frac_bounds h (secsOf fl t)).1
      unfold ns
      omega
    rw [e] at h1
    injection h1 with h1
    have hq : (t' : ℚ) = (ns fl (secsOf fl t) : ℚ) := by
      have : (t' : ℤ) = ns fl (secsOf fl t) := by omega
      exact_mod_cast this
    have hge' : ((2 ^ 23 : ℕ) : ℚ) ≤ secsOf fl t' := secsOf_ge h ht' (by omega)
    have e29 : (2 : ℚ) ^ (-29 : ℤ) = 1 / 2 ^ 29 := by norm_num
    have near := ns_near h (secsOf fl t)
    have c := secsOf_closest h ht' (secsOf_rep h t)
    have same : secsOf fl t' = secsOf fl t := by
      apply same_of_close (secsOf_rep h t') (secsOf_rep h t) (k := -29)
      · rw [e29]
        push_cast at hge'
        linarith
      · rw [e29]
        push_cast at hge
        linarith
      · rw [e29]
        refine lt_of_le_of_lt c ?_
        have d : |secsOf fl t - t' / 1000000000| ≤ (1 / 2 + 1 / 2 ^ 24) / 1000000000 := by
          rw [hq]
          have : secsOf fl t - (ns fl (secsOf fl t) : ℚ) / 1000000000 =
              -((ns fl (secsOf fl t) : ℚ) - secsOf fl t * 1000000000) / 1000000000 := by ring
          rw [this, abs_div, abs_neg, abs_of_pos (by norm_num : (0 : ℚ) < 1000000000)]
          exact div_le_div_of_nonneg_right near (by norm_num)
        norm_num at d ⊢
        linarith
    have e2 : timeIn fl t' = timeIn fl t := by
      show fromSec fl (secsOf fl t') = fromSec fl (secsOf fl t)
      rw [same]
    rw [e2, e, h1]

/-- **C67.** Time zero, which asks for the latest data, is what arrives exactly when zero was given. -/
theorem C67_zero (h : IsFl fl) {t : Time} (ht : t ≤ TIME_MAX) : timeIn fl t = some 0 ↔ t = 0 := by
  constructor
  · intro h0
    by_cases hlt : t < 2 ^ 23 * 1000000000
    · rw [(C67_error h ht).2.2.2 hlt] at h0
      injection h0
    · have := (C67_error h ht).2.1 0 h0
      omega
  · rintro rfl
    exact (C67_error h ht).2.2.2 (by norm_num)

/-- **C67.** A time that comes out is the buffer's, exactly, until January 2038; from then on nothing comes out. -/
theorem C67_out (t : Time) (ht : t ≤ TIME_MAX) :
    (t < 2 ^ 31 * 1000000000 → timeOut t = some t) ∧ (2 ^ 31 * 1000000000 ≤ t → timeOut t = none) := by
  have ht' : t ≤ 4294967295999999999 := ht
  unfold timeOut
  constructor
  · intro hlt
    have : t / 1000000000 < 2 ^ 31 := by omega
    dsimp only
    rw [if_pos this, if_neg (by omega)]
    congr 1
    have := Nat.div_add_mod t 1000000000
    omega
  · intro hge
    have : ¬ t / 1000000000 < 2 ^ 31 := by omega
    dsimp only
    rw [if_neg this, if_pos (by push_cast; omega)]

/-- Whole seconds and the 119 ns after them, from `2^30` s (January 2004) on, are the same stamp. -/
theorem timeIn_flat (h : IsFl fl) {s d : ℕ} (h0 : 2 ^ 30 ≤ s) (h1 : s < 2 ^ 32) (hd : d ≤ 119) :
    timeIn fl (s * 1000000000 + d) = some (s * 1000000000) := by
  have ht : s * 1000000000 + d ≤ TIME_MAX := by
    show _ ≤ 4294967295999999999
    omega
  have hr : Rep (s : ℚ) := Rep.nat s (by omega)
  have hge := secsOf_ge h ht (s := 2 ^ 30) (by omega)
  have e22 : (2 : ℚ) ^ (-22 : ℤ) = 1 / 2 ^ 22 := by norm_num
  have c := secsOf_closest h ht hr
  have hs : ((2 ^ 30 : ℕ) : ℚ) ≤ s := by exact_mod_cast h0
  have hdq : (d : ℚ) ≤ 119 := by exact_mod_cast hd
  have hd0 : (0 : ℚ) ≤ d := by positivity
  have hx : |(s : ℚ) - ((s * 1000000000 + d : ℕ) : ℚ) / 1000000000| ≤ 119 / 1000000000 := by
    push_cast
    rw [abs_le]
    constructor <;> linarith
  have same : secsOf fl (s * 1000000000 + d) = s := by
    apply same_of_close (secsOf_rep h _) hr (k := -22)
    · rw [e22]
      push_cast at hge ⊢
      linarith
    · rw [e22]
      push_cast at hs
      linarith
    · rw [e22]
      refine lt_of_le_of_lt c ?_
      norm_num at hx ⊢
      linarith
  have hT : secsOf fl (s * 1000000000 + d) < 2 ^ 32 := by
    rw [same]
    exact_mod_cast h1
  obtain ⟨e, _⟩ := timeIn_eq h ht hT
  rw [e, same]
  congr 1
  have e0 : fl 0 = 0 := h.exact (by simpa using Rep.int 0 (by norm_num))
  unfold ns
  rw [Int.floor_natCast]
  simp only [Int.cast_natCast, sub_self, zero_mul, e0, round_zero, add_zero]
  omega

/-! ### The buffer -/

section
variable [Rigid X]

theorem stepCore_some {b b' : Buf X} {o : Op X} (h : stepCore fl b o = some b') :
    ∃ o', Passed fl o o' ∧ b' = b.step o' := by
  cases o with
  | clear => exact ⟨_, .clear, by cases h; rfl⟩
  | set m a s =>
    unfold stepCore setCore at h
    dsimp only at h
    cases ht : timeIn fl m.stamp with
    | none => rw [ht] at h; cases h
    | some t =>
      rw [ht] at h
      dsimp only at h
      refine ⟨_, .set ht, ?_⟩
      show b' = (b.setTransform { m with stamp := t } a s).1
      cases hs : b.setTransform { m with stamp := t } a s with
      | mk b1 r =>
        rw [hs] at h
        cases r <;> cases h <;> rfl

theorem runCore_some {ops : List (Op X)} : ∀ {b b' : Buf X}, runCore fl ops b = some b' →
    ∃ ops', AllPassed fl ops ops' ∧ b' = b.run ops' := by
  induction ops with
  | nil => intro b b' h; cases h; exact ⟨[], .nil, rfl⟩
  | cons o r ih =>
    intro b b' h
    unfold runCore at h
    cases hs : stepCore fl b o with
    | none => rw [hs] at h; cases h
    | some b1 =>
      rw [hs] at h
      obtain ⟨o', ho, e⟩ := stepCore_some hs
      obtain ⟨r', hr, e'⟩ := ih h
      exact ⟨o' :: r', .cons ho hr, by rw [e', e]; rfl⟩

theorem AllPassed.mem {ops ops' : List (Op X)} (h : AllPassed fl ops ops') {m : Msg X} {a : Name} {s : Bool}
    (hm : Op.set m a s ∈ ops') : ∃ m0, Op.set m0 a s ∈ ops ∧ timeIn fl m0.stamp = some m.stamp ∧
      m = { m0 with stamp := m.stamp } := by
  induction h with
  | nil => cases hm
  | cons h1 _ ih =>
    rcases List.mem_cons.1 hm with e | hm
    · cases h1 with
      | set ht => cases e; exact ⟨_, List.mem_cons_self .., ht, rfl⟩
      | clear => cases e
    · obtain ⟨m0, h2, h3⟩ := ih hm
      exact ⟨m0, List.mem_cons_of_mem _ h2, h3⟩

/-- **C67.** A Python buffer that has survived its calls is the C++ buffer after the same calls with their stamps taken
through doubles: what is proved of every history of a C++ buffer holds of it. -/
theorem C67_buffer {D : Duration} {ops : List (Op X)} {b : Buf X} (h : runCore fl ops (Buf.init D) = some b) :
    ∃ ops', AllPassed fl ops ops' ∧ b = (Buf.init D).run ops' ∧ Reachable D b := by
  obtain ⟨ops', h1, h2⟩ := runCore_some h
  exact ⟨ops', h1, h2, ops', h2⟩

/-- **C67.** Every stamp Python gets back from its buffer - from either kind of lookup, at zero or nonzero times, or as
the latest common time - is passed unchanged when Python uses it again. -/
theorem C67_served_stamps (hf : IsFl fl) {D : Duration} {ops : List (Op X)} {b : Buf X}
    (hin : ∀ m a s, Op.set m a s ∈ ops → m.stamp ≤ TIME_MAX) (h : runCore fl ops (Buf.init D) = some b)
    {target source fixed : Name} {t ttime stime : Time} (ht : t ≤ TIME_MAX) (htt : ttime ≤ TIME_MAX) :
    (∀ m, lookupCore fl b target source t = .ok m → timeIn fl m.stamp = some m.stamp) ∧
    (∀ m, lookupFullCore fl b target ttime source stime fixed = .ok m → timeIn fl m.stamp = some m.stamp) ∧
    (∀ u, latestCommon b target source = .ok u → timeIn fl u = some u) := by
  obtain ⟨ops', hp, hb⟩ := runCore_some h
  have hzero : timeIn fl 0 = some 0 := (C67_zero hf (Nat.zero_le _)).2 rfl
  have stored : ∀ u, (u = 0 ∨ ∃ o a s, Op.set o a s ∈ ops' ∧ ValidMsg o ∧ u = o.stamp) → timeIn fl u = some u := by
    rintro u (rfl | ⟨o, a, s, ho, -, rfl⟩)
    · exact hzero
    · obtain ⟨m0, h1, h2, -⟩ := hp.mem ho
      exact C67_idempotent hf (hin _ _ _ h1) h2
  have out : ∀ u v, timeOut u = some v → u ≤ TIME_MAX → v = u := by
    intro u v hv hu
    rcases Nat.lt_or_ge u (2 ^ 31 * 1000000000) with hl | hg
    · rw [(C67_out u hu).1 hl] at hv
      injection hv with hv
      exact hv.symm
    · rw [(C67_out u hu).2 hg] at hv
      cases hv
  have outMsg_ok : ∀ (m m' : Msg X), outMsg m = .ok m' → timeIn fl m.stamp = some m.stamp →
      timeIn fl m'.stamp = some m'.stamp := by
    intro m m' ho hi
    unfold outMsg at ho
    cases hv : timeOut m.stamp with
    | none => rw [hv] at ho; cases ho
    | some v =>
      rw [hv] at ho
      cases ho
      show timeIn fl v = some v
      rw [out _ _ hv (fromSec_le hi)]
      exact hi
  have wrap_ok : ∀ {α : Type} (r : Res α) (v : α), wrap r = .ok v → r = .ok v := by
    intro α r v hr
    cases r with
    | ok w => cases hr; rfl
    | ub => cases hr
    | throw e => cases e <;> cases hr
  refine ⟨?_, ?_, ?_⟩
  · intro m hm
    unfold lookupCore withTime at hm
    cases hc : timeIn fl t with
    | none => rw [hc] at hm; cases hm
    | some t' =>
      rw [hc] at hm
      dsimp only at hm
      cases hl : wrap (b.lookupTransform target source t') with
      | ok m1 =>
        rw [hl] at hm
        have ho := C66_stamp_origin hb (wrap_ok _ _ hl)
        refine outMsg_ok _ _ hm ?_
        by_cases h0 : t' = 0
        · exact stored _ (ho.2 h0)
        · rw [ho.1 h0]
          exact C67_idempotent hf ht hc
      | raised e => rw [hl] at hm; cases hm
      | typeError => rw [hl] at hm; cases hm
      | interrupted => rw [hl] at hm; cases hm
      | crash => rw [hl] at hm; cases hm
  · intro m hm
    unfold lookupFullCore withTime at hm
    cases hc : timeIn fl ttime with
    | none => rw [hc] at hm; cases hm
    | some tt =>
      rw [hc] at hm
      dsimp only at hm
      cases hc2 : timeIn fl stime with
      | none => rw [hc2] at hm; cases hm
      | some st =>
        rw [hc2] at hm
        dsimp only at hm
        cases hl : wrap (b.lookupTransform5 target tt source st fixed) with
        | ok m1 =>
          rw [hl] at hm
          have ho := C66_stamp_origin_fixed hb (wrap_ok _ _ hl)
          refine outMsg_ok _ _ hm ?_
          by_cases h0 : tt = 0
          · exact stored _ (ho.2 h0)
          · rw [ho.1 h0]
            exact C67_idempotent hf htt hc
        | raised e => rw [hl] at hm; cases hm
        | typeError => rw [hl] at hm; cases hm
        | interrupted => rw [hl] at hm; cases hm
        | crash => rw [hl] at hm; cases hm
  · intro u hu
    unfold latestCommon at hu
    cases h1 : wrap (b.validateFrameId target) with
    | ok g =>
      rw [h1] at hu
      dsimp only at hu
      cases h2 : wrap (b.validateFrameId source) with
      | ok s =>
        rw [h2] at hu
        dsimp only at hu
        cases h3 : b.latestCommonTime g s with
        | err c => rw [h3] at hu; cases hu
        | ub => rw [h3] at hu; cases hu
        | ok v =>
          rw [h3] at hu
          dsimp only at hu
          have hi := stored v (C66_common_time_origin hb h3)
          cases h4 : timeOut v with
          | none => rw [h4] at hu; cases hu
          | some w =>
            rw [h4] at hu
            cases hu
            rw [out _ _ h4 (fromSec_le hi)]
            exact hi
      | raised e => rw [h2] at hu; cases hu
      | typeError => rw [h2] at hu; cases hu
      | interrupted => rw [h2] at hu; cases hu
      | crash => rw [h2] at hu; cases hu
    | raised e => rw [h1] at hu; cases hu
    | typeError => rw [h1] at hu; cases hu
    | interrupted => rw [h1] at hu; cases hu
    | crash => rw [h1] at hu; cases hu

/-- **C67**, read back. A transform that was stored is found at the stamp it was given with, unchanged, and the stamp of
the answer is within 119 ns of the stamp asked for. (Until 119 ns before `2^31` s.) -/
theorem C67_read_back (hf : IsFl fl) {U : X → Prop} (L : RigidLaws U)
    (hI : ∀ {a b : X} {d : Int}, U a → U b → 0 < d → Rigid.interp a b 0 d = a)
    {D : Duration} (hD : 0 ≤ D) {ops : List (Op X)} (hU : AllOffered U ops) {b b' : Buf X}
    (hb : runCore fl ops (Buf.init D) = some b) (m : Msg X) (hm : U m.xf) (auth : Name) (isStatic : Bool)
    (h0 : m.stamp ≠ 0) (hmax : m.stamp < 2 ^ 31 * 1000000000 - 119) (lc : LegalName (stripSlash m.child))
    (lp : LegalName (stripSlash m.parent)) (nc : stripSlash m.child ≠ noParentName)
    (np : stripSlash m.parent ≠ noParentName)
    (hset : ∀ t, timeIn fl m.stamp = some t → b.setTransform { m with stamp := t } auth isStatic = (b', .accepted)) :
    setCore fl b m auth isStatic = (b', .ok ()) ∧
    ∃ t, lookupCore fl b' (stripSlash m.parent) (stripSlash m.child) m.stamp =
        .ok { parent := stripSlash m.parent, child := stripSlash m.child, stamp := t, xf := m.xf } ∧
      t ≤ m.stamp + 119 ∧ m.stamp ≤ t + 119 := by
  have hM : TIME_MAX = 4294967295999999999 := rfl
  have ht : m.stamp ≤ TIME_MAX := by omega
  cases hc : timeIn fl m.stamp with
  | none =>
    have := (C67_error hf ht).1.1 hc
    omega
  | some t =>
    have hs := hset t hc
    have hnear := (C67_error hf ht).2.2.1 (by omega) t hc
    refine ⟨by simp only [setCore, hc, hs], t, ?_, hnear⟩
    obtain ⟨ops', hp, hb'⟩ := runCore_some hb
    have hU' : AllOffered U ops' := by
      intro m1 a1 s1 h1
      obtain ⟨m0, h2, -, h3⟩ := hp.mem h1
      have := hU m0 a1 s1 h2
      rw [h3]
      exact this
    have ht0 : t ≠ 0 := by
      intro he
      rw [he] at hc
      exact h0 ((C67_zero hf ht).1 hc)
    have key := C26_read_your_write L hI hD hU' hb' { m with stamp := t } hm auth isStatic ht0 lc lp nc np hs
    have key' : b'.lookupTransform (stripSlash m.parent) (stripSlash m.child) t =
        .ok { parent := stripSlash m.parent, child := stripSlash m.child, stamp := t, xf := m.xf } := key
    have ho : timeOut t = some t := (C67_out t (by omega)).1 (by omega)
    simp only [lookupCore, withTime, hc, key', wrap, thenOut, outMsg, ho]

end

theorem small (h : IsFl fl) {t : Time} (ht : t < 2 ^ 23 * 1000000000) : timeIn fl t = some t :=
  (C67_error h (by show t ≤ 4294967295999999999; omega)).2.2.2 ht

/-- A Python program that fills a buffer, for any correct rounding. -/
example (h : IsFl fl) : runCore fl exOps (Buf.init 100) = some exBuf := by
  have e : ∀ t, t < 100 → timeIn fl t = some t := fun t ht => small h (by omega)
  simp only [exOps, put, runCore, stepCore, setCore, e 10 (by decide), e 20 (by decide), e 12 (by decide),
    e 18 (by decide), e 0 (by decide)]
  rfl

/-- The hypotheses of `C67_read_back` hold of a stamp of today, which is changed on its way. -/
example (h : IsFl fl) : ∃ (m : Msg Int) (b' : Buf Int), m.stamp = 1700000000000000001 ∧
    (∀ t, timeIn fl m.stamp = some t → (Buf.init 100).setTransform { m with stamp := t } [] false = (b', .accepted)) ∧
    timeIn fl m.stamp = some 1700000000000000000 := by
  have e : timeIn fl 1700000000000000001 = some 1700000000000000000 :=
    timeIn_flat h (s := 1700000000) (d := 1) (by norm_num) (by norm_num) (by norm_num)
  refine ⟨{ parent := ['w'], child := ['a'], stamp := 1700000000000000001, xf := (5 : Int) },
    ((Buf.init 100).setTransform { parent := ['w'], child := ['a'], stamp := 1700000000000000000, xf := (5 : Int) } []
      false).1, rfl, fun t ht => ?_, e⟩
  have ht' : timeIn fl 1700000000000000001 = some t := ht
  rw [e] at ht'
  have ht2 := Option.some.inj ht'
  subst ht2
  exact Prod.ext rfl (by decide +kernel)

/-- **C67, finding.** Stamps less than 120 ns apart can become one. From `2^30` s (January 2004) on, every whole second
and the 119 ns after it are one stamp for a Python buffer... -/
theorem C67_collision_finding (h : IsFl fl) {s d : ℕ} (h0 : 2 ^ 30 ≤ s) (h1 : s < 2 ^ 32) (hd : d ≤ 119) :
    timeIn fl (s * 1000000000 + d) = timeIn fl (s * 1000000000) := by
  have e := timeIn_flat h h0 h1 (d := 0) (by norm_num)
  rw [Nat.add_zero] at e
  rw [timeIn_flat h h0 h1 hd, e]

/-- ... so that of two transforms 1 ns apart the second is refused without a word, and a lookup at its stamp returns
the first, where a C++ buffer keeps both. -/
theorem C67_lost_update_finding (h : IsFl fl) : ∃ (m1 m2 : Msg Int) (b b' : Buf Int),
    m2.stamp = m1.stamp + 1 ∧ m2.xf ≠ m1.xf ∧
    setCore fl (Buf.init 100) m1 [] false = (b, .ok ()) ∧ setCore fl b m2 [] false = (b', .ok ()) ∧
    (∃ m, lookupCore fl b' m2.parent m2.child m2.stamp = .ok m ∧ m.xf = m1.xf) ∧
    (∃ m, ((Buf.init 100).run [.set m1 [] false, .set m2 [] false]).lookupTransform m2.parent m2.child m2.stamp = .ok m ∧
      m.xf = m2.xf) := by
  have e0 : timeIn fl 1700000000000000000 = some 1700000000000000000 :=
    timeIn_flat h (s := 1700000000) (d := 0) (by norm_num) (by norm_num) (by norm_num)
  have e1 : timeIn fl 1700000000000000001 = some 1700000000000000000 :=
    timeIn_flat h (s := 1700000000) (d := 1) (by norm_num) (by norm_num) (by norm_num)
  refine ⟨{ parent := ['w'], child := ['a'], stamp := 1700000000000000000, xf := (5 : Int) },
    { parent := ['w'], child := ['a'], stamp := 1700000000000000001, xf := (7 : Int) },
    ((Buf.init 100).run [.set { parent := ['w'], child := ['a'], stamp := 1700000000000000000, xf := (5 : Int) } [] false]),
    ((Buf.init 100).run [.set { parent := ['w'], child := ['a'], stamp := 1700000000000000000, xf := (5 : Int) } [] false,
      .set { parent := ['w'], child := ['a'], stamp := 1700000000000000000, xf := (7 : Int) } [] false]),
    rfl, by decide, ?_, ?_, ?_, ?_⟩
  · simp only [setCore, e0]
    exact Prod.ext rfl (by decide +kernel)
  · simp only [setCore, e1]
    exact Prod.ext rfl (by decide +kernel)
  · refine ⟨{ parent := ['w'], child := ['a'], stamp := 1700000000000000000, xf := (5 : Int) }, ?_, rfl⟩
    simp only [lookupCore, withTime, e1]
    decide +kernel
  · refine ⟨{ parent := ['w'], child := ['a'], stamp := 1700000000000000001, xf := (7 : Int) }, ?_, rfl⟩
    decide +kernel

/-- **C67, finding.** From `2^31` s (January 2038) on, every lookup of a transform that exists ends the process: the
seconds are handed to Python as a signed 32-bit number. -/
theorem C67_year_2038_finding [Rigid X] (h : IsFl fl) {D : Duration} {b : Buf X} (hb : Reachable D b) (target source : Name) {t : Time}
    (ht : t ≤ TIME_MAX) (hge : 2 ^ 31 * 1000000000 ≤ t) :
    (∀ m, lookupCore fl b target source t ≠ .ok m) ∧
    (∀ t' m, timeIn fl t = some t' → b.lookupTransform target source t' = .ok m → m.stamp = t' →
      lookupCore fl b target source t = .crash) ∧
    lookupCore fl b target target t = .crash := by
  have hflat : timeIn fl (2 ^ 31 * 1000000000) = some (2 ^ 31 * 1000000000) := by
    have e := timeIn_flat h (s := 2 ^ 31) (d := 0) (by norm_num) (by norm_num) (by norm_num)
    rw [Nat.add_zero] at e
    exact e
  have hbig : ∀ t', timeIn fl t = some t' → 2 ^ 31 * 1000000000 ≤ t' := fun t' h1 =>
    C67_monotone h hge ht hflat h1
  have hout : ∀ t', timeIn fl t = some t' → timeOut t' = none := fun t' h1 =>
    (C67_out t' (fromSec_le h1)).2 (hbig t' h1)
  have key : ∀ t' m, timeIn fl t = some t' → b.lookupTransform target source t' = .ok m → m.stamp = t' →
      lookupCore fl b target source t = .crash := by
    intro t' m h1 h2 h3
    have h4 := hout t' h1
    rw [← h3] at h4
    simp only [lookupCore, withTime, h1, h2, wrap, thenOut, outMsg, h4]
  refine ⟨?_, key, ?_⟩
  · intro m hm
    unfold lookupCore withTime at hm
    cases hc : timeIn fl t with
    | none => rw [hc] at hm; cases hm
    | some t' =>
      have h0 : t' ≠ 0 := by
        have := hbig t' hc
        omega
      rw [hc] at hm
      dsimp only at hm
      cases hl : b.lookupTransform target source t' with
      | ub => rw [hl] at hm; cases hm
      | throw e => rw [hl] at hm; cases e <;> cases hm
      | ok m1 =>
        rw [hl] at hm
        have hs : m1.stamp = t' := by
          obtain ⟨ops, ho⟩ := hb
          exact (C66_stamp_origin ho hl).1 h0
        have h4 := hout t' hc
        rw [← hs] at h4
        simp only [wrap, thenOut, outMsg, h4] at hm
        cases hm
  · cases hc : timeIn fl t with
    | none => simp only [lookupCore, withTime, hc]
    | some t' =>
      have h0 : t' ≠ 0 := by
        have := hbig t' hc
        omega
      have h4 := hout t' hc
      simp [lookupCore, withTime, hc, wrap, thenOut, outMsg, h4, Buf.lookupTransform, h0]

end Tf2.Py
