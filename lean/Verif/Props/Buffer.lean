import Verif.Proofs.History
import Verif.Proofs.Examples
import Verif.Props.Cache

/-!
# Properties of the buffer: C08–C12, C23–C26, C36, C49, C51
-/
namespace Tf2

variable {X : Type}

/-! ### C51, C08, C09 -/

/-- **C51.** After any history of `setTransform` and `clear` calls, what is stored for a frame is
determined by the valid messages for that frame (and the clears) alone. -/
theorem C51_frame_content [Rigid X] (D : Duration) {n : Name} (hn : n ≠ noParentName)
    (ops : List (Op X)) : FrameContent D ops ((Buf.init D).run ops) n := frame_content D hn ops

/-- **C51 + C01.** With a non-negative storage duration and representable stamps, a frame whose first
valid message was dynamic holds exactly the window of the valid messages for it since the last
clear. -/
theorem C51_frame_window [Rigid X] {D : Duration} (hD : 0 ≤ D) {n : Name} (hn : n ≠ noParentName)
    (ops : List (Op X)) {b : Buf X} (hb : b = (Buf.init D).run ops) {m0 : Msg X}
    {r : List (Msg X × Bool)} (h0 : offersFor n ops = (m0, false) :: r)
    (hr : ∀ m s, (m, s) ∈ offersFor n ops → (m.stamp : Int) + D ≤ TIME_MAX) :
    ∃ i st, b.frameIDs n = some i ∧ b.getFrame i = some (.dyn D st) ∧
      IsWindow D (attempts (frameCalls b.lookupFrameNumber n ops) []) st := by
  have h := frame_content D hn ops
  rw [← hb] at h
  unfold FrameContent at h
  rw [h0] at h
  obtain ⟨i, h1, h2⟩ := h
  have hrep : ∀ s, CacheOp.insert s ∈ frameCalls b.lookupFrameNumber n ops →
      0 ≤ (s.stamp : Int) + D ∧ (s.stamp : Int) + D ≤ TIME_MAX := by
    intro s hs
    have : ∃ m f, (m, f) ∈ offersFor n ops ∧ m.stamp = s.stamp := by
      clear h0 hr h1 h2 hb
      induction ops with
      | nil => cases hs
      | cons o r ih =>
        cases o with
        | clear =>
          simp only [frameCalls, List.mem_cons, reduceCtorEq, false_or] at hs
          exact ih hs
        | set m a f =>
          simp only [frameCalls] at hs
          simp only [offersFor]
          split at hs
          · rename_i hc
            rw [if_pos hc]
            rcases List.mem_cons.1 hs with hs | hs
            · injection hs with hs; exact ⟨m, f, List.mem_cons_self .., by rw [hs]⟩
            · obtain ⟨m', f', h1, h2⟩ := ih hs
              exact ⟨m', f', List.mem_cons_of_mem _ h1, h2⟩
          · rename_i hc
            rw [if_neg hc]; exact ih hs
    obtain ⟨m, f, h3, h4⟩ := this
    have := hr m f h3
    omega
  obtain ⟨st, h3, h4, _⟩ := C01_cache_window hD (frameCalls b.lookupFrameNumber n ops) hrep
  exact ⟨i, st, h1, by rw [h2, h3], h4⟩

example : offersFor ['a'] exOps = [(tmsg ['w'] ['a'] 10 1, false), (tmsg ['w'] ['a'] 20 3, false)] ∧
    exBuf.frameIDs ['a'] = some 1 ∧
    exBuf.getFrame 1 = some (.dyn 100 [smp 20 2 1 3, smp 10 2 1 1]) := by decide

/-- **C08.** If the first valid message for a frame was static, then after any further history
(including `clear`) a query of the frame at every time returns the most recently set transform and
parent, whatever the stamps. -/
theorem C08_static_always [Rigid X] (D : Duration) {n : Name} (hn : n ≠ noParentName)
    (ops : List (Op X)) {b : Buf X} (hb : b = (Buf.init D).run ops) {m0 : Msg X}
    {r : List (Msg X × Bool)} (h0 : offersFor n ops = (m0, true) :: r) :
    ∃ i c m s, b.frameIDs n = some i ∧ b.getFrame i = some c ∧
      (offersFor n ops).getLast? = some (m, s) ∧
      ∀ t, ∃ p, b.frameIDs (stripSlash m.parent) = some p ∧
        c.getData t = .ok { stamp := t, parent := p, child := i, xf := m.xf } := by
  have h := frame_content D hn ops
  rw [← hb] at h
  have h' := h
  unfold FrameContent at h
  rw [h0] at h
  obtain ⟨i, m, s, h1, h2, h3⟩ := h
  refine ⟨i, _, m, s, h1, h3, by rw [h0]; exact h2, ?_⟩
  intro t
  have hmem : (m, s) ∈ offersFor n ops := by rw [h0]; exact List.mem_of_getLast? h2
  obtain ⟨p, hp⟩ := mentions_registered (D := D) ops _ (offersFor_mentions hmem).2.1
  rw [← hb] at hp
  refine ⟨p, hp, ?_⟩
  have : b.lookupFrameNumber (stripSlash m.parent) = p := by unfold Buf.lookupFrameNumber; rw [hp]; rfl
  simp [Cache.getData, this]

example : let ops := exOps ++ [.clear, put ['w'] ['c'] 3 7, .clear]
    offersFor ['c'] ops = [(tmsg ['a'] ['/', 'c'] 0 1000, true), (tmsg ['w'] ['c'] 3 7, false)] ∧
    ((Buf.init 100).run ops).lookupTransform ['w'] ['c'] 55 = .ok (tmsg ['w'] ['c'] 55 7) := by decide

/-- Whether the frame with number `i` is static: it has a cache, and the cache is a static one. -/
def IsStatic (b : Buf X) (i : Nat) : Prop := ∃ s, b.getFrame i = some (.stat s)

/-- **C09.** The kind of a frame is that of the first valid message for it, for every history: later
messages with the other flag do not change it. -/
theorem C09_first_decides [Rigid X] (D : Duration) {n : Name} (hn : n ≠ noParentName)
    (ops : List (Op X)) {b : Buf X} (hb : b = (Buf.init D).run ops) {m0 : Msg X} {f : Bool}
    {r : List (Msg X × Bool)} (h0 : offersFor n ops = (m0, f) :: r) :
    ∃ i c, b.frameIDs n = some i ∧ b.getFrame i = some c ∧ (IsStatic b i ↔ f = true) := by
  have h := frame_content D hn ops
  rw [← hb] at h
  unfold FrameContent at h
  rw [h0] at h
  cases f with
  | true =>
    obtain ⟨i, m, s, h1, _, h3⟩ := h
    exact ⟨i, _, h1, h3, by simp [IsStatic, h3]⟩
  | false =>
    obtain ⟨i, h1, h3⟩ := h
    refine ⟨i, _, h1, h3, ?_⟩
    obtain ⟨st, h4, _⟩ := run_dyn D (frameCalls b.lookupFrameNumber n ops) [] List.Pairwise.nil
    rw [h4] at h3
    simp [IsStatic, h3]

example : offersFor ['a'] (exOps ++ [put ['w'] ['a'] 30 9 true]) =
    [(tmsg ['w'] ['a'] 10 1, false), (tmsg ['w'] ['a'] 20 3, false), (tmsg ['w'] ['a'] 30 9, true)] ∧
    ((Buf.init 100).run (exOps ++ [put ['w'] ['a'] 30 9 true])).getFrame 1 =
      some (.dyn 100 [smp 30 2 1 9, smp 20 2 1 3, smp 10 2 1 1]) := by decide

/-! ### C10, C11 -/

/-- **C10.** A message that violates one of the documented conditions is refused and changes nothing
at all; any other message reaches the cache: it is accepted, refused as too old or repeated, or the
time arithmetic throws.  The behaviour is never undefined. -/
theorem C10_malformed [Rigid X] {D : Duration} {b : Buf X} (hr : Reachable D b) (m : Msg X)
    (auth : Name) (isStatic : Bool) :
    (¬ ValidMsg m → b.setTransform m auth isStatic = (b, .invalid)) ∧
    (ValidMsg m → (b.setTransform m auth isStatic).2 = .accepted ∨
      (b.setTransform m auth isStatic).2 = .tooOld ∨ (b.setTransform m auth isStatic).2 = .repeated ∨
      (b.setTransform m auth isStatic).2 = .threw) := by
  refine ⟨fun h => Buf.setTransform_invalid (msgValid_false h), fun h => ?_⟩
  obtain ⟨cid, pid, c0, c1, ir, st⟩ :=
    Buf.setTransform_step hr.wf.names m auth isStatic ((msgValid_iff m).2 h)
  rw [st.hres]
  cases ir <;> simp [Buf.SetRes.ofInsert]

example : (exBuf.setTransform (tmsg ['/', 'a'] ['a'] 30 0) [] false).2 = .invalid ∧
    (exBuf.setTransform (tmsg ['/'] ['a'] 30 0) [] false).2 = .invalid ∧
    (exBuf.setTransform (tmsg ['w'] ['a'] 30 0) [] false).2 = .accepted ∧
    (exBuf.setTransform (tmsg ['w'] ['a'] 20 0) [] false).2 = .repeated := by decide

/-- **C11.** A message refused by the cache leaves every cache as it was, hence every lookup,
availability test and parent query between names that were known; but it registers its names. -/
theorem C11_refused_no_effect [Rigid X] {D : Duration} {b : Buf X} (hr : Reachable D b) (m : Msg X)
    (auth : Name) (isStatic : Bool) {b' : Buf X} {r : Buf.SetRes}
    (h : b.setTransform m auth isStatic = (b', r)) (hrej : r = .tooOld ∨ r = .repeated) :
    (∀ i, b'.getFrame i = b.getFrame i) ∧
    (∀ n i, b.frameIDs n = some i → b'.frameIDs n = some i) ∧
    (∃ i j, b'.frameIDs (stripSlash m.child) = some i ∧ b'.frameIDs (stripSlash m.parent) = some j) ∧
    (∀ n k t i j, b.frameIDs n = some i → b.frameIDs k = some j →
      b'.lookupTransform n k t = b.lookupTransform n k t ∧
      b'.canTransform n k t = b.canTransform n k t) ∧
    (∀ n t i, b.frameIDs n = some i → b'.getParent n t = b.getParent n t) := by
  have hw := hr.wf
  cases hv : Buf.msgValid (Buf.stripMsg m) with
  | false =>
    rw [Buf.setTransform_invalid hv] at h
    injection h with _ h; subst h
    rcases hrej with h | h <;> cases h
  | true =>
    obtain ⟨cid, pid, c0, c1, ir, st⟩ := Buf.setTransform_step hw.names m auth isStatic hv
    have hb' : (b.setTransform m auth isStatic).1 = b' := by rw [h]
    have hres : (b.setTransform m auth isStatic).2 = r := by rw [h]
    rw [hb', hres] at st
    have hw' : WF D b' := by rw [← hb']; exact hw.setTransform m auth isStatic
    have hir : ir = .tooOld ∨ ir = .repeated := by
      have := st.hres
      rcases hrej with h | h <;> rw [h] at this <;> cases ir <;> simp [Buf.SetRes.ofInsert] at this ⊢
    -- a cache that refuses existed and is unchanged
    have hcache : b.getFrame cid = some c1 := by
      have hc0 := st.hc0
      have hins := st.hins
      cases hf : b.getFrame cid with
      | none =>
        exfalso
        rw [hf, Option.getD_none] at hc0
        unfold Buf.newCache at hc0
        cases isStatic with
        | true =>
          simp only [if_true] at hc0
          rw [hc0] at hins
          simp only [Cache.insert, Prod.mk.injEq] at hins
          rcases hir with h | h <;> rw [h] at hins <;> cases hins.2
        | false =>
          simp only [Bool.false_eq_true, if_false] at hc0
          rw [hc0] at hins
          simp only [Cache.insert, Prod.mk.injEq] at hins
          have := hins.2
          have hh : ∀ (D : Duration) (s : Sample X), (dynInsert D [] s).2 = .threw ∨
              (dynInsert D [] s).2 = .accepted := by
            intro D s
            simp only [dynInsert]
            rw [insertBody_eq List.Pairwise.nil, if_neg (by simp)]
            simp only
            split
            · exact Or.inl rfl
            · exact Or.inr rfl
          rcases hh b.cacheTime ⟨(Buf.stripMsg m).stamp, pid, cid, (Buf.stripMsg m).xf⟩ with h' | h' <;>
            rw [h'] at this <;> rcases hir with h | h <;> rw [h] at this <;> cases this
      | some c =>
        rw [hf, Option.getD_some] at hc0
        subst hc0
        have hok := hw.caches cid _ hf
        cases c0 with
        | stat o =>
          simp only [Cache.insert, Prod.mk.injEq] at hins
          rcases hir with h | h <;> rw [h] at hins <;> cases hins.2
        | dyn D' l =>
          simp only [Cache.insert, Prod.mk.injEq] at hins
          obtain ⟨h1, h2⟩ := hins
          have : (dynInsert D' l ⟨(Buf.stripMsg m).stamp, pid, cid, (Buf.stripMsg m).xf⟩).1 = l := by
            have key : ∀ (l : List (Sample X)) (s : Sample X), (dynInsert D' l s).2 = .tooOld ∨ (dynInsert D' l s).2 = .repeated →
                NewestFirst l → (dynInsert D' l s).1 = l := by
              intro l s hh hs
              have body : (insertBody D' l s).2 = .tooOld ∨ (insertBody D' l s).2 = .repeated →
                  (insertBody D' l s).1 = l := by
                rw [insertBody_eq hs]
                split
                · intro _; rfl
                · intro h
                  simp only at h
                  split at h <;> simp at h
              cases l with
              | nil => exact body hh
              | cons f r =>
                simp only [dynInsert] at hh ⊢
                split at hh
                · rfl
                · split at hh
                  · rename_i h; simp [h]
                  · rename_i h
                    simp only [h, if_false]
                    exact body hh
            exact key _ _ (by rw [h2]; exact hir) hok.2.1.sorted
          rw [← h1, this]
    have hframes : ∀ i, b'.getFrame i = b.getFrame i := by
      intro i
      rw [st.hframes]
      split
      · rename_i he; rw [he, hcache]
      · rfl
    have hlook : ∀ n i, b.frameIDs n = some i → b'.lookupFrameNumber n = b.lookupFrameNumber n := by
      intro n i hi
      unfold Buf.lookupFrameNumber; rw [st.hold n i hi, hi]
    refine ⟨hframes, st.hold, ⟨cid, pid, st.hcid, st.hpid⟩, ?_, ?_⟩
    · intro n k t i j hi hj
      have hn := hlook n i hi
      have hk := hlook k j hj
      constructor
      · unfold Buf.lookupTransform Buf.validateFrameId
        rw [hn, hk]
        simp only [hframes, walk_congr hframes]
      · unfold Buf.canTransform Buf.canTransformNoLock
        rw [hn, hk]
        simp only [walk_congr hframes]
    · intro n t i hi
      unfold Buf.getParent
      rw [hlook n i hi]
      simp only [hframes]
      cases hc : b.getFrame (b.lookupFrameNumber n) with
      | none => rfl
      | some c =>
        simp only
        have hok := hw.caches _ _ hc
        rw [Cache.getParent_eq]
        cases hd : c.getData t with
        | ub => rfl
        | fail => rfl
        | ok s =>
          have hp := (hok.getData_parent hd).1
          cases hsp : s.parent with
          | zero => simp [hsp]
          | succ p =>
            simp only [hsp]
            rw [hsp] at hp
            have hlt : p + 1 < b.frameIDsReverse.length := by rw [hw.lenEq]; exact hp
            have h1 := (hw.ids b.frameIDsReverse[p + 1] (p + 1)).2 (List.getElem?_eq_getElem hlt)
            have h2 := (hw'.ids _ _).1 (st.hold _ _ h1)
            unfold Buf.lookupFrameString
            rw [h2, List.getElem?_eq_getElem hlt]

example : (exBuf.setTransform (tmsg ['q'] ['a'] 20 0) [] false).2 = .repeated ∧
    (exBuf.setTransform (tmsg ['q'] ['a'] 20 0) [] false).1.frameExists ['q'] = true ∧
    exBuf.frameExists ['q'] = false := by decide

/-! ### C12 -/

/-- **C12.** In every reachable state names and numbers are in bijection and number 0 is NO_PARENT's;
a number given to a name stays with it through every later history; and every parent a cache answers
with has a name. -/
theorem C12_numbering [Rigid X] {D : Duration} {b : Buf X} (hr : Reachable D b) :
    (∀ n i, b.frameIDs n = some i ↔ b.frameIDsReverse[i]? = some n) ∧
    (∀ n, b.frameIDs n = some 0 ↔ n = noParentName) ∧
    (∀ n k i, b.frameIDs n = some i → b.frameIDs k = some i → n = k) ∧
    (∀ ops n i, b.frameIDs n = some i → (b.run ops).frameIDs n = some i) ∧
    (∀ i c t s, b.getFrame i = some c → c.getData t = .ok s →
      (∃ n, b.frameIDs n = some i) ∧ ∃ q, b.frameIDs q = some s.parent ∧
        b.lookupFrameString s.parent = .ok q) := by
  have hw := hr.wf
  refine ⟨hw.ids, fun n => hw.frameIDs_zero, fun n k i h1 h2 => hw.inj h1 h2,
    fun ops n i h => frameIDs_run ops hw h, ?_⟩
  intro i c t s hc hd
  have hok := hw.caches _ _ hc
  have hp := (hok.getData_parent hd).1
  have hi := Buf.getFrame_lt hc
  have hlt : s.parent < b.frameIDsReverse.length := by rw [hw.lenEq]; exact hp
  have hlt' : i < b.frameIDsReverse.length := by rw [hw.lenEq]; exact hi
  refine ⟨⟨_, (hw.ids _ _).2 (List.getElem?_eq_getElem hlt')⟩, b.frameIDsReverse[s.parent],
    (hw.ids _ _).2 (List.getElem?_eq_getElem hlt), ?_⟩
  unfold Buf.lookupFrameString
  rw [List.getElem?_eq_getElem hlt]

example : exBuf.frameIDsReverse = [noParentName, ['a'], ['w'], ['b'], ['c'], ['y'], ['z']] := by decide

/-! ### C23 -/

/-- **C23.** One leading slash on either id makes no difference to `setTransform`. -/
theorem C23_slash [Rigid X] (b : Buf X) (m : Msg X) (auth : Name) (isStatic : Bool)
    (hc : m.child.head? ≠ some '/') (hp : m.parent.head? ≠ some '/') :
    b.setTransform { m with child := '/' :: m.child } auth isStatic = b.setTransform m auth isStatic ∧
    b.setTransform { m with parent := '/' :: m.parent } auth isStatic = b.setTransform m auth isStatic ∧
    b.setTransform { m with child := '/' :: m.child, parent := '/' :: m.parent } auth isStatic =
      b.setTransform m auth isStatic := by
  have hs : ∀ n : Name, n.head? ≠ some '/' → stripSlash n = n := by
    intro n h
    unfold stripSlash
    split
    · simp at h
    · rfl
  have hs' : ∀ n : Name, stripSlash ('/' :: n) = n := fun _ => rfl
  have e : Buf.stripMsg { m with child := '/' :: m.child } = Buf.stripMsg m := by
    simp [Buf.stripMsg, hs', hs _ hc]
  have e2 : Buf.stripMsg { m with parent := '/' :: m.parent } = Buf.stripMsg m := by
    simp [Buf.stripMsg, hs', hs _ hp]
  have e3 : Buf.stripMsg { m with child := '/' :: m.child, parent := '/' :: m.parent } =
      Buf.stripMsg m := by
    simp [Buf.stripMsg, hs', hs _ hp, hs _ hc]
  unfold Buf.setTransform
  rw [e, e2, e3]
  exact ⟨rfl, rfl, rfl⟩

/-- Only one slash: two leading slashes register a name that no query accepts. -/
example : let b := (Buf.init 100).run [put ['w'] ['/', '/', 'a'] 10 1]
    b.frameExists ['/', 'a'] = true ∧ b.lookupTransform ['w'] ['/', 'a'] 10 = .throw .invalidArgument ∧
    b.lookupTransform ['w'] ['a'] 10 = .throw .lookup := by decide

/-! ### C24 -/

/-- **C24.** `clear` keeps all names, numbers and static frames; a frame has data after it exactly if
it is static, and then the same data. -/
theorem C24_clear [Rigid X] (b : Buf X) :
    b.clear.frameIDs = b.frameIDs ∧ b.clear.frameIDsReverse = b.frameIDsReverse ∧
    b.clear.getFrameStrings = b.getFrameStrings ∧
    (∀ i, i ≠ 0 → (IsStatic b.clear i ↔ IsStatic b i)) ∧
    (∀ i, b.clear.getFrame i = none ↔ b.getFrame i = none) ∧
    (∀ t i p e, i ≠ 0 → (ParentAt b.clear t i p e ↔ ParentAt b t i p e ∧ IsStatic b i)) := by
  refine ⟨rfl, rfl, rfl, ?_, ?_, ?_⟩
  · intro i hi
    unfold IsStatic
    rw [Buf.getFrame_clear, if_neg hi]
    cases b.getFrame i with
    | none => simp
    | some c => cases c <;> simp [Cache.clearList]
  · intro i
    rw [Buf.getFrame_clear]
    split
    · rename_i h; rw [h]
    · simp
  · intro t i p e hi
    unfold ParentAt IsStatic
    rw [Buf.getFrame_clear, if_neg hi]
    cases hf : b.getFrame i with
    | none => simp
    | some c =>
      cases c with
      | dyn D st => simp [Cache.clearList, Cache.getData, dynGetData, findClosest]
      | stat o => simp [Cache.clearList]

/-- **C24.** After a `clear`, a dynamic frame behaves as in a history that contains only what came
after the clear. -/
theorem C24_fresh_after_clear [Rigid X] (D : Duration) {n : Name} (hn : n ≠ noParentName)
    (pre post : List (Op X)) {b : Buf X} (hb : b = (Buf.init D).run (pre ++ .clear :: post)) {m0 : Msg X}
    {r : List (Msg X × Bool)} (h0 : offersFor n (pre ++ .clear :: post) = (m0, false) :: r) :
    ∃ i, b.frameIDs n = some i ∧
      b.getFrame i = some (Cache.run (.dyn D []) (frameCalls b.lookupFrameNumber n post)) := by
  have h := frame_content D hn (pre ++ .clear :: post)
  rw [← hb] at h
  unfold FrameContent at h
  rw [h0] at h
  obtain ⟨i, h1, h2⟩ := h
  refine ⟨i, h1, ?_⟩
  rw [h2, frameCalls_append, Cache.run_append]
  simp only [frameCalls, Cache.run]
  obtain ⟨st, h3, _⟩ := run_dyn D (frameCalls b.lookupFrameNumber n pre) [] List.Pairwise.nil
  rw [h3]
  rfl

example : exBuf.clear.lookupTransform ['a'] ['c'] 15 = .ok (tmsg ['a'] ['c'] 15 1000) ∧
    exBuf.clear.lookupTransform ['w'] ['a'] 15 = .throw .extrapolation ∧
    exBuf.lookupTransform ['w'] ['a'] 15 = .ok (tmsg ['w'] ['a'] 15 2) := by decide

/-- Number 0 is skipped by `clear`: data stored for the reserved name survives it. -/
example : let b := ((Buf.init 100).run [put ['w'] noParentName 10 1]).clear
    b.getFrame 0 = some (.dyn 100 [smp 10 1 0 1]) := by decide

/-! ### C25 -/

/-- **C25.** `setTransform` for child `c` leaves the cache of every other frame unchanged, whatever
its outcome, hence the parent and transform of every other frame at every time. -/
theorem C25_other_frames [Rigid X] {D : Duration} {b : Buf X} (hr : Reachable D b) (m : Msg X)
    (auth : Name) (isStatic : Bool) {n : Name} {i : Nat} (hn : b.frameIDs n = some i)
    (hne : n ≠ stripSlash m.child) :
    (b.setTransform m auth isStatic).1.getFrame i = b.getFrame i ∧
    (b.setTransform m auth isStatic).1.frameIDs n = some i ∧
    ∀ t p e, ParentAt (b.setTransform m auth isStatic).1 t i p e ↔ ParentAt b t i p e := by
  have hw := hr.wf
  cases hv : Buf.msgValid (Buf.stripMsg m) with
  | false => rw [Buf.setTransform_invalid hv]; exact ⟨rfl, hn, fun _ _ _ => Iff.rfl⟩
  | true =>
    obtain ⟨cid, pid, c0, c1, ir, st⟩ := Buf.setTransform_step hw.names m auth isStatic hv
    have hg : (b.setTransform m auth isStatic).1.getFrame i = b.getFrame i := by
      rw [st.hframes, if_neg]
      rintro rfl
      exact hne (st.hnames.inj (st.hold n _ hn) st.hcid)
    refine ⟨hg, st.hold n i hn, ?_⟩
    intro t p e
    unfold ParentAt
    rw [hg]

/-- **C25.** A lookup at a nonzero time between known frames none of whose ancestors at that time
(nor themselves) is the child of the message answers the same after `setTransform`. -/
theorem C25_lookup_unaffected [Rigid X] {D : Duration} {b : Buf X} (hr : Reachable D b) (m : Msg X)
    (auth : Name) (isStatic : Bool) {target source : Name} {t : Time} (ht : t ≠ 0) {g s : Nat}
    (hg : b.frameIDs target = some g) (hs : b.frameIDs source = some s)
    (hfree : ∀ c x n, (Chain b t s c x n ∨ Chain b t g c x n) →
      b.frameIDs (stripSlash m.child) ≠ some c) :
    (b.setTransform m auth isStatic).1.lookupTransform target source t =
      b.lookupTransform target source t := by
  have hw := hr.wf
  cases hv : Buf.msgValid (Buf.stripMsg m) with
  | false => rw [Buf.setTransform_invalid hv]
  | true =>
    obtain ⟨cid, pid, c0, c1, ir, st⟩ := Buf.setTransform_step hw.names m auth isStatic hv
    generalize hb' : (b.setTransform m auth isStatic).1 = b' at *
    let S : Nat → Prop := fun c => (∃ n, b.frameIDs n = some c) ∧
      ∃ x n, Chain b t s c x n ∨ Chain b t g c x n
    have hS : ∀ j, S j → b.getFrame j = b'.getFrame j := by
      rintro j ⟨⟨n, hn⟩, x, k, hc⟩
      rw [st.hframes, if_neg]
      rintro rfl
      have h1 := st.hold n _ hn
      have h2 := st.hcid
      have : n = stripSlash m.child := st.hnames.inj h1 h2
      rw [this] at hn
      exact hfree _ _ _ hc hn
    have hcl : ∀ j c p a a', S j → b.getFrame j = some c →
        transformAccum.gather c t a = (.id (p + 1), a') → S (p + 1) := by
      rintro j c p a a' ⟨_, x, k, hc⟩ hf hga
      rcases gather_cases hw hf a (t := t) with ⟨a'', h1, _⟩ | ⟨q, sm, h1, h2⟩
      · rw [h1] at hga; injection hga with hga _; injection hga with hga; omega
      · rw [h1] at hga; injection hga with hga _; injection hga with hga
        have : q = p := by omega
        subst this
        refine ⟨?_, ?_⟩
        · obtain ⟨_, c', s', e1, e2, e3, _⟩ := h2
          have hp := (hw.caches _ _ e1).getData_parent e2
          rw [e3] at hp
          have hlt : q + 1 < b.frameIDsReverse.length := by rw [hw.lenEq]; exact hp.1
          exact ⟨_, (hw.ids _ _).2 (List.getElem?_eq_getElem hlt)⟩
        · rcases hc with hc | hc
          · exact ⟨_, _, Or.inl (.snoc hc h2)⟩
          · exact ⟨_, _, Or.inr (.snoc hc h2)⟩
    have hlook : ∀ n i, b.frameIDs n = some i → b'.lookupFrameNumber n = b.lookupFrameNumber n := by
      intro n i hi
      unfold Buf.lookupFrameNumber; rw [st.hold n i hi, hi]
    have hlg : b.lookupFrameNumber target = g := by unfold Buf.lookupFrameNumber; rw [hg]; rfl
    have hls : b.lookupFrameNumber source = s := by unfold Buf.lookupFrameNumber; rw [hs]; rfl
    unfold Buf.lookupTransform Buf.validateFrameId
    rw [hlook _ _ hg, hlook _ _ hs, hlg, hls]
    simp only [ht, if_false]
    split
    · rfl
    · split
      · rfl
      · rfl
      · rename_i tid htid
        split
        · rfl
        · rfl
        · rename_i sid hsid
          have e1 : tid = g := by
            split at htid
            · cases htid
            · split at htid
              · cases htid
              · split at htid
                · cases htid
                · injection htid with h; rw [← h]
          have e2 : sid = s := by
            split at hsid
            · cases hsid
            · split at hsid
              · cases hsid
              · split at hsid
                · cases hsid
                · injection hsid with h; rw [← h]
          subst e1 e2
          have := walkAt_congr S hS hcl TAcc.init (tgt := tid) (src := sid)
            ⟨⟨_, hs⟩, _, _, Or.inl .refl⟩ ⟨⟨_, hg⟩, _, _, Or.inr .refl⟩
          unfold Buf.walk
          rw [this]
          simp only [ht, if_false]

/-- The chain `c → a → w` at time 15 does not include `b`. -/
example : ∀ c x n, (Chain exBuf 15 4 c x n ∨ Chain exBuf 15 1 c x n) →
    exBuf.frameIDs (stripSlash ['b']) ≠ some c := by
  have hb : exBuf.frameIDs (stripSlash ['b']) = some 3 := by decide
  have key : ∀ s, s = 4 ∨ s = 1 → ∀ c x n, Chain exBuf 15 s c x n → c = 4 ∨ c = 1 ∨ c = 2 := by
    intro s hs c x n h
    induction h with
    | refl => omega
    | snoc _ hp ih =>
      rcases ih with rfl | rfl | rfl
      · have := (hp.det ex_edges.2.1).1; omega
      · have := (hp.det ex_edges.2.2.1).1; omega
      · exact absurd ⟨_, _, hp⟩ ex_edges.2.2.2
  intro c x n h heq
  rw [hb] at heq
  injection heq with heq
  rcases h with h | h
  · have := key 4 (Or.inl rfl) c x n h; omega
  · have := key 1 (Or.inr rfl) c x n h; omega

/-! ### C49 -/

/-- **C49.** For a valid message of a dynamic (or new) frame with a non-negative storage duration whose
`stamp + duration` is not representable, `setTransform` throws; the state it leaves is a reachable
one (so it satisfies every invariant above), and if the frame had data nothing changed for any
frame. -/
theorem C49_overflow [Rigid X] {D : Duration} {b : Buf X} (hr : Reachable D b) (m : Msg X) (auth : Name)
    (hv : ValidMsg m) (hbig : (TIME_MAX : Int) < m.stamp + D)
    (hdyn : ∀ i, b.frameIDs (stripSlash m.child) = some i → ¬ IsStatic b i) :
    (b.setTransform m auth false).2 = .threw ∧
    Reachable D (b.setTransform m auth false).1 ∧
    (∀ i c, b.frameIDs (stripSlash m.child) = some i → b.getFrame i = some c →
      c.listLength ≠ 0 → ∀ j, (b.setTransform m auth false).1.getFrame j = b.getFrame j) := by
  have hw := hr.wf
  obtain ⟨cid, pid, c0, c1, ir, st⟩ :=
    Buf.setTransform_step hw.names m auth false ((msgValid_iff m).2 hv)
  have hnone : timeAdd m.stamp D = none := by
    unfold timeAdd; rw [if_neg]; omega
  -- the cache is a time cache with duration D
  have hc0 : ∃ l, c0 = .dyn D l ∧ (b.getFrame cid = none → l = []) := by
    have hc0 := st.hc0
    cases hf : b.getFrame cid with
    | none =>
      rw [hf] at hc0
      simp only [Option.getD_none, Buf.newCache, Bool.false_eq_true, if_false, hw.cacheTime] at hc0
      exact ⟨[], hc0, fun _ => rfl⟩
    | some c =>
      rw [hf] at hc0
      simp only [Option.getD_some] at hc0
      have hok := hw.caches _ _ hf
      cases c with
      | dyn D' l =>
        obtain ⟨h1, _⟩ := hok
        subst h1
        exact ⟨l, hc0, fun h => by simp at h⟩
      | stat o =>
        exfalso
        have hb : b.frameIDs (stripSlash m.child) = some cid := by
          have hlt : cid < b.frameIDsReverse.length := by rw [hw.lenEq]; exact Buf.getFrame_lt hf
          have h1 := (hw.ids _ _).2 (List.getElem?_eq_getElem hlt)
          have h2 := st.hold _ _ h1
          have h3 := st.hnames.inj h2 st.hcid
          rw [h3] at h1; exact h1
        exact hdyn cid hb ⟨o, hf⟩
  obtain ⟨l, rfl, hl⟩ := hc0
  have hins := st.hins
  simp only [Buf.stripMsg, Cache.insert, Prod.mk.injEq] at hins
  have hthrew : ∀ s : Sample X, s.stamp = m.stamp → (dynInsert D l s).2 = .threw := by
    intro s hs
    cases l with
    | cons f r => simp only [dynInsert, hs, hnone]
    | nil =>
      simp [dynInsert, insertBody, pruneList, pruneRev, hs, hnone]
  have hir : ir = .threw := by rw [← hins.2]; exact hthrew _ rfl
  refine ⟨by rw [st.hres, hir]; rfl, hr.step (.set m auth false), ?_⟩
  intro i c hi hc hne j
  have hic : i = cid := by
    have h1 := st.hold _ _ hi
    have h2 := st.hcid
    simp only [Buf.stripMsg] at h2
    rw [h1] at h2; injection h2
  subst hic
  have hc' : c = .dyn D l := by
    have := st.hc0; rw [hc] at this; simpa using this.symm
  rw [st.hframes]
  split
  · rename_i he
    rw [he, hc, hc', ← hins.1]
    cases l with
    | nil => rw [hc'] at hne; simp [Cache.listLength] at hne
    | cons f r => simp only [dynInsert, hnone]
  · rfl

/-- The first message of a frame is stored although the call throws. -/
example : let b : Buf Int := Buf.init 10
    (b.setTransform (tmsg ['w'] ['a'] TIME_MAX 1) [] false).2 = .threw ∧
    (b.setTransform (tmsg ['w'] ['a'] TIME_MAX 1) [] false).1.getFrame 1 =
      some (.dyn 10 [smp TIME_MAX 2 1 1]) := by decide

end Tf2
