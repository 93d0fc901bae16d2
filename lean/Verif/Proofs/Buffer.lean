import Verif.Spec.Buffer
import Verif.Proofs.CacheQuery

namespace Tf2

variable {X : Type}

theorem ReachableCache.insert {D : Duration} {st : List (Sample X)} (h : ReachableCache D st)
    (s : Sample X) : ReachableCache D (dynInsert D st s).1 := by
  obtain ⟨ops, ho⟩ := h
  refine ⟨ops ++ [.insert s], ?_⟩
  rw [Cache.run_append, ho]; rfl

theorem ReachableCache.nil (D : Duration) : ReachableCache D ([] : List (Sample X)) := ⟨[], rfl⟩

theorem CacheOK.mono {D : Duration} {i N M : Nat} {c : Cache X} (h : CacheOK D i N c) (hNM : N ≤ M) :
    CacheOK D i M c := by
  cases c with
  | dyn D' st =>
    obtain ⟨h1, h2, h3⟩ := h
    exact ⟨h1, h2, fun s hs => by have := h3 s hs; exact ⟨by omega, this.2⟩⟩
  | stat s =>
    cases s with
    | none => exact h
    | some s => exact ⟨by have := h.1; omega, h.2⟩

/-- after `dynInsert` every element is old or the new one -/
theorem mem_dynInsert {D : Duration} {st : List (Sample X)} {s x : Sample X}
    (h : x ∈ (dynInsert D st s).1) : x ∈ st ∨ x = s := by
  have hb : x ∈ (insertBody D st s).1 → x ∈ st ∨ x = s := by
    intro h
    have key : ∀ pre post : List (Sample X), pre ++ post = st →
        x ∈ (pruneList D (pre ++ s :: post)).1 → x ∈ st ∨ x = s := by
      intro pre post hst hx
      have := (pruneList_sublist D (pre ++ s :: post)).subset hx
      simp only [List.mem_append, List.mem_cons] at this
      rw [← hst, List.mem_append]
      rcases this with h | h | h
      · exact Or.inl (Or.inl h)
      · exact Or.inr h
      · exact Or.inl (Or.inr h)
    unfold insertBody at h
    have hsplit := List.takeWhile_append_dropWhile (p := fun e : Sample X => decide (¬ e.stamp ≤ s.stamp))
      (l := st)
    simp only at h
    split at h
    · split at h
      · exact Or.inl h
      · exact key _ _ hsplit h
    · exact key _ _ hsplit h
  unfold dynInsert at h
  split at h
  · exact hb h
  · split at h
    · exact Or.inl h
    · split at h
      · exact Or.inl h
      · exact hb h

namespace Buf

theorem getFrame_append_none (fr : List (Option (Cache X))) (j : Nat) :
    ((fr ++ [none])[j]?).join = (fr[j]?).join := by
  by_cases h : j < fr.length
  · rw [List.getElem?_append_left h]
  · rw [List.getElem?_append_right (by omega), List.getElem?_eq_none (l := fr) (by omega)]
    cases hj : j - fr.length with
    | zero => simp
    | succ n => simp

theorem getFrame_lookupOrInsert (b : Buf X) (n : Name) (j : Nat) :
    (b.lookupOrInsertFrameNumber n).1.getFrame j = b.getFrame j := by
  unfold lookupOrInsertFrameNumber
  split
  · rfl
  · exact getFrame_append_none _ _

theorem getFrame_lt {b : Buf X} {i : Nat} {c : Cache X} (h : b.getFrame i = some c) :
    i < b.frames.length := by
  unfold getFrame at h
  by_cases hi : i < b.frames.length
  · exact hi
  · rw [List.getElem?_eq_none (by omega)] at h; cases h

theorem _root_.Tf2.WF.id_lt {D : Duration} {b : Buf X} (h : WF D b) {n : Name} {i : Nat}
    (hi : b.frameIDs n = some i) : i < b.frames.length := by
  rw [← h.lenEq]
  have := (h.ids n i).1 hi
  exact (List.getElem?_eq_some_iff.1 this).1

theorem lookupOrInsert_id (b : Buf X) (n : Name) :
    (b.lookupOrInsertFrameNumber n).1.frameIDs n = some (b.lookupOrInsertFrameNumber n).2 := by
  unfold lookupOrInsertFrameNumber
  split
  · assumption
  · simp

theorem lookupOrInsert_len (b : Buf X) (n : Name) :
    b.frames.length ≤ (b.lookupOrInsertFrameNumber n).1.frames.length := by
  unfold lookupOrInsertFrameNumber
  split <;> simp

theorem lookupOrInsert_old (b : Buf X) (n m : Name) {i : Nat} (h : b.frameIDs m = some i) :
    (b.lookupOrInsertFrameNumber n).1.frameIDs m = some i := by
  unfold lookupOrInsertFrameNumber
  split
  · exact h
  · rename_i hn
    simp only
    split
    · rename_i he; subst he; rw [h] at hn; cases hn
    · exact h

theorem lookupOrInsert_other (b : Buf X) {n m : Name} (h : m ≠ n) :
    (b.lookupOrInsertFrameNumber n).1.frameIDs m = b.frameIDs m := by
  unfold lookupOrInsertFrameNumber
  split
  · rfl
  · simp [h]

theorem lookupOrInsert_rev_prefix (b : Buf X) (n : Name) :
    b.frameIDsReverse <+: (b.lookupOrInsertFrameNumber n).1.frameIDsReverse := by
  unfold lookupOrInsertFrameNumber
  split
  · exact List.prefix_refl _
  · exact List.prefix_append _ _

theorem lookupOrInsert_cacheTime (b : Buf X) (n : Name) :
    (b.lookupOrInsertFrameNumber n).1.cacheTime = b.cacheTime := by
  unfold lookupOrInsertFrameNumber; split <;> rfl

theorem lookupOrInsert_authority (b : Buf X) (n : Name) :
    (b.lookupOrInsertFrameNumber n).1.authority = b.authority := by
  unfold lookupOrInsertFrameNumber; split <;> rfl

/-- The part of the invariant about names only. -/
structure NamesOK (b : Buf X) : Prop where
  lenEq : b.frameIDsReverse.length = b.frames.length
  zero : b.frameIDsReverse[0]? = some noParentName
  ids : ∀ n i, b.frameIDs n = some i ↔ b.frameIDsReverse[i]? = some n

theorem NamesOK.lookupOrInsert {b : Buf X} (h : NamesOK b) (n : Name) :
    NamesOK (b.lookupOrInsertFrameNumber n).1 := by
  unfold lookupOrInsertFrameNumber
  split
  · exact h
  · rename_i hn
    refine ⟨by simp [h.lenEq], ?_, ?_⟩
    · have := (List.getElem?_eq_some_iff.1 h.zero).1
      simp only
      rw [List.getElem?_append_left this]; exact h.zero
    · intro m i
      simp only
      by_cases hlt : i < b.frameIDsReverse.length
      · rw [List.getElem?_append_left hlt]
        split
        · rename_i he; subst he
          rw [← h.ids, hn]
          simp only [reduceCtorEq, iff_false, Option.some.injEq]
          intro he; have := h.lenEq; omega
        · exact h.ids m i
      · by_cases heq : i = b.frameIDsReverse.length
        · subst heq
          rw [List.getElem?_append_right (Nat.le_refl _)]
          simp only [Nat.sub_self, List.getElem?_cons_zero, Option.some.injEq]
          split
          · rename_i he; subst he; simp [h.lenEq]
          · rename_i hne
            rw [h.ids m, List.getElem?_eq_none (Nat.le_refl _)]
            simp only [reduceCtorEq, false_iff]
            exact fun he => hne he.symm
        · rw [List.getElem?_eq_none (by simp; omega)]
          simp only [reduceCtorEq, iff_false]
          split
          · have := h.lenEq
            simp only [Option.some.injEq]; omega
          · rw [h.ids m, List.getElem?_eq_none (by omega)]; simp

theorem NamesOK.set_frames {b : Buf X} (h : NamesOK b) (i : Nat) (c : Option (Cache X)) :
    NamesOK { b with frames := b.frames.set i c } :=
  ⟨by simp [h.lenEq], h.zero, h.ids⟩

theorem _root_.Tf2.WF.names {D : Duration} {b : Buf X} (h : WF D b) : NamesOK b := ⟨h.lenEq, h.zero, h.ids⟩

theorem NamesOK.inj {b : Buf X} (h : NamesOK b) {m n : Name} {i : Nat} (h1 : b.frameIDs m = some i)
    (h2 : b.frameIDs n = some i) : m = n := by
  have a := (h.ids m i).1 h1
  have c := (h.ids n i).1 h2
  rw [a] at c; cases c; rfl

theorem NamesOK.id_lt {b : Buf X} (h : NamesOK b) {n : Name} {i : Nat}
    (hi : b.frameIDs n = some i) : i < b.frames.length := by
  rw [← h.lenEq]
  exact (List.getElem?_eq_some_iff.1 ((h.ids n i).1 hi)).1

theorem getFrame_set (fr : List (Option (Cache X))) (i j : Nat) (c : Option (Cache X))
    (hi : i < fr.length) : ((fr.set i c)[j]?).join = if j = i then c else (fr[j]?).join := by
  rw [List.getElem?_set]
  by_cases h : i = j
  · subst h; simp [hi]
  · simp only [h, if_false]
    rw [if_neg (fun h' => h h'.symm)]

/-- The outcome of `setTransform` for an outcome of `insertData`. -/
def SetRes.ofInsert : InsertRes → SetRes
  | .accepted => .accepted
  | .tooOld => .tooOld
  | .repeated => .repeated
  | .threw => .threw

/-- A description of a `setTransform` that passes validation. -/
structure SetStep [Rigid X] (b b' : Buf X) (m : Msg X) (isStatic : Bool) (r : SetRes)
    (cid pid : Nat) (c0 c1 : Cache X) (ir : InsertRes) : Prop where
  hc0 : c0 = (b.getFrame cid).getD (b.newCache isStatic)
  hins : c0.insert { stamp := m.stamp, parent := pid, child := cid, xf := m.xf } = (c1, ir)
  hres : r = SetRes.ofInsert ir
  hframes : ∀ j, b'.getFrame j = if j = cid then some c1 else b.getFrame j
  hcid : b'.frameIDs m.child = some cid
  hpid : b'.frameIDs m.parent = some pid
  hnames : NamesOK b'
  hlen : b.frames.length ≤ b'.frames.length
  hold : ∀ n i, b.frameIDs n = some i → b'.frameIDs n = some i
  hnew : ∀ n, n ≠ m.child → n ≠ m.parent → b'.frameIDs n = b.frameIDs n
  hrev : b'.frameIDsReverse = ((b.lookupOrInsertFrameNumber m.child).1.lookupOrInsertFrameNumber
      m.parent).1.frameIDsReverse
  hcacheTime : b'.cacheTime = b.cacheTime

theorem lookupOrInsert_set (b : Buf X) (i : Nat) (c : Option (Cache X)) (hi : i < b.frames.length)
    (n : Name) :
    lookupOrInsertFrameNumber { b with frames := b.frames.set i c } n =
      ({ (b.lookupOrInsertFrameNumber n).1 with
          frames := (b.lookupOrInsertFrameNumber n).1.frames.set i c },
        (b.lookupOrInsertFrameNumber n).2) := by
  unfold lookupOrInsertFrameNumber
  simp only
  cases b.frameIDs n with
  | some j => rfl
  | none =>
    simp only [List.length_set]
    rw [List.set_append_left _ _ hi]

theorem setTransform_step [Rigid X] {b : Buf X} (h : NamesOK b) (msg : Msg X) (auth : Name)
    (isStatic : Bool) (hv : msgValid (stripMsg msg) = true) :
    ∃ cid pid c0 c1 ir,
      SetStep b (b.setTransform msg auth isStatic).1 (stripMsg msg) isStatic
        (b.setTransform msg auth isStatic).2 cid pid c0 c1 ir := by
  generalize hm : stripMsg msg = m at *
  have hne : m.child ≠ m.parent := by
    intro he; simp [msgValid, he] at hv
  -- names
  have hb1 := h.lookupOrInsert m.child
  have hb3 := hb1.lookupOrInsert m.parent
  generalize h1 : b.lookupOrInsertFrameNumber m.child = r1 at *
  obtain ⟨b1, cid⟩ := r1
  have hcid : b1.frameIDs m.child = some cid := by
    have := lookupOrInsert_id b m.child; rw [h1] at this; exact this
  have hcidlt : cid < b1.frames.length := hb1.id_lt hcid
  have hf1 : ∀ j, b1.getFrame j = b.getFrame j := by
    intro j; have := getFrame_lookupOrInsert b m.child j; rw [h1] at this; exact this
  generalize h3 : b1.lookupOrInsertFrameNumber m.parent = r3 at *
  obtain ⟨b3, pid⟩ := r3
  have hpid : b3.frameIDs m.parent = some pid := by
    have := lookupOrInsert_id b1 m.parent; rw [h3] at this; exact this
  have hcid3 : b3.frameIDs m.child = some cid := by
    have := lookupOrInsert_old b1 m.parent m.child hcid; rw [h3] at this; exact this
  have hlen13 : b1.frames.length ≤ b3.frames.length := by
    have := lookupOrInsert_len b1 m.parent; rw [h3] at this; exact this
  have hlen01 : b.frames.length ≤ b1.frames.length := by
    have := lookupOrInsert_len b m.child; rw [h1] at this; exact this
  have hf3 : ∀ j, b3.getFrame j = b.getFrame j := by
    intro j; have := getFrame_lookupOrInsert b1 m.parent j; rw [h3] at this
    exact this.trans (hf1 j)
  have hct1 : b1.cacheTime = b.cacheTime := by
    have := lookupOrInsert_cacheTime b m.child; rw [h1] at this; exact this
  have hct3 : b3.cacheTime = b1.cacheTime := by
    have := lookupOrInsert_cacheTime b1 m.parent; rw [h3] at this; exact this
  have hnc : b1.newCache isStatic = b.newCache isStatic := by unfold newCache; rw [hct1]
  let c0 := (b.getFrame cid).getD (b.newCache isStatic)
  let ins := c0.insert { stamp := m.stamp, parent := pid, child := cid, xf := m.xf }
  refine ⟨cid, pid, c0, ins.1, ins.2, ?_⟩
  have hset := lookupOrInsert_set b1 cid (some c0) hcidlt m.parent
  rw [h3] at hset
  have hbig : b.setTransform msg auth isStatic =
      (match ins.2 with
      | .accepted => ({ b3 with
          frames := b3.frames.set cid (some ins.1)
          authority := fun i => if i = cid then some auth else b3.authority i }, .accepted)
      | .tooOld => ({ b3 with frames := b3.frames.set cid (some ins.1) }, .tooOld)
      | .repeated => ({ b3 with frames := b3.frames.set cid (some ins.1) }, .repeated)
      | .threw => ({ b3 with frames := b3.frames.set cid (some ins.1) }, .threw)) := by
    unfold setTransform
    rw [hm]
    simp only [hv, if_true, h1, hf1, hnc]
    rw [show (b.getFrame cid).getD (b.newCache isStatic) = c0 from rfl, hset]
    simp only [hcidlt, if_true, List.set_set]
    rfl
  have hframes : ∀ j, (((b3.frames.set cid (some ins.1))[j]?).join : Option (Cache X)) =
      if j = cid then some ins.1 else b.getFrame j := by
    intro j
    rw [getFrame_set _ _ _ _ (by omega)]
    split
    · rfl
    · exact hf3 j
  have hnames := hb3.set_frames cid (some ins.1)
  have hold : ∀ n i, b.frameIDs n = some i → b3.frameIDs n = some i := by
    intro n i hn
    have h' := lookupOrInsert_old b m.child n hn
    rw [h1] at h'
    have := lookupOrInsert_old b1 m.parent n h'
    rw [h3] at this; exact this
  have hnew : ∀ n, n ≠ m.child → n ≠ m.parent → b3.frameIDs n = b.frameIDs n := by
    intro n hn1 hn2
    have a := lookupOrInsert_other b hn1
    have c := lookupOrInsert_other b1 hn2
    rw [h1] at a; rw [h3] at c
    exact c.trans a
  rw [hbig]
  have hmk : ∀ (b' : Buf X) (r : SetRes), b'.frames = b3.frames.set cid (some ins.1) →
      b'.frameIDs = b3.frameIDs → b'.frameIDsReverse = b3.frameIDsReverse →
      b'.cacheTime = b3.cacheTime →
      (r = SetRes.ofInsert ins.2) →
      SetStep b b' m isStatic r cid pid c0 ins.1 ins.2 := by
    intro b' r e1 e2 e3 e4 e5
    refine ⟨rfl, rfl, e5, ?_, ?_, ?_, ?_, ?_, ?_, ?_, ?_, ?_⟩
    · intro j; unfold getFrame; rw [e1]; exact hframes j
    · rw [e2]; exact hcid3
    · rw [e2]; exact hpid
    · exact ⟨by rw [e3, e1]; simp [hb3.lenEq], by rw [e3]; exact hb3.zero,
        by rw [e2, e3]; exact hb3.ids⟩
    · rw [e1]; simp; omega
    · rw [e2]; exact hold
    · rw [e2]; exact hnew
    · rw [e3, h1, h3]
    · rw [e4, hct3, hct1]
  generalize hir : ins.2 = ir at *
  cases ir <;> exact hmk _ _ rfl rfl rfl rfl rfl

theorem setTransform_invalid [Rigid X] {b : Buf X} {msg : Msg X} {auth : Name}
    {isStatic : Bool} (hv : msgValid (stripMsg msg) = false) :
    b.setTransform msg auth isStatic = (b, .invalid) := by
  unfold setTransform; simp [hv]

theorem _root_.Tf2.WF.init (D : Duration) : WF D (Buf.init D : Buf X) where
  cacheTime := rfl
  lenEq := rfl
  zero := rfl
  ids := by
    intro n i
    simp only [Buf.init]
    cases i with
    | zero => simp [eq_comm]
    | succ i => simp
  caches := by
    intro i c h
    unfold getFrame at h
    simp only [Buf.init] at h
    cases i <;> simp at h

theorem _root_.Tf2.CacheOK.insert {D : Duration} {i N : Nat} {c : Cache X} (h : CacheOK D i N c)
    {s : Sample X} (hp : s.parent < N) (hpi : s.parent ≠ i) (hc : s.child = i) :
    CacheOK D i N (c.insert s).1 := by
  cases c with
  | dyn D' st =>
    obtain ⟨rfl, h2, h3⟩ := h
    refine ⟨rfl, h2.insert s, ?_⟩
    intro x hx
    rcases mem_dynInsert hx with hx | rfl
    · exact h3 x hx
    · exact ⟨hp, hpi, hc⟩
  | stat o => exact ⟨hp, hpi, hc⟩

theorem _root_.Tf2.WF.setTransform [Rigid X] {D : Duration} {b : Buf X} (h : WF D b) (msg : Msg X)
    (auth : Name) (isStatic : Bool) : WF D (b.setTransform msg auth isStatic).1 := by
  cases hv : msgValid (stripMsg msg) with
  | false => rw [setTransform_invalid hv]; exact h
  | true =>
    obtain ⟨cid, pid, c0, c1, ir, st⟩ := setTransform_step h.names msg auth isStatic hv
    have hne : (stripMsg msg).child ≠ (stripMsg msg).parent := by
      intro he; simp [msgValid, he] at hv
    refine ⟨st.hcacheTime.trans h.cacheTime, st.hnames.lenEq, st.hnames.zero, st.hnames.ids, ?_⟩
    intro i c hc
    rw [st.hframes] at hc
    split at hc
    · rename_i he; subst he
      injection hc with hc; subst hc
      have hpl : pid < (b.setTransform msg auth isStatic).1.frames.length := st.hnames.id_lt st.hpid
      have hpi : pid ≠ i := by
        intro he; subst he
        exact hne (st.hnames.inj st.hcid st.hpid)
      have e : c1 = (c0.insert { stamp := (stripMsg msg).stamp, parent := pid, child := i, xf := (stripMsg msg).xf }).1 := by rw [st.hins]
      rw [e]
      cases hg : b.getFrame i with
      | some c =>
        have : c0 = c := by rw [st.hc0, hg]; rfl
        rw [this]
        exact ((h.caches i c hg).mono st.hlen).insert hpl hpi rfl
      | none =>
        have : c0 = b.newCache isStatic := by rw [st.hc0, hg]; rfl
        rw [this]
        unfold newCache
        cases isStatic
        · simp only [Bool.false_eq_true, if_false]
          have hn : CacheOK D i (b.setTransform msg auth false).1.frames.length
              (Cache.dyn b.cacheTime [] : Cache X) :=
            ⟨h.cacheTime, by exact ReachableCache.nil _, fun s hs => by cases hs⟩
          exact hn.insert hpl hpi rfl
        · exact ⟨hpl, hpi, rfl⟩
    · exact (h.caches i c hc).mono st.hlen

theorem getFrame_clear (b : Buf X) (i : Nat) :
    b.clear.getFrame i = if i = 0 then b.getFrame 0 else (b.getFrame i).map Cache.clearList := by
  unfold getFrame clear
  simp only
  cases hf : b.frames with
  | nil => cases i <;> simp
  | cons a r =>
    cases i with
    | zero => simp
    | succ i =>
      simp only [List.take_succ_cons, List.take_zero, List.drop_succ_cons, List.drop_zero,
        List.cons_append, List.nil_append, List.getElem?_cons_succ, List.getElem?_map]
      simp only [Nat.add_eq_zero_iff, Nat.succ_ne_self, and_false, if_false]
      cases r[i]? with
      | none => rfl
      | some o => cases o <;> rfl

theorem _root_.Tf2.WF.clear {D : Duration} {b : Buf X} (h : WF D b) : WF D b.clear := by
  have hlen : b.clear.frames.length = b.frames.length := by
    unfold Buf.clear; simp; omega
  refine ⟨h.cacheTime, by rw [hlen]; exact h.lenEq, h.zero, h.ids, ?_⟩
  intro i c hc
  rw [getFrame_clear] at hc
  rw [hlen]
  split at hc
  · rename_i he; subst he; exact h.caches 0 c hc
  · cases hg : b.getFrame i with
    | none => rw [hg] at hc; cases hc
    | some c' =>
      rw [hg] at hc
      injection hc with hc; subst hc
      have := h.caches i c' hg
      cases c' with
      | dyn D' st => exact ⟨this.1, ReachableCache.nil D, fun s hs => by cases hs⟩
      | stat s => exact this

theorem _root_.Tf2.WF.step [Rigid X] {D : Duration} {b : Buf X} (h : WF D b) (op : Op X) : WF D (b.step op) := by
  cases op with
  | set m a s => exact WF.setTransform h m a s
  | clear => exact WF.clear h

theorem _root_.Tf2.WF.run [Rigid X] {D : Duration} {b : Buf X} (h : WF D b) (ops : List (Op X)) :
    WF D (b.run ops) := by
  unfold Buf.run
  induction ops generalizing b with
  | nil => exact h
  | cons o r ih => exact ih (WF.step h o)

end Buf

theorem Reachable.wf [Rigid X] {D : Duration} {b : Buf X} (h : Reachable D b) : WF D b := by
  obtain ⟨ops, rfl⟩ := h
  exact WF.run (WF.init D) ops

theorem Reachable.init [Rigid X] (D : Duration) : Reachable D (Buf.init D : Buf X) := ⟨[], rfl⟩

theorem Reachable.step [Rigid X] {D : Duration} {b : Buf X} (h : Reachable D b) (op : Op X) :
    Reachable D (b.step op) := by
  obtain ⟨ops, rfl⟩ := h
  exact ⟨ops ++ [op], by simp [Buf.run]⟩

end Tf2
