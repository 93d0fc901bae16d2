import Verif.Proofs.SameData

/-!
# C86: only the data counts

Order of delivery, repetitions, refused and expired messages leave no trace.
-/
namespace Tf2

variable {X : Type} [Rigid X]

theorem listedAs_iso {π : Nat → Nat} {b b' : Buf X} (I : BufIso π b b')
    (hids : ∀ n i, b.frameIDs n = some i → b'.frameIDs n = some (π i)) {n q : Name} (hl : ListedAs b n q) :
    ListedAs b' n q := by
  obtain ⟨i, c, hf, hc, hd⟩ := hl
  refine ⟨_, c.rename _, ⟨I.ne0 hf.1, hids _ _ hf.2⟩, by rw [I.frame, hc]; rfl, ?_⟩
  rcases hd with ⟨s, h1, h2⟩ | ⟨h1, h2⟩
  · refine Or.inl ⟨s.rename π, ?_, hids _ _ h2⟩
    rw [getData_rename I.inj, h1]; rfl
  · refine Or.inr ⟨?_, h2⟩
    rw [getData_rename I.inj, h1]; rfl

theorem setResult_iso {D : Duration} {π : Nat → Nat} {b b' : Buf X} (hw : WF D b) (hw' : WF D b') (I : BufIso π b b')
    (hids : ∀ n i, b.frameIDs n = some i → b'.frameIDs n = some (π i))
    (hnone : ∀ n, b.frameIDs n = none → b'.frameIDs n = none) (m : Msg X) (a : Name) (s : Bool) :
    (b'.setTransform m a s).2 = (b.setTransform m a s).2 := by
  by_cases hv : ValidMsg m
  · obtain ⟨cid, pid, c0, c1, ir, st⟩ := Buf.setTransform_step hw.names m a s ((msgValid_iff m).2 hv)
    obtain ⟨cid', pid', c0', c1', ir', st'⟩ := Buf.setTransform_step hw'.names m a s ((msgValid_iff m).2 hv)
    have hw1 : WF D (b.setTransform m a s).1 := hw.step (.set m a s)
    have hw1' : WF D (b'.setTransform m a s).1 := hw'.step (.set m a s)
    have hc : c0' = c0.rename π := by
      rw [st.hc0, st'.hc0]
      have hnew : b'.newCache s = (b.newCache s).rename π := by
        unfold Buf.newCache
        rw [hw.cacheTime, hw'.cacheTime]
        cases s <;> rfl
      cases hi : b.frameIDs (Buf.stripMsg m).child with
      | some i =>
        have e1 := st.hold _ _ hi
        rw [st.hcid] at e1; injection e1 with e1; subst e1
        have e2 := st'.hold _ _ (hids _ _ hi)
        rw [st'.hcid] at e2; injection e2 with e2
        rw [e2, I.frame, hnew]
        cases b.getFrame cid <;> rfl
      | none =>
        rw [getFrame_fresh hw hw1 st.hold hi st.hcid, getFrame_fresh hw' hw1' st'.hold (hnone _ hi) st'.hcid, hnew]
        rfl
    rw [st.hres, st'.hres]
    have e1 := congrArg Prod.snd st.hins
    have e2 := congrArg Prod.snd st'.hins
    rw [hc, insert_result (p := pid) (q := cid)] at e2
    simp only at e1 e2
    rw [← e1, ← e2]
  · rw [Buf.setTransform_invalid (msgValid_false hv), Buf.setTransform_invalid (msgValid_false hv)]

/-- **C86.** Two histories with the same data (see `SameData`: same frames, same kinds, same last static messages, same
messages that count for the dynamic frames) leave buffers that no query by name can tell apart. -/
theorem C86_same_data {D : Duration} {ops ops' : List (Op X)} (hreg : Regular D ops) (hreg' : Regular D ops')
    (h : SameData D ops ops') : Indistinguishable ((Buf.init D).run ops) ((Buf.init D).run ops') := by
  obtain ⟨I, hids⟩ := sameData_iso hreg hreg' h
  obtain ⟨I', hids'⟩ := sameData_iso hreg' hreg h.symm
  have hw : WF D ((Buf.init D : Buf X).run ops) := WF.run (WF.init D) ops
  have hw' : WF D ((Buf.init D : Buf X).run ops') := WF.run (WF.init D) ops'
  refine ⟨lookupTransform_rename I, lookupTransform5_rename I, canTransform_rename I, canTransform5_rename I,
    bufGetParent_rename I, chainAsVector_rename I, ?_, ?_, ?_, setResult_iso hw hw' I hids ?_⟩
  · intro n
    refine Bool.eq_iff_iff.2 ?_
    rw [(C36_frame_strings D _).2.2.2 n, (C36_frame_strings D _).2.2.2 n, h.known n]
  · refine (List.perm_ext_iff_of_nodup (C36_frame_strings D _).2.1 (C36_frame_strings D _).2.1).2 ?_
    intro n
    rw [(C36_frame_strings D _).2.2.1, (C36_frame_strings D _).2.2.1, h.known n]
  · obtain ⟨L, h1, h2, _, h3⟩ := C36_all_frames (D := D) ⟨ops, rfl⟩
    obtain ⟨L', h1', h2', _, h3'⟩ := C36_all_frames (D := D) ⟨ops', rfl⟩
    refine ⟨L, L', h1, h1', ?_⟩
    have nd : ∀ {L : List (Name × Name)}, (L.map Prod.fst).Nodup → L.Nodup := by
      intro L hl
      unfold List.Nodup at *
      exact List.Pairwise.imp (fun hne e => hne (by rw [e])) (List.pairwise_map.1 hl)
    refine (List.perm_ext_iff_of_nodup (nd h3') (nd h3)).2 ?_
    rintro ⟨n, q⟩
    rw [h2, h2']
    exact ⟨listedAs_iso I' hids', listedAs_iso I hids⟩
  · intro n hn
    cases hj : ((Buf.init D : Buf X).run ops').frameIDs n with
    | none => rfl
    | some j => rw [hids' _ _ hj] at hn; cases hn

/-- **C86, for ever.** Whatever is done next to both, histories with the same data keep having the same data. -/
theorem C86_congruence {D : Duration} (hD : 0 ≤ D) {ops ops' : List (Op X)} (h : SameData D ops ops')
    (more : List (Op X)) : SameData D (ops ++ more) (ops' ++ more) := by
  induction more generalizing ops ops' with
  | nil => simpa using h
  | cons x r ih =>
    have := ih (h.snoc hD x)
    simpa [List.append_assoc] using this

theorem Regular.of_mem {D : Duration} {ops ops' : List (Op X)} (h : Regular D ops) (hs : ∀ x ∈ ops', x ∈ ops) :
    Regular D ops' :=
  ⟨h.dur, fun m a s hm hv => h.range m a s (hs _ hm) hv, fun m a s hm hv => h.names m a s (hs _ hm) hv⟩

/-- **C86, a message that does not count.** At any point of a history leave out a `setTransform` that is refused as
malformed, or that repeats the stamp of an earlier message for the same dynamic frame or is older than one by more than
the cache duration (and names a known parent): no query later on, after any further calls, can tell. -/
theorem C86_drop {D : Duration} {pre post : List (Op X)} {m : Msg X} {a : Name} {s : Bool}
    (hreg : Regular D (pre ++ .set m a s :: post))
    (hm : ¬ ValidMsg m ∨ (kindOf (stripSlash m.child) pre = some false ∧ stripSlash m.parent ∈ mentions pre ∧
      ∃ c ∈ recentFor (stripSlash m.child) pre [], c.stamp = m.stamp ∨ (m.stamp : Int) + D < c.stamp)) :
    Indistinguishable ((Buf.init D).run (pre ++ post)) ((Buf.init D).run (pre ++ .set m a s :: post)) := by
  have hreg' : Regular D (pre ++ post) := hreg.of_mem (by
    intro x hx
    rcases List.mem_append.1 hx with h | h <;> simp [h])
  refine C86_same_data hreg' hreg ?_
  have key : SameData D pre (pre ++ [.set m a s]) := by
    by_cases hv : ValidMsg m
    · rcases hm with h | ⟨hk, hp, c, hc, hcs⟩
      · exact absurd hv h
      · obtain ⟨m0, r, h0⟩ := kindOf_some hk
        have hch : stripSlash m.child ∈ mentions pre :=
          (offersFor_mentions (by rw [h0]; exact List.mem_cons_self ..)).1
        have hkind : ∀ n, kindOf n pre = kindOf n (pre ++ [.set m a s]) := by
          intro n
          by_cases hn : stripSlash m.child = n
          · subst hn
            rw [hk]
            unfold kindOf
            rw [offersFor_append, h0]; rfl
          · unfold kindOf
            rw [offersFor_append]
            simp [offersFor, hn]
        refine ⟨?_, hkind, ?_, ?_⟩
        · intro n
          rw [mentions_append, List.mem_append]
          refine ⟨Or.inl, ?_⟩
          rintro (h | h)
          · exact h
          · simp only [mentions, if_pos hv, List.mem_cons, List.not_mem_nil, or_false] at h
            rcases h with rfl | rfl
            · exact hch
            · exact hp
        · intro n hkn
          have hn : stripSlash m.child ≠ n := by
            rintro rfl
            rw [hk] at hkn; cases hkn
          rw [offersFor_append]
          simp [offersFor, hn]
        · intro n hkn v
          by_cases hn : stripSlash m.child = n
          · subst hn
            have er : recentFor (stripSlash m.child) (pre ++ [.set m a s]) [] =
                recentFor (stripSlash m.child) pre [] ++ [m] := by
              rw [recentFor_append]; simp [recentFor, hv]
            have hone : ∀ k, Effective D (pre ++ [.set m a s]) (stripSlash m.child) k ↔
                Effective D pre (stripSlash m.child) k := by
              intro k
              rw [effective_snoc hreg.dur er k]
              constructor
              · rintro (h | ⟨rfl, h⟩)
                · exact h.1
                · exfalso
                  obtain ⟨z, hz, hmax⟩ := exists_newest_msg _ (List.ne_nil_of_mem hc)
                  have hD := hreg.dur
                  obtain ⟨e, he, hes⟩ := effective_of_mem (D := D) hz (by
                    intro c hc; have := hmax c hc; omega)
                  have h1 := (h e he).2
                  have h2 := hmax c hc
                  rcases hcs with hcs | hcs
                  · obtain ⟨e', he', hes'⟩ := effective_of_mem (D := D) hc (by
                      intro d hd; have := hmax d hd; omega)
                    exact (h e' he').1 (by omega)
                  · omega
              · intro h
                refine Or.inl ⟨h, ?_⟩
                have h1 := h.2 c hc
                have hD := hreg.dur
                rcases hcs with hcs | hcs <;> omega
            exact ⟨fun ⟨k, h1, h2⟩ => ⟨k, (hone k).2 h1, h2⟩, fun ⟨k, h1, h2⟩ => ⟨k, (hone k).1 h1, h2⟩⟩
          · have er : recentFor n (pre ++ [.set m a s]) [] = recentFor n pre [] := by
              rw [recentFor_append]; simp [recentFor, hn]
            unfold Effective
            rw [er]
    · have e1 : ∀ n, offersFor n (pre ++ [.set m a s]) = offersFor n pre := by
        intro n; rw [offersFor_append]; simp [offersFor, hv]
      have e2 : ∀ n, recentFor n (pre ++ [.set m a s]) [] = recentFor n pre [] := by
        intro n; rw [recentFor_append]; simp [recentFor, hv]
      have e3 : mentions (pre ++ [.set m a s]) = mentions pre := by
        rw [mentions_append]; simp [mentions, hv]
      refine ⟨fun n => by rw [e3], fun n => by unfold kindOf; rw [e1], fun n _ => by rw [e1], fun n _ v => ?_⟩
      unfold Effective
      rw [e2]
  have := C86_congruence hreg.dur key post
  simpa [List.append_assoc] using this

theorem offersFor_iff {n : Name} {ops : List (Op X)} {m : Msg X} {s : Bool} :
    (m, s) ∈ offersFor n ops ↔ Delivered ops m s ∧ stripSlash m.child = n := by
  constructor
  · intro h
    obtain ⟨h1, h2, h3⟩ := offersFor_mem h
    exact ⟨⟨h1, h2⟩, h3⟩
  · rintro ⟨⟨⟨a, ha⟩, hv⟩, hc⟩
    induction ops with
    | nil => cases ha
    | cons x r ih =>
      rcases List.mem_cons.1 ha with rfl | ha
      · simp [offersFor, hv, hc]
      · have := ih ha
        cases x with
        | clear => exact this
        | set m' a' s' =>
          simp only [offersFor]
          split
          · exact List.mem_cons_of_mem _ this
          · exact this

theorem recentFor_offers {n : Name} {ops : List (Op X)} (hc : Op.clear ∉ ops) : ∀ acc,
    recentFor n ops acc = acc ++ (offersFor n ops).map Prod.fst := by
  induction ops with
  | nil => intro acc; simp [recentFor, offersFor]
  | cons x r ih =>
    intro acc
    cases x with
    | clear => exact absurd (List.mem_cons_self ..) hc
    | set m a s =>
      have ih := ih (fun h => hc (List.mem_cons_of_mem _ h))
      simp only [recentFor, offersFor]
      split
      · rw [ih]; simp
      · exact ih acc

/-- **C86, delivery.** Two histories without `clear` that deliver the same acceptable messages, whatever the order and
however often each, leave buffers that no query can tell apart, provided the messages do not contradict each other. -/
theorem C86_delivery {D : Duration} {ops ops' : List (Op X)} (hreg : Regular D ops) (hreg' : Regular D ops')
    (hc : Op.clear ∉ ops) (hc' : Op.clear ∉ ops') (hcons : Consistent ops)
    (hsame : ∀ m s, Delivered ops m s ↔ Delivered ops' m s) :
    Indistinguishable ((Buf.init D).run ops) ((Buf.init D).run ops') := by
  have hcons' : Consistent ops' := fun m s m' s' h1 h2 => hcons m s m' s' ((hsame _ _).2 h1) ((hsame _ _).2 h2)
  have hoff : ∀ n e, e ∈ offersFor n ops ↔ e ∈ offersFor n ops' := by
    rintro n ⟨m, s⟩
    rw [offersFor_iff, offersFor_iff, hsame]
  have kind_of : ∀ {ops : List (Op X)}, Consistent ops → ∀ n m s, (m, s) ∈ offersFor n ops →
      kindOf n ops = some s := by
    intro ops hcons n m s h
    unfold kindOf
    cases ho : offersFor n ops with
    | nil => rw [ho] at h; cases h
    | cons e r =>
      obtain ⟨m', s'⟩ := e
      have h' : (m', s') ∈ offersFor n ops := by rw [ho]; exact List.mem_cons_self ..
      have h1 := offersFor_iff.1 h
      have h2 := offersFor_iff.1 h'
      have := (hcons _ _ _ _ h2.1 h1.1 (h2.2.trans h1.2.symm)).1
      simp [this]
  have nil_of : ∀ {ops : List (Op X)} {n : Name}, (∀ e, e ∉ offersFor n ops) → offersFor n ops = [] :=
    fun h => List.eq_nil_iff_forall_not_mem.2 h
  have kind_none : ∀ {ops : List (Op X)} {n : Name}, offersFor n ops = [] → kindOf n ops = none := by
    intro ops n h; unfold kindOf; rw [h]; rfl
  have static_of : ∀ {ops : List (Op X)}, Consistent ops → ∀ n m, (m, true) ∈ offersFor n ops →
      (offersFor n ops).getLast?.map (fun e => e.1.gist) = some m.gist := by
    intro ops hcons n m h
    cases hl : (offersFor n ops).getLast? with
    | none => rw [List.getLast?_eq_none_iff.1 hl] at h; cases h
    | some e =>
      obtain ⟨m', s'⟩ := e
      have h1 := offersFor_iff.1 h
      have h2 := offersFor_iff.1 (List.mem_of_getLast? hl)
      have := (hcons _ _ _ _ h1.1 h2.1 (h1.2.trans h2.2.symm)).2.1 rfl
      simp [this]
  have eff_of : ∀ {ops : List (Op X)}, Op.clear ∉ ops → Consistent ops → ∀ n m, Effective D ops n m ↔
      (∃ s, (m, s) ∈ offersFor n ops) ∧ ∀ c s, (c, s) ∈ offersFor n ops → (c.stamp : Int) ≤ m.stamp + D := by
    intro ops hc hcons n m
    unfold Effective
    have e := recentFor_offers (n := n) hc []
    rw [List.nil_append] at e
    rw [e]
    constructor
    · rintro ⟨h1, h2⟩
      obtain ⟨⟨m', s⟩, hm, rfl⟩ := List.mem_map.1 (List.mem_of_find?_eq_some h1)
      exact ⟨⟨s, hm⟩, fun c s hcs => h2 c (List.mem_map.2 ⟨_, hcs, rfl⟩)⟩
    · rintro ⟨⟨s, hm⟩, h2⟩
      refine ⟨?_, ?_⟩
      · cases hf : ((offersFor n ops).map Prod.fst).find? (fun c => c.stamp == m.stamp) with
        | none =>
          have := List.find?_eq_none.1 hf m (List.mem_map.2 ⟨_, hm, rfl⟩)
          simp at this
        | some c =>
          have hs := List.find?_some hf
          simp only [beq_iff_eq] at hs
          obtain ⟨⟨c', s'⟩, hm', rfl⟩ := List.mem_map.1 (List.mem_of_find?_eq_some hf)
          have h1 := offersFor_iff.1 hm
          have h3 := offersFor_iff.1 hm'
          rw [(hcons _ _ _ _ h3.1 h1.1 (h3.2.trans h1.2.symm)).2.2 hs]
      · intro c hcs
        obtain ⟨⟨c', s'⟩, hm', rfl⟩ := List.mem_map.1 hcs
        exact h2 _ _ hm'
  have hkind : ∀ n, kindOf n ops = kindOf n ops' := by
    intro n
    cases ho : offersFor n ops with
    | nil =>
      have : offersFor n ops' = [] := nil_of (fun e he => by
        have := (hoff n e).2 he; rw [ho] at this; cases this)
      rw [kind_none ho, kind_none this]
    | cons e r =>
      obtain ⟨m, s⟩ := e
      have h1 : (m, s) ∈ offersFor n ops := by rw [ho]; exact List.mem_cons_self ..
      rw [kind_of hcons n m s h1, kind_of hcons' n m s ((hoff n _).1 h1)]
  refine C86_same_data hreg hreg' ⟨?_, hkind, ?_, ?_⟩
  · have ment : ∀ {o : List (Op X)} {n : Name}, n ∈ mentions o ↔
        ∃ m s, Delivered o m s ∧ (n = stripSlash m.child ∨ n = stripSlash m.parent) := by
      intro o n
      rw [mem_mentions]
      exact ⟨fun ⟨m, a, s, h1, h2, h3⟩ => ⟨m, s, ⟨⟨a, h1⟩, h2⟩, h3⟩,
        fun ⟨m, s, ⟨⟨a, h1⟩, h2⟩, h3⟩ => ⟨m, a, s, h1, h2, h3⟩⟩
    intro n
    rw [ment, ment]
    simp only [hsame]
  · intro n hk
    obtain ⟨m, r, ho⟩ := kindOf_some hk
    have h1 : (m, true) ∈ offersFor n ops := by rw [ho]; exact List.mem_cons_self ..
    rw [static_of hcons n m h1, static_of hcons' n m ((hoff n _).1 h1)]
  · intro n _ v
    simp only [eff_of hc hcons, eff_of hc' hcons', hoff]

/-! ### Examples -/

/-- The messages of the example history, in another order, some twice. -/
def againOps : List (Op Int) :=
  [put ['z'] ['y'] 20 6, put ['a'] ['b'] 18 200, put ['w'] ['a'] 20 3, put ['w'] ['a'] 20 3, put ['a'] ['/', 'c'] 0 1000 true,
   put ['/', 'a'] ['b'] 12 100, put ['w'] ['a'] 10 1, put ['z'] ['y'] 10 5, put ['a'] ['/', 'c'] 0 1000 true]

theorem again_mem (x : Op Int) : x ∈ againOps ↔ x ∈ exOps := by
  simp only [againOps, exOps, List.mem_cons, List.not_mem_nil, or_false]
  grind

theorem exOps_consistent : Consistent exOps := by
  rintro m s m' s' ⟨⟨a, h⟩, _⟩ ⟨⟨a', h'⟩, _⟩
  simp only [exOps, put, List.mem_cons, Op.set.injEq, List.not_mem_nil, or_false] at h h'
  rcases h with h | h | h | h | h | h | h <;> obtain ⟨rfl, _, rfl⟩ := h <;>
    rcases h' with h' | h' | h' | h' | h' | h' | h' <;> obtain ⟨rfl, _, rfl⟩ := h' <;> decide

example : Regular 100 againOps ∧ Consistent exOps ∧ (∀ m s, Delivered exOps m s ↔ Delivered againOps m s) ∧
    ((Buf.init 100).run againOps).lookupTransform ['w'] ['c'] 15 = .ok (tmsg ['w'] ['c'] 15 1002) := by
  refine ⟨exOps_regular.of_mem (fun x => (again_mem x).1), exOps_consistent, ?_, by decide⟩
  intro m s
  unfold Delivered
  simp only [again_mem]

/-- A message that does not count: `a` again at stamp 10. -/
example : kindOf (stripSlash ['a']) exOps = some false ∧ ['w'] ∈ mentions exOps ∧
    (∃ c ∈ recentFor ['a'] exOps [], c.stamp = 10 ∨ (10 : Int) + 100 < c.stamp) :=
  ⟨by decide, by decide, tmsg ['w'] ['a'] 10 1, by decide, Or.inl rfl⟩

/-- **C86 (finding).** Consistency is needed: if two different messages for a frame have the same stamp, the first one to
arrive wins for ever (in `a`); and a frame that is sent both ways stays what it was sent as first (`s`), so delivery order
decides what lookups return. -/
theorem C86_conflict_finding :
    ∃ ops ops' : List (Op Int), Regular 100 ops ∧ (∀ x, x ∈ ops ↔ x ∈ ops') ∧ Op.clear ∉ ops ∧
      ((Buf.init 100).run ops).lookupTransform ['w'] ['a'] 10 = .ok (tmsg ['w'] ['a'] 10 1) ∧
      ((Buf.init 100).run ops').lookupTransform ['w'] ['a'] 10 = .ok (tmsg ['w'] ['a'] 10 2) ∧
      ((Buf.init 100).run ops).lookupTransform ['w'] ['s'] 50 = .ok (tmsg ['w'] ['s'] 50 8) ∧
      ((Buf.init 100).run ops').lookupTransform ['w'] ['s'] 50 = .throw .extrapolation := by
  refine ⟨[put ['w'] ['a'] 10 1, put ['w'] ['a'] 10 2, put ['w'] ['s'] 10 7 true, put ['w'] ['s'] 20 8],
    [put ['w'] ['a'] 10 2, put ['w'] ['a'] 10 1, put ['w'] ['s'] 20 8, put ['w'] ['s'] 10 7 true], ?_, ?_, ?_,
    by decide, by decide, by decide, by decide⟩
  · refine ⟨by decide, ?_, ?_⟩ <;> intro m a s h _ <;>
      simp only [put, List.mem_cons, Op.set.injEq, List.not_mem_nil, or_false] at h <;>
      rcases h with h | h | h | h <;> obtain ⟨rfl, _, _⟩ := h <;> decide
  · intro x
    simp only [List.mem_cons, List.not_mem_nil, or_false]
    grind
  · simp [put]

end Tf2
