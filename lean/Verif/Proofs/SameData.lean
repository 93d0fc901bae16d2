import Verif.Spec.SameData
import Verif.Props.Order
import Verif.Props.Denote

/-! # Lemmas: histories with the same data give isomorphic buffers -/
namespace Tf2

variable {X : Type} [Rigid X]

theorem content_iso {D : Duration} {b b' : Buf X} (hw : WF D b) (hw' : WF D b')
    (hreg : ∀ n, (∃ i, b.frameIDs n = some i) ↔ (∃ i, b'.frameIDs n = some i))
    (hz : b.getFrame 0 = none) (hz' : b'.getFrame 0 = none)
    (hf : (∀ n, b'.lookupFrameNumber n = renumber b b' (b.lookupFrameNumber n)) →
      (∀ i j, renumber b b' i = renumber b b' j → i = j) → ∀ n i j, n ≠ noParentName →
      b.frameIDs n = some i → b'.frameIDs n = some j → j = renumber b b' i →
      b'.getFrame j = (b.getFrame i).map (Cache.rename (renumber b b'))) :
    BufIso (renumber b b') b b' ∧ ∀ n i, b.frameIDs n = some i → b'.frameIDs n = some (renumber b b' i) := by
  have hnum' : ∀ n i, b'.frameIDs n = some i → b'.lookupFrameNumber n = i := by
    intro n i hi; unfold Buf.lookupFrameNumber; rw [hi]; rfl
  have hids : ∀ n i, b.frameIDs n = some i → b'.frameIDs n = some (renumber b b' i) := by
    intro n i hi
    obtain ⟨j, hj⟩ := (hreg n).1 ⟨i, hi⟩
    have := (hw.ids n i).1 hi
    unfold renumber
    rw [this]
    simp only
    rw [hnum' n j hj, hj]
  have hlt' : ∀ n i, b'.frameIDs n = some i → i < b'.frames.length := by
    intro n i hi
    rw [← hw'.lenEq]
    exact (List.getElem?_eq_some_iff.1 ((hw'.ids n i).1 hi)).1
  have hzero : renumber b b' 0 = 0 := by
    have := hids noParentName 0 ((hw.ids _ _).2 hw.zero)
    rw [(hw'.ids _ _).2 hw'.zero] at this
    injection this with this; exact this.symm
  have hnum : ∀ n, b'.lookupFrameNumber n = renumber b b' (b.lookupFrameNumber n) := by
    intro n
    cases hi : b.frameIDs n with
    | some i =>
      have : b.lookupFrameNumber n = i := by unfold Buf.lookupFrameNumber; rw [hi]; rfl
      rw [this]; exact hnum' n _ (hids n i hi)
    | none =>
      have h1 : b.lookupFrameNumber n = 0 := by unfold Buf.lookupFrameNumber; rw [hi]; rfl
      have h2 : b'.frameIDs n = none := by
        cases hj : b'.frameIDs n with
        | none => rfl
        | some j =>
          obtain ⟨i, hi'⟩ := (hreg n).2 ⟨j, hj⟩
          rw [hi] at hi'; cases hi'
      rw [h1, hzero]; unfold Buf.lookupFrameNumber; rw [h2]; rfl
  have hinj : ∀ i j, renumber b b' i = renumber b b' j → i = j := by
    intro i j hij
    cases hi : b.frameIDsReverse[i]? with
    | none =>
      cases hj : b.frameIDsReverse[j]? with
      | none => simp only [renumber, hi, hj] at hij; omega
      | some n =>
        have := hlt' _ _ (hids n j ((hw.ids n j).2 hj))
        rw [← hij] at this
        simp only [renumber, hi] at this; omega
    | some m =>
      have h1 := hids m i ((hw.ids m i).2 hi)
      cases hj : b.frameIDsReverse[j]? with
      | none =>
        have := hlt' _ _ h1
        rw [hij] at this
        simp only [renumber, hj] at this; omega
      | some n =>
        have h2 := hids n j ((hw.ids n j).2 hj)
        rw [← hij] at h2
        have hmn := hw'.inj h1 h2
        subst hmn
        have e1 := (hw.ids m i).2 hi
        have e2 := (hw.ids m j).2 hj
        rw [e1] at e2; injection e2
  refine ⟨⟨hinj, hzero, ?_, hnum, ?_⟩, hids⟩
  · intro i
    cases hi : b.frameIDsReverse[i]? with
    | none =>
      have h1 : b.getFrame i = none := by
        cases hc : b.getFrame i with
        | none => rfl
        | some c =>
          have := Buf.getFrame_lt hc
          have hle := List.getElem?_eq_none_iff.1 hi
          rw [hw.lenEq] at hle
          omega
      have h2 : b'.getFrame (renumber b b' i) = none := by
        cases hc : b'.getFrame (renumber b b' i) with
        | none => rfl
        | some c =>
          have := Buf.getFrame_lt hc
          simp only [renumber, hi] at this; omega
      rw [h1, h2]; rfl
    | some n =>
      have hin := (hw.ids n i).2 hi
      have hin' := hids n i hin
      by_cases hnp : n = noParentName
      · subst hnp
        have : i = 0 := by
          have := (hw.ids _ _).2 hw.zero
          rw [hin] at this; injection this
        subst this
        rw [hzero, hz, hz']; rfl
      · exact hf hnum hinj n i _ hnp hin hin' rfl
  · intro i
    unfold Buf.lookupFrameString
    cases hi : b.frameIDsReverse[i]? with
    | none =>
      have : b'.frameIDsReverse[renumber b b' i]? = none := by
        rw [List.getElem?_eq_none_iff, hw'.lenEq]
        simp only [renumber, hi]; omega
      rw [this]
    | some n =>
      have := (hw'.ids n _).1 (hids n i ((hw.ids n i).2 hi))
      rw [this]

theorem SameData.symm {D : Duration} {o o' : List (Op X)} (h : SameData D o o') : SameData D o' o where
  known n := (h.known n).symm
  kind n := (h.kind n).symm
  static n hk := (h.static n (by rw [h.kind, hk])).symm
  counts n hk v := (h.counts n (by rw [h.kind, hk]) v).symm

theorem SameData.trans {D : Duration} {o o' o'' : List (Op X)} (h : SameData D o o') (h' : SameData D o' o'') :
    SameData D o o'' where
  known n := (h.known n).trans (h'.known n)
  kind n := (h.kind n).trans (h'.kind n)
  static n hk := (h.static n hk).trans (h'.static n (by rw [← h.kind, hk]))
  counts n hk v := (h.counts n hk v).trans (h'.counts n (by rw [← h.kind, hk]) v)

theorem SameData.refl (D : Duration) (o : List (Op X)) : SameData D o o where
  known _ := Iff.rfl
  kind _ := rfl
  static _ _ := rfl
  counts _ _ _ := Iff.rfl

theorem kindOf_some {n : Name} {o : List (Op X)} {s : Bool} (h : kindOf n o = some s) :
    ∃ m r, offersFor n o = (m, s) :: r := by
  unfold kindOf at h
  match ho : offersFor n o with
  | [] => rw [ho] at h; cases h
  | (m, s') :: r =>
    rw [ho] at h
    simp only [List.head?_cons, Option.map_some, Option.some.injEq] at h
    exact ⟨m, r, by rw [h]⟩

theorem kindOf_none {n : Name} {o : List (Op X)} (h : kindOf n o = none) : offersFor n o = [] := by
  unfold kindOf at h
  match ho : offersFor n o with
  | [] => rfl
  | (m, s') :: r => rw [ho] at h; cases h

theorem sameData_iso {D : Duration} {o o' : List (Op X)} (hreg : Regular D o) (hreg' : Regular D o')
    (h : SameData D o o') :
    BufIso (renumber ((Buf.init D).run o) ((Buf.init D).run o')) ((Buf.init D).run o) ((Buf.init D).run o') ∧
    ∀ n i, ((Buf.init D).run o).frameIDs n = some i →
      ((Buf.init D).run o').frameIDs n = some (renumber ((Buf.init D).run o) ((Buf.init D).run o') i) := by
  have hw : WF D ((Buf.init D : Buf X).run o) := WF.run (WF.init D) o
  have hw' : WF D ((Buf.init D : Buf X).run o') := WF.run (WF.init D) o'
  refine content_iso hw hw' ?_ (getFrame_zero hreg.names) (getFrame_zero hreg'.names) ?_
  · intro n
    rw [registered_iff, registered_iff, h.known n]
  · intro hnum hinj n i j hn hi hj hji
    have hfit : ∀ {o : List (Op X)}, Regular D o → ∀ m s, (m, s) ∈ offersFor n o → (m.stamp : Int) + D ≤ TIME_MAX := by
      intro o hr m s hm
      obtain ⟨⟨a, ha⟩, hv, _⟩ := offersFor_mem hm
      exact hr.range m a s ha hv
    cases hk : kindOf n o with
    | none =>
      have h1 := kindOf_none hk
      have h2 := kindOf_none (by rw [← h.kind n]; exact hk)
      have f1 := frame_content D hn o
      have f2 := frame_content D hn o'
      unfold FrameContent at f1 f2
      rw [h1] at f1
      rw [h2] at f2
      rw [f1 i hi, f2 j hj]; rfl
    | some s =>
      have hk' : kindOf n o' = some s := by rw [← h.kind n]; exact hk
      obtain ⟨m, r, h1⟩ := kindOf_some hk
      obtain ⟨m', r', h2⟩ := kindOf_some hk'
      cases s with
      | true =>
        have hs := h.static n hk
        have f1 := frame_content D hn o
        have f2 := frame_content D hn o'
        unfold FrameContent at f1 f2
        rw [h1] at f1 hs
        rw [h2] at f2 hs
        obtain ⟨i', a, sa, g1, g2, g3⟩ := f1
        obtain ⟨j', a', sa', g1', g2', g3'⟩ := f2
        rw [hi] at g1; injection g1 with g1; subst g1
        rw [hj] at g1'; injection g1' with g1'; subst g1'
        rw [g2, g2'] at hs
        simp only [Option.map_some, Option.some.injEq, Msg.gist, Prod.mk.injEq] at hs
        obtain ⟨e1, e2, e3⟩ := hs
        rw [g3, g3', ← e1, ← e2, ← e3, hnum, hji]; rfl
      | false =>
        obtain ⟨i', st, g1, g2, g3⟩ := C51_frame_window hreg.dur hn o rfl h1 (hfit hreg)
        obtain ⟨j', st', g1', g2', g3'⟩ := C51_frame_window hreg'.dur hn o' rfl h2 (hfit hreg')
        rw [hi] at g1; injection g1 with g1; subst g1
        rw [hj] at g1'; injection g1' with g1'; subst g1'
        rw [g2, g2']
        have c1 := window_counts g3
        have c2 := window_counts g3'
        have ids : ∀ {b : Buf X} {n : Name} {i : Nat}, b.frameIDs n = some i → b.lookupFrameNumber n = i := by
          intro b n i hi; unfold Buf.lookupFrameNumber; rw [hi]; rfl
        have key : st' = st.map (Sample.rename (renumber ((Buf.init D).run o) ((Buf.init D).run o'))) := by
          refine NewestFirst.ext g3'.1 ?_ ?_
          · unfold NewestFirst
            rw [List.pairwise_map]
            exact g3.1
          · intro x
            rw [c2, List.mem_map]
            have tr : ∀ {m m' : Msg X}, m.gist = m'.gist →
                toSample ((Buf.init D).run o').lookupFrameNumber n m' =
                  (toSample ((Buf.init D).run o).lookupFrameNumber n m).rename
                    (renumber ((Buf.init D).run o) ((Buf.init D).run o')) := by
              intro m m' e
              simp only [Msg.gist, Prod.mk.injEq] at e
              simp only [toSample, Sample.rename, hnum, e.1, e.2.1, e.2.2]
            constructor
            · rintro ⟨k, hk1, rfl⟩
              obtain ⟨k', hk2, e⟩ := (h.counts n hk k.gist).2 ⟨k, hk1, rfl⟩
              exact ⟨_, (c1 _).2 ⟨k', hk2, rfl⟩, (tr e).symm⟩
            · rintro ⟨y, hy, rfl⟩
              obtain ⟨k, hk1, rfl⟩ := (c1 y).1 hy
              obtain ⟨k', hk2, e⟩ := (h.counts n hk k.gist).1 ⟨k, hk1, rfl⟩
              exact ⟨k', hk2, (tr e.symm).symm⟩
        rw [key]; rfl

/-! ### What more calls do to the messages that count -/

/-- Some newest message of a nonempty list. -/
theorem exists_newest_msg (l : List (Msg X)) : l ≠ [] → ∃ m ∈ l, ∀ a ∈ l, a.stamp ≤ m.stamp := by
  induction l with
  | nil => intro h; exact absurd rfl h
  | cons x r ih =>
    intro _
    cases r with
    | nil => exact ⟨x, by simp, by simp⟩
    | cons y r' =>
      obtain ⟨m, hm, hmax⟩ := ih (by simp)
      by_cases h : x.stamp ≤ m.stamp
      · refine ⟨m, List.mem_cons_of_mem _ hm, ?_⟩
        intro a ha
        rcases List.mem_cons.1 ha with rfl | ha
        · exact h
        · exact hmax a ha
      · refine ⟨x, List.mem_cons_self .., ?_⟩
        intro a ha
        rcases List.mem_cons.1 ha with rfl | ha
        · exact Nat.le_refl _
        · have := hmax a ha; omega

/-- Every stamp in the window is that of a message that counts. -/
theorem effective_of_mem {D : Duration} {o : List (Op X)} {n : Name} {a : Msg X} (ha : a ∈ recentFor n o [])
    (hwin : ∀ c ∈ recentFor n o [], (c.stamp : Int) ≤ a.stamp + D) : ∃ e, Effective D o n e ∧ e.stamp = a.stamp := by
  cases hf : (recentFor n o []).find? (fun c => c.stamp == a.stamp) with
  | none =>
    have := List.find?_eq_none.1 hf a ha
    simp at this
  | some e =>
    have he := List.find?_some hf
    simp only [beq_iff_eq] at he
    exact ⟨e, ⟨by rw [he]; exact hf, fun c hc => by rw [he]; exact hwin c hc⟩, he⟩

/-- One more message `m`: what counted still counts unless `m` is newer by more than `D`; `m` counts unless a message
that counts has its stamp or is newer by more than `D`. -/
theorem effective_snoc {D : Duration} (hD : 0 ≤ D) {o o1 : List (Op X)} {n : Name} {m : Msg X}
    (e : recentFor n o1 [] = recentFor n o [] ++ [m]) (k : Msg X) :
    Effective D o1 n k ↔ (Effective D o n k ∧ (m.stamp : Int) ≤ k.stamp + D) ∨
      (k = m ∧ ∀ c, Effective D o n c → c.stamp ≠ m.stamp ∧ (c.stamp : Int) ≤ m.stamp + D) := by
  unfold Effective
  rw [e]
  constructor
  · rintro ⟨h1, h2⟩
    rw [List.find?_append] at h1
    have hm := h2 m (by simp)
    cases hf : (recentFor n o []).find? (fun c => c.stamp == k.stamp) with
    | some c =>
      rw [hf] at h1
      simp only [Option.some_or, Option.some.injEq] at h1
      subst h1
      exact Or.inl ⟨⟨rfl, fun a ha => h2 a (List.mem_append_left _ ha)⟩, hm⟩
    | none =>
      rw [hf] at h1
      simp only [Option.none_or, List.find?_cons, List.find?_nil] at h1
      split at h1
      · injection h1 with h1
        subst h1
        refine Or.inr ⟨rfl, ?_⟩
        rintro c ⟨hc1, hc2⟩
        have hc := List.mem_of_find?_eq_some hc1
        refine ⟨?_, h2 c (List.mem_append_left _ hc)⟩
        intro he
        have := List.find?_eq_none.1 hf c hc
        simp [he] at this
      · cases h1
  · rintro (⟨⟨h1, h2⟩, h3⟩ | ⟨rfl, h⟩)
    · refine ⟨by rw [List.find?_append, h1]; rfl, ?_⟩
      intro a ha
      rcases List.mem_append.1 ha with ha | ha
      · exact h2 a ha
      · rw [List.mem_singleton.1 ha]; exact h3
    · have hall : ∀ a ∈ recentFor n o [], (a.stamp : Int) ≤ k.stamp + D := by
        intro a ha
        obtain ⟨z, hz, hmax⟩ := exists_newest_msg _ (List.ne_nil_of_mem ha)
        obtain ⟨c, hc, hcs⟩ := effective_of_mem (D := D) hz (by
          intro c hc; have := hmax c hc; omega)
        have := (h c hc).2
        have := hmax a ha
        omega
      refine ⟨?_, ?_⟩
      · rw [List.find?_append]
        cases hf : (recentFor n o []).find? (fun c => c.stamp == k.stamp) with
        | none => simp
        | some c =>
          exfalso
          have hc := List.mem_of_find?_eq_some hf
          have hs := List.find?_some hf
          simp only [beq_iff_eq] at hs
          obtain ⟨c', hc', he⟩ := effective_of_mem (D := D) hc (by intro a ha; rw [hs]; exact hall a ha)
          exact (h c' hc').1 (by rw [he, hs])
      · intro a ha
        rcases List.mem_append.1 ha with ha | ha
        · exact hall a ha
        · rw [List.mem_singleton.1 ha]; omega

theorem SameData.snoc {D : Duration} (hD : 0 ≤ D) {o o' : List (Op X)} (h : SameData D o o') (x : Op X) :
    SameData D (o ++ [x]) (o' ++ [x]) := by
  have hkind : ∀ n, kindOf n (o ++ [x]) = (kindOf n o).or ((offersFor n [x]).head?.map Prod.snd) ∧
      kindOf n (o' ++ [x]) = (kindOf n o).or ((offersFor n [x]).head?.map Prod.snd) := by
    intro n
    have e : ∀ o : List (Op X), kindOf n (o ++ [x]) = (kindOf n o).or ((offersFor n [x]).head?.map Prod.snd) := by
      intro o
      unfold kindOf
      rw [offersFor_append]
      cases offersFor n o <;> rfl
    exact ⟨e o, by rw [e o', h.kind n]⟩
  refine ⟨?_, fun n => by rw [(hkind n).1, (hkind n).2], ?_, ?_⟩
  · intro n
    rw [mentions_append, mentions_append, List.mem_append, List.mem_append, h.known n]
  · intro n hk
    rw [offersFor_append, offersFor_append, List.getLast?_append, List.getLast?_append]
    cases hx : (offersFor n [x]).getLast? with
    | some e => simp
    | none =>
      have hx0 : offersFor n [x] = [] := List.getLast?_eq_none_iff.1 hx
      simp only [Option.none_or]
      refine h.static n ?_
      rw [(hkind n).1, hx0] at hk
      simpa using hk
  · intro n hk v
    cases x with
    | clear =>
      have e : ∀ o : List (Op X), ¬ ∃ m, Effective D (o ++ [.clear]) n m ∧ m.gist = v := by
        rintro o ⟨m, hm, _⟩
        have := hm.mem
        rw [recentFor_append] at this
        cases this
      exact ⟨fun h => absurd h (e o), fun h => absurd h (e o')⟩
    | set m a s =>
      by_cases hm : ValidMsg m ∧ stripSlash m.child = n
      · have er : ∀ o : List (Op X), recentFor n (o ++ [.set m a s]) [] = recentFor n o [] ++ [m] := by
          intro o
          rw [recentFor_append]
          simp [recentFor, hm]
        by_cases hk0 : kindOf n o = some false
        · have hc := h.counts n hk0
          have tr : ∀ {o o' : List (Op X)}, (∀ v, (∃ m, Effective D o n m ∧ m.gist = v) ↔
              (∃ m, Effective D o' n m ∧ m.gist = v)) →
              (∃ k, Effective D (o ++ [.set m a s]) n k ∧ k.gist = v) →
              (∃ k, Effective D (o' ++ [.set m a s]) n k ∧ k.gist = v) := by
            intro o o' hc
            rintro ⟨k, hk, rfl⟩
            rcases (effective_snoc hD (er o) k).1 hk with ⟨h1, h2⟩ | ⟨rfl, h1⟩
            · obtain ⟨k', h3, h4⟩ := (hc k.gist).1 ⟨k, h1, rfl⟩
              refine ⟨k', (effective_snoc hD (er o') k').2 (Or.inl ⟨h3, ?_⟩), h4⟩
              have : k'.stamp = k.stamp := congrArg Prod.fst h4
              rw [this]; exact h2
            · refine ⟨k, (effective_snoc hD (er o') k).2 (Or.inr ⟨rfl, ?_⟩), rfl⟩
              intro c hcc
              obtain ⟨c', h3, h4⟩ := (hc c.gist).2 ⟨c, hcc, rfl⟩
              have : c'.stamp = c.stamp := congrArg Prod.fst h4
              rw [← this]
              exact h1 c' h3
          exact ⟨tr hc, tr (fun v => (hc v).symm)⟩
        · have hnone : kindOf n o = none := by
            rw [(hkind n).1] at hk
            cases h0 : kindOf n o with
            | none => rfl
            | some s' =>
              rw [h0] at hk hk0
              simp only [Option.some_or, Option.some.injEq] at hk
              rw [hk] at hk0
              exact absurd rfl hk0
          have empty : ∀ {o : List (Op X)}, kindOf n o = none → recentFor n o [] = [] := by
            intro o ho
            have h1 := kindOf_none ho
            cases hr : recentFor n o [] with
            | nil => rfl
            | cons c r =>
              rcases recentFor_mem (m := c) (n := n) (ops := o) (acc := []) (by rw [hr]; simp) with h2 | ⟨s, h2⟩
              · cases h2
              · rw [h1] at h2; cases h2
          have e1 := er o
          have e2 := er o'
          have hnone' : kindOf n o' = none := by rw [← h.kind n]; exact hnone
          rw [empty (o := o) hnone] at e1
          rw [empty (o := o') hnone'] at e2
          unfold Effective
          rw [e1, e2]
      · have er : ∀ o : List (Op X), recentFor n (o ++ [.set m a s]) [] = recentFor n o [] := by
          intro o
          rw [recentFor_append]
          simp only [recentFor, if_neg hm]
        unfold Effective
        rw [er o, er o']
        have hk0 : kindOf n o = some false := by
          rw [(hkind n).1] at hk
          have : offersFor n [Op.set m a s] = [] := by simp only [offersFor, if_neg hm]
          rw [this] at hk
          simpa using hk
        exact h.counts n hk0 v

end Tf2
