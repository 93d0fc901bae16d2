import Verif.Spec.Order
import Verif.Spec.Toy
import Verif.Proofs.Rename
import Verif.Props.Listing

/-!
# C56: the interleaving of different broadcasters cannot be observed
-/
namespace Tf2

variable {X : Type} [Rigid X]

omit [Rigid X] in
theorem SameCalls.symm {o o' : List (Op X)} (h : SameCalls o o') : SameCalls o' o := fun n => (h n).symm

omit [Rigid X] in
theorem SameCalls.mem {o o' : List (Op X)} (h : SameCalls o o') {x : Op X} (hx : x ∈ o) : x ∈ o' := by
  cases x with
  | clear =>
    have : Op.clear ∈ o.filter (Op.concerns []) := List.mem_filter.2 ⟨hx, rfl⟩
    rw [h []] at this
    exact (List.mem_filter.1 this).1
  | set m a s =>
    have : Op.set m a s ∈ o.filter (Op.concerns (stripSlash m.child)) :=
      List.mem_filter.2 ⟨hx, by simp [Op.concerns]⟩
    rw [h] at this
    exact (List.mem_filter.1 this).1

theorem mem_mentions {o : List (Op X)} {n : Name} : n ∈ mentions o ↔
    ∃ m a s, Op.set m a s ∈ o ∧ ValidMsg m ∧ (n = stripSlash m.child ∨ n = stripSlash m.parent) := by
  induction o with
  | nil => simp [mentions]
  | cons x r ih =>
    cases x with
    | clear => simp only [mentions, ih, List.mem_cons, reduceCtorEq, false_or]
    | set m a s =>
      simp only [mentions]
      by_cases hv : ValidMsg m
      · rw [if_pos hv, List.mem_cons, List.mem_cons, ih]
        constructor
        · rintro (h | h | ⟨m', a', s', h1, h2⟩)
          · exact ⟨m, a, s, by simp, hv, Or.inl h⟩
          · exact ⟨m, a, s, by simp, hv, Or.inr h⟩
          · exact ⟨m', a', s', List.mem_cons_of_mem _ h1, h2⟩
        · rintro ⟨m', a', s', h1, h2, h3⟩
          rcases List.mem_cons.1 h1 with h1 | h1
          · injection h1 with e1 e2 e3; subst e1
            rcases h3 with h3 | h3
            · exact Or.inl h3
            · exact Or.inr (Or.inl h3)
          · exact Or.inr (Or.inr ⟨m', a', s', h1, h2, h3⟩)
      · rw [if_neg hv, ih]
        constructor
        · rintro ⟨m', a', s', h1, h2⟩; exact ⟨m', a', s', List.mem_cons_of_mem _ h1, h2⟩
        · rintro ⟨m', a', s', h1, h2, h3⟩
          rcases List.mem_cons.1 h1 with h1 | h1
          · injection h1 with e1 e2 e3; subst e1; exact absurd h2 hv
          · exact ⟨m', a', s', h1, h2, h3⟩

theorem SameCalls.mentions {o o' : List (Op X)} (h : SameCalls o o') {n : Name} (hn : n ∈ mentions o) :
    n ∈ mentions o' := by
  obtain ⟨m, a, s, h1, h2⟩ := mem_mentions.1 hn
  exact mem_mentions.2 ⟨m, a, s, h.mem h1, h2⟩

theorem offersFor_filter (n : Name) (o : List (Op X)) :
    offersFor n (o.filter (Op.concerns n)) = offersFor n o := by
  induction o with
  | nil => rfl
  | cons x r ih =>
    cases x with
    | clear => simpa [List.filter, Op.concerns, offersFor] using ih
    | set m a s =>
      by_cases hc : stripSlash m.child = n
      · simp only [List.filter, Op.concerns, hc, decide_true, offersFor, ih]
      · simp only [List.filter, Op.concerns, hc, decide_false, offersFor, ih, and_false, if_false]

theorem frameCalls_filter (ids : Name → Nat) (n : Name) (o : List (Op X)) :
    frameCalls ids n (o.filter (Op.concerns n)) = frameCalls ids n o := by
  induction o with
  | nil => rfl
  | cons x r ih =>
    cases x with
    | clear => simpa [List.filter, Op.concerns, frameCalls] using ih
    | set m a s =>
      by_cases hc : stripSlash m.child = n
      · simp only [List.filter, Op.concerns, hc, decide_true, frameCalls, ih]
      · simp only [List.filter, Op.concerns, hc, decide_false, frameCalls, ih, and_false, if_false]

theorem frameCalls_rename (π : Nat → Nat) (ids ids' : Name → Nat) (h : ∀ k, ids' k = π (ids k)) (n : Name)
    (o : List (Op X)) :
    frameCalls ids' n o = (frameCalls ids n o).map (CacheOp.rename π) := by
  induction o with
  | nil => rfl
  | cons x r ih =>
    cases x with
    | clear => simp only [frameCalls, List.map_cons, ih]; rfl
    | set m a s =>
      simp only [frameCalls]
      split
      · simp only [List.map_cons, ih, h]; rfl
      · exact ih

theorem getFrame_zero {D : Duration} {o : List (Op X)} (h : NoReservedChild o) :
    ((Buf.init D).run o).getFrame 0 = none := by
  induction o using snoc_induction with
  | nil => rfl
  | snoc l x ih =>
    have hl := ih (fun m a s hm => h m a s (List.mem_append_left _ hm))
    have hw : WF D ((Buf.init D : Buf X).run l) := WF.run (WF.init D) l
    rw [run_snoc]
    cases x with
    | clear => simp only [Buf.step]; rw [Buf.getFrame_clear, if_pos rfl, hl]
    | set m a s =>
      simp only [Buf.step]
      by_cases hv : ValidMsg m
      · obtain ⟨cid, pid, c0, c1, ir, st⟩ := Buf.setTransform_step hw.names m a s ((msgValid_iff m).2 hv)
        rw [st.hframes, if_neg, hl]
        intro e
        have hw' : WF D (((Buf.init D : Buf X).run l).step (.set m a s)) := hw.step _
        have := st.hcid
        rw [← e] at this
        exact h m a s (by simp) hv (hw'.frameIDs_zero.1 this)
      · rw [Buf.setTransform_invalid (msgValid_false hv)]; exact hl

theorem registered_iff {D : Duration} {o : List (Op X)} {n : Name} :
    (∃ i, ((Buf.init D).run o).frameIDs n = some i) ↔ n ∈ mentions o ∨ n = noParentName := by
  rw [← (C36_frame_strings D o).2.2.2 n]
  unfold Buf.frameExists
  rw [Option.isSome_iff_exists]

/-- The renumbering between the buffers of two histories. -/
def renumber (b b' : Buf X) (i : Nat) : Nat :=
  match b.frameIDsReverse[i]? with
  | some n => b'.lookupFrameNumber n
  | none => i + b'.frames.length

theorem order_iso {D : Duration} {o o' : List (Op X)} (h : SameCalls o o') (hn : NoReservedChild o) :
    BufIso (renumber ((Buf.init D).run o) ((Buf.init D).run o')) ((Buf.init D).run o) ((Buf.init D).run o') ∧
    ∀ n i, ((Buf.init D).run o).frameIDs n = some i →
      ((Buf.init D).run o').frameIDs n = some (renumber ((Buf.init D).run o) ((Buf.init D).run o') i) := by
  have hn' : NoReservedChild o' := fun m a s hm => hn m a s (h.symm.mem hm)
  have hw : WF D ((Buf.init D : Buf X).run o) := WF.run (WF.init D) o
  have hw' : WF D ((Buf.init D : Buf X).run o') := WF.run (WF.init D) o'
  have hreg : ∀ n, (∃ i, ((Buf.init D : Buf X).run o).frameIDs n = some i) ↔
      (∃ i, ((Buf.init D : Buf X).run o').frameIDs n = some i) := by
    intro n
    rw [registered_iff, registered_iff]
    exact ⟨fun x => x.imp h.mentions id, fun x => x.imp h.symm.mentions id⟩
  have hz := getFrame_zero (D := D) hn
  have hz' := getFrame_zero (D := D) hn'
  have hfc : ∀ n, n ≠ noParentName → FrameContent D o ((Buf.init D).run o) n :=
    fun n hn => frame_content D hn o
  have hfc' : ∀ n, n ≠ noParentName → FrameContent D o' ((Buf.init D).run o') n :=
    fun n hn => frame_content D hn o'
  generalize (Buf.init D : Buf X).run o = b at *
  generalize (Buf.init D : Buf X).run o' = b' at *
  have hnum' : ∀ n i, b'.frameIDs n = some i → b'.lookupFrameNumber n = i := by
    intro n i hi; unfold Buf.lookupFrameNumber; rw [hi]; rfl
  have hids : ∀ n i, b.frameIDs n = some i → b'.frameIDs n = some (renumber b b' i) := by
    intro n i hi
    obtain ⟨j, hj⟩ := (hreg n).1 ⟨i, hi⟩
    have := (hw.ids n i).1 hi
    unfold renumber
    rw [this]
    simp only
    rw [hnum' n j hj, hj]
  have hlt' : ∀ n i, b'.frameIDs n = some i → i < b'.frames.length := by
    intro n i hi
    rw [← hw'.lenEq]
    exact (List.getElem?_eq_some_iff.1 ((hw'.ids n i).1 hi)).1
  have hzero : renumber b b' 0 = 0 := by
    have := hids noParentName 0 ((hw.ids _ _).2 hw.zero)
    rw [(hw'.ids _ _).2 hw'.zero] at this
    injection this with this; exact this.symm
  have hnum : ∀ n, b'.lookupFrameNumber n = renumber b b' (b.lookupFrameNumber n) := by
    intro n
    cases hi : b.frameIDs n with
    | some i =>
      have : b.lookupFrameNumber n = i := by unfold Buf.lookupFrameNumber; rw [hi]; rfl
      rw [this]; exact hnum' n _ (hids n i hi)
    | none =>
      have h1 : b.lookupFrameNumber n = 0 := by unfold Buf.lookupFrameNumber; rw [hi]; rfl
      have h2 : b'.frameIDs n = none := by
        cases hj : b'.frameIDs n with
        | none => rfl
        | some j =>
          obtain ⟨i, hi'⟩ := (hreg n).2 ⟨j, hj⟩
          rw [hi] at hi'; cases hi'
      rw [h1, hzero]; unfold Buf.lookupFrameNumber; rw [h2]; rfl
  refine ⟨⟨?_, hzero, ?_, hnum, ?_⟩, hids⟩
  · intro i j hij
    cases hi : b.frameIDsReverse[i]? with
    | none =>
      cases hj : b.frameIDsReverse[j]? with
      | none => simp only [renumber, hi, hj] at hij; omega
      | some n =>
        have := hlt' _ _ (hids n j ((hw.ids n j).2 hj))
        rw [← hij] at this
        simp only [renumber, hi] at this; omega
    | some m =>
      have h1 := hids m i ((hw.ids m i).2 hi)
      cases hj : b.frameIDsReverse[j]? with
      | none =>
        have := hlt' _ _ h1
        rw [hij] at this
        simp only [renumber, hj] at this; omega
      | some n =>
        have h2 := hids n j ((hw.ids n j).2 hj)
        rw [← hij] at h2
        have hmn := hw'.inj h1 h2
        subst hmn
        have e1 := (hw.ids m i).2 hi
        have e2 := (hw.ids m j).2 hj
        rw [e1] at e2; injection e2
  · intro i
    cases hi : b.frameIDsReverse[i]? with
    | none =>
      have h1 : b.getFrame i = none := by
        cases hc : b.getFrame i with
        | none => rfl
        | some c =>
          have := Buf.getFrame_lt hc
          have hle := List.getElem?_eq_none_iff.1 hi
          rw [hw.lenEq] at hle
          omega
      have h2 : b'.getFrame (renumber b b' i) = none := by
        cases hc : b'.getFrame (renumber b b' i) with
        | none => rfl
        | some c =>
          have := Buf.getFrame_lt hc
          simp only [renumber, hi] at this; omega
      rw [h1, h2]; rfl
    | some n =>
      have hin := (hw.ids n i).2 hi
      have hin' := hids n i hin
      by_cases hnp : n = noParentName
      · subst hnp
        have : i = 0 := by
          have := (hw.ids _ _).2 hw.zero
          rw [hin] at this; injection this
        subst this
        rw [hzero, hz, hz']; rfl
      · have f1 := hfc n hnp
        have f2 := hfc' n hnp
        have ho : offersFor n o' = offersFor n o := by
          rw [← offersFor_filter, ← h n, offersFor_filter]
        unfold FrameContent at f1 f2
        rw [ho] at f2
        match hoff : offersFor n o with
        | [] =>
          rw [hoff] at f1 f2
          rw [f1 i hin, f2 _ hin']; rfl
        | (m0, true) :: r =>
          rw [hoff] at f1 f2
          obtain ⟨j, m, s, h1, h2, h3⟩ := f1
          obtain ⟨j', m', s', h1', h2', h3'⟩ := f2
          rw [hin] at h1; injection h1 with h1; subst h1
          rw [hin'] at h1'; injection h1' with h1'; subst h1'
          rw [h2] at h2'
          injection h2' with h2'
          injection h2' with e1 e2; subst e1
          rw [h3, h3', hnum]; rfl
        | (m0, false) :: r =>
          rw [hoff] at f1 f2
          obtain ⟨j, h1, h3⟩ := f1
          obtain ⟨j', h1', h3'⟩ := f2
          rw [hin] at h1; injection h1 with h1; subst h1
          rw [hin'] at h1'; injection h1' with h1'; subst h1'
          have hcalls : frameCalls b'.lookupFrameNumber n o' =
              (frameCalls b.lookupFrameNumber n o).map (CacheOp.rename (renumber b b')) := by
            rw [← frameCalls_filter, ← h n, frameCalls_filter, frameCalls_rename _ _ _ hnum]
          rw [h3, h3', hcalls]
          have := cacheRun_rename (π := renumber b b') (frameCalls b.lookupFrameNumber n o) (.dyn D [])
          simp only [Cache.rename, List.map_nil] at this
          rw [this]; rfl
  · intro i
    unfold Buf.lookupFrameString
    cases hi : b.frameIDsReverse[i]? with
    | none =>
      have : b'.frameIDsReverse[renumber b b' i]? = none := by
        rw [List.getElem?_eq_none_iff, hw'.lenEq]
        simp only [renumber, hi]; omega
      rw [this]
    | some n =>
      have := (hw'.ids n _).1 (hids n i ((hw.ids n i).2 hi))
      rw [this]

theorem ListedAs.mono {D : Duration} {o o' : List (Op X)} (h : SameCalls o o') (hn : NoReservedChild o)
    {n q : Name} (hl : ListedAs ((Buf.init D).run o) n q) : ListedAs ((Buf.init D).run o') n q := by
  obtain ⟨I, hids⟩ := order_iso (D := D) h hn
  obtain ⟨i, c, hf, hc, hd⟩ := hl
  refine ⟨_, c.rename _, ⟨I.ne0 hf.1, hids _ _ hf.2⟩, by rw [I.frame, hc]; rfl, ?_⟩
  rcases hd with ⟨s, h1, h2⟩ | ⟨h1, h2⟩
  · refine Or.inl ⟨s.rename (renumber ((Buf.init D).run o) ((Buf.init D).run o')), ?_, hids _ _ h2⟩
    rw [getData_rename I.inj, h1]; rfl
  · refine Or.inr ⟨?_, h2⟩
    rw [getData_rename I.inj, h1]; rfl

omit [Rigid X] in
theorem insert_result {π : Nat → Nat} {c : Cache X} {st : Time} {p q p' q' : Nat} {x : X} :
    ((c.rename π).insert ⟨st, p', q', x⟩).2 = (c.insert ⟨st, p, q, x⟩).2 := by
  have h1 := insert_rename (π := fun _ => 0) (c.rename π) ⟨st, p', q', x⟩
  have h2 := insert_rename (π := fun _ => 0) c ⟨st, p, q, x⟩
  have e : ∀ s : Sample X, (s.rename π).rename (fun _ => 0) = s.rename (fun _ => 0) := fun s => rfl
  have e2 : (c.rename π).rename (fun _ => 0) = c.rename (fun _ => 0) := by
    cases c with
    | dyn D l => simp only [Cache.rename, List.map_map]; congr 1
    | stat o => cases o <;> rfl
  rw [e2] at h1
  have e3 : (⟨st, p', q', x⟩ : Sample X).rename (fun _ => 0) = (⟨st, p, q, x⟩ : Sample X).rename (fun _ => 0) := rfl
  rw [e3, h2] at h1
  exact (congrArg Prod.snd h1).symm

theorem set_result {D : Duration} {o o' : List (Op X)} (h : SameCalls o o') (hn : NoReservedChild o)
    (m : Msg X) (a : Name) (s : Bool) :
    (((Buf.init D).run o').setTransform m a s).2 = (((Buf.init D).run o).setTransform m a s).2 := by
  have hw : WF D ((Buf.init D : Buf X).run o) := WF.run (WF.init D) o
  have hw' : WF D ((Buf.init D : Buf X).run o') := WF.run (WF.init D) o'
  obtain ⟨I, hids⟩ := order_iso (D := D) h hn
  obtain ⟨I', hids'⟩ := order_iso (D := D) h.symm (fun m a s hm => hn m a s (h.symm.mem hm))
  generalize (Buf.init D : Buf X).run o = b at *
  generalize (Buf.init D : Buf X).run o' = b' at *
  by_cases hv : ValidMsg m
  · obtain ⟨cid, pid, c0, c1, ir, st⟩ := Buf.setTransform_step hw.names m a s ((msgValid_iff m).2 hv)
    obtain ⟨cid', pid', c0', c1', ir', st'⟩ := Buf.setTransform_step hw'.names m a s ((msgValid_iff m).2 hv)
    have hw1 : WF D (b.setTransform m a s).1 := hw.step (.set m a s)
    have hw1' : WF D (b'.setTransform m a s).1 := hw'.step (.set m a s)
    have hc : c0' = c0.rename (renumber b b') := by
      rw [st.hc0, st'.hc0]
      have hnew : b'.newCache s = (b.newCache s).rename (renumber b b') := by
        unfold Buf.newCache
        rw [hw.cacheTime, hw'.cacheTime]
        cases s <;> rfl
      cases hi : b.frameIDs (Buf.stripMsg m).child with
      | some i =>
        have e1 := st.hold _ _ hi
        rw [st.hcid] at e1; injection e1 with e1; subst e1
        have e2 := st'.hold _ _ (hids _ _ hi)
        rw [st'.hcid] at e2; injection e2 with e2
        rw [e2, I.frame, hnew]
        cases b.getFrame cid <;> rfl
      | none =>
        have hi' : b'.frameIDs (Buf.stripMsg m).child = none := by
          cases hj : b'.frameIDs (Buf.stripMsg m).child with
          | none => rfl
          | some j => rw [hids' _ _ hj] at hi; cases hi
        rw [getFrame_fresh hw hw1 st.hold hi st.hcid, getFrame_fresh hw' hw1' st'.hold hi' st'.hcid, hnew]
        rfl
    rw [st.hres, st'.hres]
    have e1 := congrArg Prod.snd st.hins
    have e2 := congrArg Prod.snd st'.hins
    rw [hc, insert_result (p := pid) (q := cid)] at e2
    simp only at e1 e2
    rw [← e1, ← e2]
  · rw [Buf.setTransform_invalid (msgValid_false hv), Buf.setTransform_invalid (msgValid_false hv)]

/-- **C56.** Two histories that make, for every child frame, the same calls in the same order (so they differ
only in how the broadcasters of different frames interleave) leave buffers that no query by name can
distinguish: same transforms, same answers to canTransform, same parents and chains, same frames; listings
are equal up to order; and the next setTransform returns the same. -/
theorem C56_order {D : Duration} {ops ops' : List (Op X)} (h : SameCalls ops ops') (hn : NoReservedChild ops)
    {b b' : Buf X} (hb : b = (Buf.init D).run ops) (hb' : b' = (Buf.init D).run ops') :
    (∀ target source t, b'.lookupTransform target source t = b.lookupTransform target source t) ∧
    (∀ target tt source st fixed,
      b'.lookupTransform5 target tt source st fixed = b.lookupTransform5 target tt source st fixed) ∧
    (∀ target source t, b'.canTransform target source t = b.canTransform target source t) ∧
    (∀ target tt source st fixed,
      b'.canTransform5 target tt source st fixed = b.canTransform5 target tt source st fixed) ∧
    (∀ n t, b'.getParent n t = b.getParent n t) ∧
    (∀ target tt source st fixed,
      b'.chainAsVector target tt source st fixed = b.chainAsVector target tt source st fixed) ∧
    (∀ n, b'.frameExists n = b.frameExists n) ∧
    b'.getFrameStrings.Perm b.getFrameStrings ∧
    (∃ L L', b.allFrames = .ok L ∧ b'.allFrames = .ok L' ∧ L'.Perm L) ∧
    (∀ m a s, (b'.setTransform m a s).2 = (b.setTransform m a s).2) := by
  subst hb hb'
  have I := (order_iso (D := D) h hn).1
  have hn' : NoReservedChild ops' := fun m a s hm => hn m a s (h.symm.mem hm)
  refine ⟨lookupTransform_rename I, lookupTransform5_rename I, canTransform_rename I, canTransform5_rename I,
    bufGetParent_rename I, chainAsVector_rename I, ?_, ?_, ?_, set_result h hn⟩
  · intro n
    have e : ∀ {o o' : List (Op X)}, SameCalls o o' → ((Buf.init D).run o).frameExists n = true →
        ((Buf.init D).run o').frameExists n = true := by
      intro o o' h hx
      rw [(C36_frame_strings D _).2.2.2 n] at hx ⊢
      exact hx.imp h.mentions id
    exact Bool.eq_iff_iff.2 ⟨e h.symm, e h⟩
  · refine (List.perm_ext_iff_of_nodup (C36_frame_strings D _).2.1 (C36_frame_strings D _).2.1).2 ?_
    intro n
    rw [(C36_frame_strings D _).2.2.1, (C36_frame_strings D _).2.2.1]
    exact ⟨fun x => ⟨h.symm.mentions x.1, x.2⟩, fun x => ⟨h.mentions x.1, x.2⟩⟩
  · obtain ⟨L, h1, h2, _, h3⟩ := C36_all_frames (D := D) ⟨ops, rfl⟩
    obtain ⟨L', h1', h2', _, h3'⟩ := C36_all_frames (D := D) ⟨ops', rfl⟩
    refine ⟨L, L', h1, h1', ?_⟩
    have nd : ∀ {L : List (Name × Name)}, (L.map Prod.fst).Nodup → L.Nodup := by
      intro L hl
      unfold List.Nodup at *
      exact List.Pairwise.imp (fun hne e => hne (by rw [e])) (List.pairwise_map.1 hl)
    refine (List.perm_ext_iff_of_nodup (nd h3') (nd h3)).2 ?_
    rintro ⟨n, q⟩
    rw [h2, h2']
    exact ⟨ListedAs.mono h.symm hn', ListedAs.mono h hn⟩

/-- **C56, two messages.** Two messages for different children may arrive in either order, at any point of a
history. -/
theorem C56_commute {D : Duration} {pre post : List (Op X)} {m1 m2 : Msg X} {a1 a2 : Name} {s1 s2 : Bool}
    (hne : stripSlash m1.child ≠ stripSlash m2.child)
    (hn : NoReservedChild (pre ++ .set m1 a1 s1 :: .set m2 a2 s2 :: post)) (target source : Name) (t : Time) :
    ((Buf.init D).run (pre ++ .set m1 a1 s1 :: .set m2 a2 s2 :: post)).lookupTransform target source t =
    ((Buf.init D).run (pre ++ .set m2 a2 s2 :: .set m1 a1 s1 :: post)).lookupTransform target source t := by
  refine ((C56_order ?_ hn rfl rfl).1 target source t).symm
  intro n
  rw [List.filter_append, List.filter_append]
  congr 1
  by_cases h1 : stripSlash m1.child = n
  · have h2 : stripSlash m2.child ≠ n := fun e => hne (h1.trans e.symm)
    simp [Op.concerns, h1, h2]
  · by_cases h2 : stripSlash m2.child = n <;> simp [Op.concerns, h1, h2]

/-- Two interleavings of the tree of the examples: the frame numbers differ, the answers do not. -/
def shuffledOps : List (Op Int) :=
  [put ['z'] ['y'] 10 5, put ['/', 'a'] ['b'] 12 100, put ['a'] ['/', 'c'] 0 1000 true, put ['z'] ['y'] 20 6,
   put ['w'] ['a'] 10 1, put ['a'] ['b'] 18 200, put ['w'] ['a'] 20 3]

theorem shuffled_same : SameCalls exOps shuffledOps := by
  intro n
  unfold exOps shuffledOps
  by_cases ha : (['a'] : Name) = n
  · subst ha; rfl
  by_cases hb : (['b'] : Name) = n
  · subst hb; rfl
  by_cases hc : (['c'] : Name) = n
  · subst hc; rfl
  by_cases hy : (['y'] : Name) = n
  · subst hy; rfl
  simp [Op.concerns, stripSlash, ha, hb, hc, hy]

theorem shuffled_legal : NoReservedChild exOps := by
  intro m a s hm _
  simp only [exOps, List.mem_cons, Op.set.injEq, List.not_mem_nil, or_false] at hm
  rcases hm with ⟨rfl, _⟩ | ⟨rfl, _⟩ | ⟨rfl, _⟩ | ⟨rfl, _⟩ | ⟨rfl, _⟩ | ⟨rfl, _⟩ | ⟨rfl, _⟩ <;> decide

example : exBuf.lookupFrameNumber ['a'] ≠ ((Buf.init 100).run shuffledOps).lookupFrameNumber ['a'] ∧
    exBuf.lookupTransform ['w'] ['b'] 15 = .ok ⟨['w'], ['b'], 15, 152⟩ ∧
    ((Buf.init 100).run shuffledOps).lookupTransform ['w'] ['b'] 15 = .ok ⟨['w'], ['b'], 15, 152⟩ := by
  refine ⟨by decide, by decide, ?_⟩
  rw [(C56_order shuffled_same shuffled_legal rfl rfl).1]
  decide

/-- The order of two messages for the same child does matter: the first of two with equal stamps wins. -/
example : ((Buf.init 100).run [put ['w'] ['a'] 10 1, put ['w'] ['a'] 10 2]).lookupTransform ['w'] ['a'] 10 ≠
    ((Buf.init 100).run [put ['w'] ['a'] 10 2, put ['w'] ['a'] 10 1]).lookupTransform ['w'] ['a'] 10 := by decide

end Tf2
