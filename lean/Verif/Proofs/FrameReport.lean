import Verif.Spec.FrameReport
import Verif.Proofs.History
import Verif.Proofs.LookupOk

namespace Tf2

variable {X : Type}

/-! ### An invariant of single caches holds for every cache of the buffer -/

section
variable [Rigid X]

theorem cache_inv {D : Duration} {Q : Cache X → Prop} (hs : Q (.stat none)) (hd : Q (.dyn D []))
    (hcl : ∀ c, Q c → Q c.clearList) (ops : List (Op X))
    (hins : ∀ c s m a st, Op.set m a st ∈ ops → s.stamp = m.stamp → Q c → Q (c.insert s).1) :
    ∀ i c, ((Buf.init D).run ops).getFrame i = some c → Q c := by
  induction ops using snoc_induction with
  | nil =>
    intro i c h
    exfalso
    simp only [Buf.run, List.foldl_nil, Buf.init, Buf.getFrame] at h
    cases i <;> simp at h
  | snoc l o ih =>
    have hw : WF D ((Buf.init D).run l) := WF.run (WF.init D) l
    have ih := ih (fun c s m a st hm => hins c s m a st (List.mem_append_left _ hm))
    intro i c h
    rw [run_snoc] at h
    cases o with
    | clear =>
      simp only [Buf.step] at h
      rw [Buf.getFrame_clear] at h
      split at h
      · exact ih _ _ h
      · cases hb : ((Buf.init D).run l).getFrame i with
        | none => rw [hb] at h; cases h
        | some c' =>
          rw [hb] at h
          simp only [Option.map_some, Option.some.injEq] at h
          subst h
          exact hcl _ (ih _ _ hb)
    | set m a s =>
      simp only [Buf.step] at h
      cases hv : Buf.msgValid (Buf.stripMsg m) with
      | false => rw [Buf.setTransform_invalid hv] at h; exact ih _ _ h
      | true =>
        obtain ⟨cid, pid, c0, c1, ir, st⟩ := Buf.setTransform_step hw.names m a s hv
        rw [st.hframes] at h
        split at h
        · injection h with h
          subst h
          have h0 : Q c0 := by
            rw [st.hc0]
            cases hb : ((Buf.init D).run l).getFrame cid with
            | some c' => exact ih _ _ hb
            | none =>
              simp only [Option.getD_none, Buf.newCache]
              split
              · exact hs
              · rw [hw.cacheTime]; exact hd
          have := hins c0 ({ stamp := m.stamp, parent := pid, child := cid, xf := m.xf } : Sample X) m a s
            (List.mem_append_right _ (List.mem_singleton_self _)) rfl h0
          have e := st.hins
          rw [show (Buf.stripMsg m).stamp = m.stamp from rfl,
            show (Buf.stripMsg m).xf = m.xf from rfl] at e
          rw [e] at this
          exact this
        · exact ih _ _ h

end

/-! ### The stored stamps of a frame span at most the storage duration -/

theorem pruneRev_bound {D : Duration} (hD : 0 ≤ D) {l : Time} (hl : l ≤ TIME_MAX) {r : List (Sample X)}
    (hs : r.Pairwise (fun a b => a.stamp < b.stamp)) :
    ∀ x ∈ (pruneRev D l r).1, (l : Int) ≤ x.stamp + D := by
  induction r with
  | nil => intro x hx; cases hx
  | cons b r ih =>
    rw [List.pairwise_cons] at hs
    have hx0 : (l : Int) ≤ b.stamp + D → ∀ x ∈ b :: r, (l : Int) ≤ x.stamp + D := by
      intro hb x hx
      rcases List.mem_cons.1 hx with rfl | hx
      · exact hb
      · have := hs.1 x hx; omega
    unfold pruneRev
    cases ht : timeAdd b.stamp D with
    | none =>
      have : (TIME_MAX : Int) < b.stamp + D := by
        unfold timeAdd at ht
        split at ht
        · cases ht
        · omega
      exact hx0 (by omega)
    | some e =>
      have he := timeAdd_eq_some ht
      simp only
      split
      · exact ih hs.2
      · exact hx0 (by omega)

/-- What a time cache with representable stamps satisfies. -/
def Spans (D : Duration) (st : List (Sample X)) : Prop :=
  NewestFirst st ∧ (∀ s ∈ st, s.stamp ≤ TIME_MAX) ∧ ∀ s ∈ st, ∀ s' ∈ st, (s.stamp : Int) ≤ s'.stamp + D

theorem Spans.insert {D : Duration} (hD : 0 ≤ D) {st : List (Sample X)} (h : Spans D st) {s : Sample X}
    (hs : s.stamp ≤ TIME_MAX) : Spans D (dynInsert D st s).1 := by
  have hb : Spans D (insertBody D st s).1 := by
    rw [insertBody_eq h.1]
    split
    · exact h
    · rename_i hne
      have hsort := insert_sorted h.1 s (fun e he hs => hne ⟨e, he, hs⟩)
      have hmax : ∀ x ∈ st.filter (fun e => decide (s.stamp < e.stamp)) ++
          s :: st.filter (fun e => decide (e.stamp ≤ s.stamp)), x.stamp ≤ TIME_MAX := by
        intro x hx
        simp only [List.mem_append, List.mem_cons, List.mem_filter] at hx
        rcases hx with hx | rfl | hx
        · exact h.2.1 _ hx.1
        · exact hs
        · exact h.2.1 _ hx.1
      simp only
      generalize st.filter (fun e => decide (s.stamp < e.stamp)) ++
          s :: st.filter (fun e => decide (e.stamp ≤ s.stamp)) = l at *
      have hsub := pruneList_sublist D l
      refine ⟨hsort.sublist hsub, fun x hx => hmax x (hsub.subset hx), ?_⟩
      intro x hx y hy
      cases l with
      | nil => cases hsub.subset hx
      | cons f r =>
        have h1 := hsort.front_max (hsub.subset hx)
        have h2 : (f.stamp : Int) ≤ y.stamp + D := by
          refine pruneRev_bound hD (hmax f (List.mem_cons_self ..)) (List.pairwise_reverse.2 hsort) y ?_
          simpa [pruneList] using hy
        omega
  unfold dynInsert
  split
  · exact hb
  · split
    · exact h
    · split
      · exact h
      · exact hb

section
variable [Rigid X]

theorem frame_spans {D : Duration} (hD : 0 ≤ D) {ops : List (Op X)}
    (hmax : ∀ m a s, Op.set m a s ∈ ops → m.stamp ≤ TIME_MAX) {i : Nat} {D' : Duration}
    {st : List (Sample X)} (h : ((Buf.init D).run ops).getFrame i = some (.dyn D' st)) :
    D' = D ∧ Spans D st := by
  have := cache_inv (D := D) (Q := fun c : Cache X => match c with
    | .dyn D' st => D' = D ∧ Spans D st
    | .stat _ => True) trivial ⟨rfl, List.Pairwise.nil, by simp, by simp⟩
    (by intro c hc
        cases c with
        | dyn D' st => exact ⟨hc.1, List.Pairwise.nil, by simp, by simp⟩
        | stat o => exact trivial) ops
    (by intro c s m a st hm e hc
        cases c with
        | dyn D' st =>
          obtain ⟨rfl, hc⟩ := hc
          exact ⟨rfl, hc.insert hD (e ▸ hmax m a _ hm)⟩
        | stat o => exact trivial) i _ h
  exact this

/-! ### Authorities -/

theorem setTransform_authority {b : Buf X} (h : Buf.NamesOK b) (m : Msg X) (a : Name) (s : Bool) (j : Nat) :
    (b.setTransform m a s).1.authority j =
      if (b.setTransform m a s).2 = .accepted ∧
          (b.setTransform m a s).1.frameIDs (stripSlash m.child) = some j then some a
      else b.authority j := by
  cases hv : Buf.msgValid (Buf.stripMsg m) with
  | false => rw [Buf.setTransform_invalid hv]; simp
  | true =>
    obtain ⟨cid, pid, c0, c1, ir, st⟩ := Buf.setTransform_step h m a s hv
    have hcid := st.hcid
    rw [show (Buf.stripMsg m).child = stripSlash m.child from rfl] at hcid
    rw [hcid]
    have hres := st.hres
    have e1 : (b.lookupOrInsertFrameNumber (stripSlash m.child)).2 = cid := by
      have h1 := Buf.lookupOrInsert_id b (stripSlash m.child)
      have h2 := st.hframes
      have := st.hnames
      have hb1 := h.lookupOrInsert (stripSlash m.child)
      have hp : (b.lookupOrInsertFrameNumber (stripSlash m.child)).1.frameIDsReverse <+:
          (b.setTransform m a s).1.frameIDsReverse := by
        rw [st.hrev]; exact Buf.lookupOrInsert_rev_prefix _ _
      have g1 := (hb1.ids _ _).1 h1
      have g2 : (b.setTransform m a s).1.frameIDsReverse[(b.lookupOrInsertFrameNumber (stripSlash m.child)).2]? =
          some (stripSlash m.child) := by
        obtain ⟨t, ht⟩ := hp
        rw [← ht, List.getElem?_append_left (List.getElem?_eq_some_iff.1 g1).1]; exact g1
      have g3 := (this.ids _ _).2 g2
      rw [hcid] at g3
      exact (Option.some.inj g3).symm
    have hlt : (b.lookupOrInsertFrameNumber (stripSlash m.child)).2 <
        (b.lookupOrInsertFrameNumber (stripSlash m.child)).1.frames.length :=
      (h.lookupOrInsert _).id_lt (Buf.lookupOrInsert_id b _)
    have hauth : ∀ c : List (Option (Cache X)), (Buf.lookupOrInsertFrameNumber ({ (b.lookupOrInsertFrameNumber (stripSlash m.child)).1 with
        frames := c } : Buf X) (stripSlash m.parent)).1.authority = b.authority := by
      intro c
      rw [Buf.lookupOrInsert_authority]
      exact Buf.lookupOrInsert_authority _ _
    have hbig : (b.setTransform m a s).1.authority j =
        if (b.setTransform m a s).2 = .accepted ∧ cid = j then some a else b.authority j := by
      have hauth' : ∀ c : List (Option (Cache X)),
          (Buf.lookupOrInsertFrameNumber ({ (b.lookupOrInsertFrameNumber (Buf.stripMsg m).child).1 with
            frames := c } : Buf X) (Buf.stripMsg m).parent).1.authority = b.authority := hauth
      have hlt' : (b.lookupOrInsertFrameNumber (Buf.stripMsg m).child).2 <
        (b.lookupOrInsertFrameNumber (Buf.stripMsg m).child).1.frames.length := hlt
      have e1' : (b.lookupOrInsertFrameNumber (Buf.stripMsg m).child).2 = cid := e1
      unfold Buf.setTransform
      simp only [hv, if_true, hlt']
      split <;> simp only [hauth', e1'] <;> simp [eq_comm]
    rw [hbig]
    simp only [Option.some.injEq]

instance (D : Duration) (pre : List (Op X)) (m : Msg X) (a : Name) (s : Bool) :
    Decidable (TakenAfter D pre m a s) := by unfold TakenAfter; infer_instance

theorem run_authority_snoc {D : Duration} (ops : List (Op X)) (m : Msg X) (a : Name) (s : Bool) (j : Nat) :
    ((Buf.init D).run (ops ++ [.set m a s])).authority j =
      if TakenAfter D ops m a s ∧
          ((Buf.init D).run (ops ++ [.set m a s])).frameIDs (stripSlash m.child) = some j then some a
      else ((Buf.init D).run ops).authority j := by
  have hw : WF D ((Buf.init D).run ops) := WF.run (WF.init D) ops
  rw [run_snoc]
  exact setTransform_authority hw.names m a s j

theorem lastBroadcaster_snoc {D : Duration} {ops : List (Op X)} {o : Op X} {n a : Name} :
    LastBroadcaster D (ops ++ [o]) n a ↔
      (∃ m s, o = .set m a s ∧ stripSlash m.child = n ∧ TakenAfter D ops m a s) ∨
      ((∀ m a' s, o = .set m a' s → stripSlash m.child = n → ¬ TakenAfter D ops m a' s) ∧
        LastBroadcaster D ops n a) := by
  constructor
  · rintro ⟨pre, m, s, post, h1, h2, h3, h4⟩
    rcases List.eq_nil_or_concat post with rfl | ⟨post', o', rfl⟩
    · have h1 : ops ++ [o] = pre ++ [.set m a s] := h1
      obtain ⟨rfl, e⟩ := List.append_inj' h1 rfl
      injection e with e
      exact Or.inl ⟨m, s, e, h2, h3⟩
    · have h1 : ops ++ [o] = (pre ++ .set m a s :: post') ++ [o'] := by simpa using h1
      obtain ⟨rfl, e⟩ := List.append_inj' h1 rfl
      injection e with e
      subst e
      refine Or.inr ⟨?_, pre, m, s, post', rfl, h2, h3, ?_⟩
      · intro m' a' s' e hn
        exact h4 post' m' a' s' [] (by simp [e]) hn
      · intro mid m' a' s' rest e hn
        exact h4 mid m' a' s' (rest ++ [o]) (by simp [e]) hn
  · rintro (⟨m, s, rfl, h2, h3⟩ | ⟨h0, pre, m, s, post, rfl, h2, h3, h4⟩)
    · exact ⟨ops, m, s, [], rfl, h2, h3, by intro mid m' a' s' rest e; simp at e⟩
    · refine ⟨pre, m, s, post ++ [o], by simp, h2, h3, ?_⟩
      intro mid m' a' s' rest e hn
      rcases List.eq_nil_or_concat rest with rfl | ⟨rest', o', rfl⟩
      · have e : post ++ [o] = mid ++ [.set m' a' s'] := e
        obtain ⟨rfl, e2⟩ := List.append_inj' e rfl
        injection e2 with e2
        exact h0 m' a' s' e2 hn
      · have e : post ++ [o] = (mid ++ .set m' a' s' :: rest') ++ [o'] := by simpa using e
        obtain ⟨rfl, e⟩ := List.append_inj' e rfl
        exact h4 mid m' a' s' rest' rfl hn

theorem taken_valid {D : Duration} {ops : List (Op X)} {m : Msg X} {a : Name} {s : Bool}
    (h : TakenAfter D ops m a s) : ValidMsg m := by
  refine Decidable.byContradiction fun hv => ?_
  unfold TakenAfter at h
  rw [Buf.setTransform_invalid (msgValid_false hv)] at h
  cases h

theorem lastBroadcaster_mentions {D : Duration} {ops : List (Op X)} {n a : Name}
    (h : LastBroadcaster D ops n a) : n ∈ mentions ops := by
  obtain ⟨pre, m, s, post, rfl, rfl, h3, _⟩ := h
  rw [mentions_append]
  apply List.mem_append_right
  simp [mentions, taken_valid h3]

/-- The recorded authority of a frame is its last broadcaster. -/
theorem authority_run (D : Duration) (ops : List (Op X)) (i : Nat) (a : Name) :
    ((Buf.init D).run ops).authority i = some a ↔
      ∃ n, ((Buf.init D).run ops).frameIDs n = some i ∧ LastBroadcaster D ops n a := by
  induction ops using snoc_induction with
  | nil =>
    constructor
    · intro h; cases h
    · rintro ⟨n, _, pre, m, s, post, h, _⟩; simp at h
  | snoc l o ih =>
    have hw : WF D ((Buf.init D).run l) := WF.run (WF.init D) l
    have hw' : WF D ((Buf.init D).run (l ++ [o])) := WF.run (WF.init D) _
    have hstep : ∀ n, LastBroadcaster D l n a →
        (((Buf.init D).run (l ++ [o])).frameIDs n = some i ↔ ((Buf.init D).run l).frameIDs n = some i) := by
      intro n hl
      obtain ⟨j, hj⟩ := mentions_registered (D := D) l n (lastBroadcaster_mentions hl)
      have := frameIDs_step hw o hj
      rw [run_snoc, this, hj]
    have key : (∀ m a' s, o = .set m a' s → TakenAfter D l m a' s →
          ((Buf.init D).run (l ++ [o])).frameIDs (stripSlash m.child) ≠ some i) →
        ((∃ n, ((Buf.init D).run (l ++ [o])).frameIDs n = some i ∧ LastBroadcaster D (l ++ [o]) n a) ↔
          ((Buf.init D).run l).authority i = some a) := by
      intro hno
      rw [ih]
      constructor
      · rintro ⟨n, h1, h2⟩
        rcases lastBroadcaster_snoc.1 h2 with ⟨m, s, h3, h4, h5⟩ | ⟨_, h2⟩
        · exact absurd (h4 ▸ h1) (hno m a s h3 h5)
        · exact ⟨n, (hstep n h2).1 h1, h2⟩
      · rintro ⟨n, h1, h2⟩
        have h1' := (hstep n h2).2 h1
        refine ⟨n, h1', lastBroadcaster_snoc.2 (Or.inr ⟨?_, h2⟩)⟩
        intro m a' s e hn ht
        exact hno m a' s e ht (hn ▸ h1')
    cases o with
    | clear =>
      rw [key (by intro m a' s e; cases e), run_snoc]
      exact Iff.rfl
    | set m a' s =>
      by_cases hc : TakenAfter D l m a' s ∧
          ((Buf.init D).run (l ++ [.set m a' s])).frameIDs (stripSlash m.child) = some i
      · rw [run_authority_snoc, if_pos hc]
        constructor
        · intro h
          injection h with h; subst h
          exact ⟨_, hc.2, lastBroadcaster_snoc.2 (Or.inl ⟨m, s, rfl, rfl, hc.1⟩)⟩
        · rintro ⟨n, h1, h2⟩
          have hn := hw'.inj hc.2 h1
          rcases lastBroadcaster_snoc.1 h2 with ⟨m', s', h3, h4, h5⟩ | ⟨h3, _⟩
          · cases h3; rfl
          · exact absurd hc.1 (h3 m a' s rfl hn)
      · rw [key, run_authority_snoc, if_neg hc]
        intro m' a'' s' e ht hid
        cases e
        exact hc ⟨ht, hid⟩

/-! ### Every frame that holds data has a recorded authority, unless time arithmetic overflowed -/

theorem insert_not_threw {D : Duration} (hD : 0 ≤ D) {st : List (Sample X)} (hsort : NewestFirst st)
    (hfit : ∀ x ∈ st, (x.stamp : Int) + D ≤ TIME_MAX) {s : Sample X} (hs : (s.stamp : Int) + D ≤ TIME_MAX) :
    (dynInsert D st s).2 ≠ .threw := by
  have hb : (insertBody D st s).2 ≠ .threw := by
    rw [insertBody_eq hsort]
    split
    · simp
    · rename_i hne
      have hl := insert_sorted hsort s (fun e he hs => hne ⟨e, he, hs⟩)
      have hf : ∀ x ∈ st.filter (fun e => decide (s.stamp < e.stamp)) ++
          s :: st.filter (fun e => decide (e.stamp ≤ s.stamp)), 0 ≤ (x.stamp : Int) + D ∧ (x.stamp : Int) + D ≤ TIME_MAX := by
        intro x hx
        simp only [List.mem_append, List.mem_cons, List.mem_filter] at hx
        refine ⟨by omega, ?_⟩
        rcases hx with hx | rfl | hx
        · exact hfit _ hx.1
        · exact hs
        · exact hfit _ hx.1
      simp only
      generalize st.filter (fun e => decide (s.stamp < e.stamp)) ++
          s :: st.filter (fun e => decide (e.stamp ≤ s.stamp)) = l at *
      cases l with
      | nil => simp [pruneList]
      | cons f r => rw [pruneList_eq_filter hl hf]; simp
  unfold dynInsert
  split
  · exact hb
  · rw [timeAdd_of_repr (by omega) hs]
    simp only
    split
    · simp
    · exact hb

theorem insert_refused {D : Duration} {st : List (Sample X)} {s : Sample X}
    (h1 : (dynInsert D st s).2 ≠ .accepted) (h2 : (dynInsert D st s).2 ≠ .threw) :
    (dynInsert D st s).1 = st := by
  have hb : (insertBody D st s).2 ≠ .accepted → (insertBody D st s).2 ≠ .threw →
      (insertBody D st s).1 = st := by
    unfold insertBody
    simp only
    intro g1 g2
    split at g1
    · split at g1
      · rename_i h; simp [h]
      · rename_i h
        simp only [h, if_false] at g1 g2
        split at g1 <;> simp_all
    · split at g1 <;> simp_all
  cases st with
  | nil => exact hb h1 h2
  | cons f r =>
    unfold dynInsert at h1 h2 ⊢
    simp only at h1 h2 ⊢
    cases ht : timeAdd s.stamp D with
    | none => rfl
    | some lim =>
      simp only [ht] at h1 h2 ⊢
      by_cases hlt : lim < f.stamp
      · simp only [if_pos hlt]
      · simp only [if_neg hlt] at h1 h2 ⊢
        exact hb h1 h2

/-- Invariant: the stored stamps fit and frames that hold data have a recorded authority. -/
theorem holdsData_authority {D : Duration} (hD : 0 ≤ D) (ops : List (Op X)) (hfit : StampsFit D ops)
    (i : Nat) (h : HoldsData ((Buf.init D).run ops) i) :
    ∃ a, ((Buf.init D).run ops).authority i = some a := by
  induction ops using snoc_induction with
  | nil =>
    exfalso
    rcases h with ⟨D', st, h, _⟩ | ⟨s, h⟩ <;>
      (simp only [Buf.run, List.foldl_nil, Buf.init, Buf.getFrame] at h; cases i <;> simp at h)
  | snoc l o ih =>
    have hw : WF D ((Buf.init D).run l) := WF.run (WF.init D) l
    have hfl : StampsFit D l := fun m a s hm => hfit m a s (List.mem_append_left _ hm)
    have ih := ih hfl
    cases o with
    | clear =>
      have : ((Buf.init D).run (l ++ [.clear])).authority i = ((Buf.init D).run l).authority i := by
        rw [run_snoc]; rfl
      rw [this]
      apply ih
      rw [run_snoc] at h
      simp only [Buf.step, HoldsData, Buf.getFrame_clear] at h
      by_cases h0 : i = 0
      · subst h0; simpa [HoldsData] using h
      · simp only [h0, if_false] at h
        cases hb : ((Buf.init D).run l).getFrame i with
        | none => simp [hb] at h
        | some c =>
          rw [hb] at h
          cases c with
          | dyn D' st =>
            exfalso
            rcases h with ⟨D2, st2, h1, h2⟩ | ⟨s2, h1⟩
            · injection h1 with h1; injection h1 with h3 h4; exact h2 h4.symm
            · cases h1
          | stat o => exact Or.inr ⟨o, hb⟩
    | set m a s =>
      rw [run_authority_snoc]
      split
      · exact ⟨a, rfl⟩
      · rename_i hn
        apply ih
        rw [run_snoc] at h hn
        simp only [Buf.step] at h hn
        cases hv : Buf.msgValid (Buf.stripMsg m) with
        | false => rw [Buf.setTransform_invalid hv] at h; exact h
        | true =>
          obtain ⟨cid, pid, c0, c1, ir, st⟩ := Buf.setTransform_step hw.names m a s hv
          simp only [HoldsData, st.hframes] at h
          by_cases hi : i = cid
          · subst hi
            have hnt : ((Buf.init D).run l |>.setTransform m a s).2 ≠ .accepted :=
              fun e => hn ⟨e, st.hcid⟩
            have hir : ir ≠ .accepted := by
              intro e; subst e; exact hnt st.hres
            have hins := st.hins
            simp only [if_true, Option.some.injEq] at h
            cases c0 with
            | stat o =>
              simp only [Cache.insert, Prod.mk.injEq] at hins
              exact absurd hins.2.symm hir
            | dyn D' st0 =>
              simp only [Cache.insert, Prod.mk.injEq] at hins
              have hold : ((Buf.init D).run l).getFrame i = some (.dyn D' st0) ∨ (D' = D ∧ st0 = []) := by
                have hc0 := st.hc0
                cases hb : ((Buf.init D).run l).getFrame i with
                | some c => rw [hb] at hc0; exact Or.inl (by rw [hc0]; rfl)
                | none =>
                  rw [hb, Option.getD_none] at hc0
                  unfold Buf.newCache at hc0
                  split at hc0
                  · cases hc0
                  · injection hc0 with e1 e2
                    exact Or.inr ⟨e1.trans hw.cacheTime, e2⟩
              have hst : D' = D ∧ NewestFirst st0 ∧ ∀ x ∈ st0, (x.stamp : Int) + D ≤ TIME_MAX := by
                rcases hold with hold | ⟨rfl, rfl⟩
                · have hok := hw.caches _ _ hold
                  refine ⟨hok.1, hok.2.1.sorted, ?_⟩
                  exact cache_inv (D := D) (Q := fun c : Cache X => match c with
                    | .dyn _ st => ∀ x ∈ st, (x.stamp : Int) + D ≤ TIME_MAX
                    | .stat _ => True) trivial (by simp)
                    (by intro c hc
                        cases c with
                        | dyn D' st => simp [Cache.clearList]
                        | stat o => exact trivial) l
                    (by intro c s m a st hm e hc
                        cases c with
                        | dyn D' st =>
                          intro x hx
                          rcases mem_dynInsert hx with hx | rfl
                          · exact hc x hx
                          · rw [e]; exact hfl m a _ hm
                        | stat o => exact trivial) i _ hold
                · exact ⟨rfl, List.Pairwise.nil, by simp⟩
              obtain ⟨rfl, hs1, hs2⟩ := hst
              have hm : (m.stamp : Int) + D' ≤ TIME_MAX := hfit m a s (by simp)
              have hnth := insert_not_threw hD hs1 hs2 (s := ⟨m.stamp, pid, i, m.xf⟩) hm
              have := insert_refused (hins.2.symm ▸ hir) hnth
              have h1 := hins.1
              rw [show (Buf.stripMsg m).stamp = m.stamp from rfl,
                show (Buf.stripMsg m).xf = m.xf from rfl, this] at h1
              subst h1
              rcases h with ⟨D2, st2, h1, h2⟩ | ⟨s2, h1⟩
              · cases h1
                rcases hold with hold | ⟨_, rfl⟩
                · exact Or.inl ⟨D', st0, hold, h2⟩
                · exact absurd rfl h2
              · cases h1
          · simp only [hi, if_false] at h
            exact h

end

end Tf2
