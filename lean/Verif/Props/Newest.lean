import Verif.Proofs.Newest
import Verif.Props.Denote
import Verif.Props.Order

/-!
# C83: lookups at time zero as a function of the messages sent; they never go back in time

The statements mention no state of the buffer: only the history of calls, and the answer to the next call.
-/
namespace Tf2

variable {X : Type} [Rigid X]

theorem Regular.stamp_lt {D : Duration} {ops : List (Op X)} (hreg : Regular D ops) (hD : 0 < D) {n p : Name} {s : Time}
    {e : X} (h : Newest ops n p s e) : s < TIME_MAX := by
  cases h with
  | static _ _ => decide
  | @dynamic m0 m r _ h2 _ =>
    rcases recentFor_mem (List.mem_of_find?_eq_some h2) with h | ⟨f, h⟩
    · cases h
    · obtain ⟨⟨a, ha⟩, hv, _⟩ := offersFor_mem h
      have := hreg.range _ _ _ ha hv
      omega

theorem NewestWay.stamp_lt {D : Duration} {ops : List (Op X)} (hreg : Regular D ops) (hD : 0 < D) {a c : Name}
    {l : List Time} {x : X} (h : NewestWay ops a c l x) : ∀ s ∈ l, s < TIME_MAX := by
  induction h with
  | refl => intro s hs; cases hs
  | snoc _ h1 _ ih =>
    intro s hs
    rcases List.mem_append.1 hs with hs | hs
    · exact ih s hs
    · rw [List.mem_singleton] at hs; subst hs; exact hreg.stamp_lt hD h1

/-- **C83, value.** Let the newest transforms told for each frame lead from `source` and from `target` to the same
root, meeting first at `q`, and let `t` be the smallest stamp of the dynamic ones on the two ways to `q` (0 if all are
static).  Then the lookup at time 0 is stamped `t`; it is the lookup at time `t` if `t` is not 0, and otherwise it
succeeds with the composition of the static transforms on the way. -/
theorem C83_value {U : X → Prop} (L : RigidLaws U) {D : Duration} (hD : 0 < D) {ops : List (Op X)}
    (hreg : Regular D ops) (hU : AllOffered U ops) {target source r q : Name} (hne : target ≠ source)
    (lt : LegalName target) (ls : LegalName source) (mt : target ∈ mentions ops) (ms : source ∈ mentions ops)
    (nt : target ≠ noParentName) (ns : source ≠ noParentName)
    (rs : EndsBy ops source r) (rt : EndsBy ops target r) (hq : LowestBy ops source target q)
    {l k : List Time} {x y : X} (hl : NewestWay ops source q l x) (hk : NewestWay ops target q k y) :
    ∃ t, MinNonzeroOf (l ++ k) t ∧
      (∀ m, ((Buf.init D).run ops).lookupTransform target source 0 = .ok m → m.stamp = t) ∧
      (t ≠ 0 → ((Buf.init D).run ops).lookupTransform target source 0 =
          ((Buf.init D).run ops).lookupTransform target source t) ∧
      (t = 0 → ((Buf.init D).run ops).lookupTransform target source 0 =
          .ok { parent := target, child := source, stamp := 0, xf := Rigid.comp (Rigid.inv y) x }) := by
  generalize hb : (Buf.init D).run ops = b
  have hb := hb.symm
  have hw : WF D b := by rw [hb]; exact WF.run (WF.init D) ops
  have hs := isFrame_of_mentioned hb ms ns
  have hg := isFrame_of_mentioned hb mt nt
  obtain ⟨j, hj, rs'⟩ := rs.root hreg hb hs
  obtain ⟨j', hj', rt'⟩ := rt.root hreg hb hg
  have : j' = j := by have h1 := hj.2; rw [hj'.2] at h1; exact Option.some.inj h1
  subst this
  obtain ⟨c, Ls, hc, hLs, els, hx⟩ := hl.path hreg hb hs
  obtain ⟨c', Lg, hc', hLg, elg, hy⟩ := hk.path hreg hb hg
  have : c' = c := by have h1 := hc.2; rw [hc'.2] at h1; exact Option.some.inj h1
  subst this
  have hlow := hq.lowest hreg hb hs hg hc
  obtain ⟨t, h1, h2, h3, h4⟩ := C20_common_time L hU hb hg hs lt ls hne rs' rt' hlow hLs hLg (by
    intro e he
    rcases List.mem_append.1 he with he | he
    · exact hl.stamp_lt hreg hD _ (els ▸ List.mem_map_of_mem he)
    · exact hk.stamp_lt hreg hD _ (elg ▸ List.mem_map_of_mem he))
  rw [List.map_append, els, elg] at h1
  exact ⟨t, h1, h2, fun h => (h3 h).1, fun h => h4 h _ _ _ _ hx hy⟩

/-- **C83, unconnected.** If the newest transforms lead the two frames to different roots, a lookup at time 0 reports
that they are not connected. -/
theorem C83_unconnected {D : Duration} {ops : List (Op X)}
    (hreg : Regular D ops) {target source r r' : Name}
    (lt : LegalName target) (ls : LegalName source) (mt : target ∈ mentions ops) (ms : source ∈ mentions ops)
    (nt : target ≠ noParentName) (ns : source ≠ noParentName)
    (rs : EndsBy ops source r) (rt : EndsBy ops target r') (hne : r ≠ r') :
    ((Buf.init D).run ops).lookupTransform target source 0 = .throw .connectivity ∧
    ((Buf.init D).run ops).canTransform target source 0 = .ok false := by
  generalize hb : (Buf.init D).run ops = b
  have hb := hb.symm
  have hw : WF D b := by rw [hb]; exact WF.run (WF.init D) ops
  have hs := isFrame_of_mentioned hb ms ns
  have hg := isFrame_of_mentioned hb mt nt
  obtain ⟨j, hj, rs'⟩ := rs.root hreg hb hs
  obtain ⟨j', hj', rt'⟩ := rt.root hreg hb hg
  exact C20_unconnected ⟨ops, hb⟩ hg hs lt ls rs' rt' (fun h => hne (hw.inj hj.2 (h ▸ hj'.2)))

/-! ### Lookups at time zero never go back -/

theorem OneTree.prefix {ops more : List (Op X)} {par : Name → Option Name} {depth : Name → Nat}
    (h : OneTree (ops ++ more) par depth) : OneTree ops par depth :=
  ⟨fun m a s hm hv => h.agrees m a s (List.mem_append_left _ hm) hv, h.deeper, h.bound, h.named⟩

theorem Regular.prefix {D : Duration} {ops more : List (Op X)} (h : Regular D (ops ++ more)) : Regular D ops :=
  ⟨h.dur, fun m a s hm hv => h.range m a s (List.mem_append_left _ hm) hv,
    fun m a s hm hv => h.names m a s (List.mem_append_left _ hm) hv⟩

theorem OneTree.newest {ops : List (Op X)} {par : Name → Option Name} {depth : Name → Nat}
    (hT : OneTree ops par depth) {n p : Name} {s : Time} {e : X} (h : Newest ops n p s e) : par n = some p := by
  obtain ⟨m, f, hm, rfl⟩ := h.offer
  obtain ⟨⟨a, h1⟩, h2, h3⟩ := offersFor_mem hm
  rw [← h3]; exact hT.agrees _ _ _ h1 h2

theorem OneTree.endsBy {ops : List (Op X)} {par : Name → Option Name} {depth : Name → Nat}
    (hT : OneTree ops par depth) : ∀ (k : Nat) (a : Name), depth a = k →
      ∃ r, (∃ l x, NewestWay ops a r l x ∧ l.length ≤ k) ∧ ¬ ∃ p s e, Newest ops r p s e ∧ p ≠ noParentName := by
  intro k
  induction k using Nat.strongRecOn with
  | ind k ih =>
    intro a ha
    by_cases h : ∃ p s e, Newest ops a p s e ∧ p ≠ noParentName
    · obtain ⟨p, s, e, h1, h2⟩ := h
      have hd := hT.deeper _ _ (hT.newest h1)
      obtain ⟨r, ⟨l, x, h3, h4⟩, h5⟩ := ih (depth p) (by omega) p rfl
      obtain ⟨y, hy⟩ := NewestWay.cons h1 h2 h3
      exact ⟨r, ⟨_, y, hy, by simp only [List.length_cons]; omega⟩, h5⟩
    · exact ⟨a, ⟨[], _, .refl, Nat.zero_le _⟩, h⟩

theorem OneTree.root {ops : List (Op X)} {par : Name → Option Name} {depth : Name → Nat}
    (hT : OneTree ops par depth) (a : Name) : ∃ r, EndsBy ops a r := by
  obtain ⟨r, ⟨l, x, h1, h2⟩, h3⟩ := hT.endsBy _ a rfl
  exact ⟨r, ⟨l, x, h1, Nat.le_trans h2 (hT.bound a)⟩, h3⟩

/-- More messages only make the newest transform of a frame newer, and a static frame stays static. -/
theorem Newest.grows {ops more : List (Op X)} (hclear : Op.clear ∉ more) {par : Name → Option Name}
    {depth : Name → Nat} (hT : OneTree (ops ++ more) par depth) {n p : Name} {s : Time}
    {e : X} (h : Newest ops n p s e) : ∃ s' e', Newest (ops ++ more) n p s' e' ∧ s ≤ s' ∧
      ((∃ m0 r, offersFor n ops = (m0, true) :: r) → s = 0 ∧ s' = 0) := by
  have hp := hT.prefix.newest h
  have hsame : ∀ {p' s' e'}, Newest (ops ++ more) n p' s' e' → p' = p := by
    intro p' s' e' h'
    have := hT.newest h'
    rw [hp] at this
    exact (Option.some.inj this).symm
  cases h with
  | @static m0 m s r h1 h2 =>
    have h3 : offersFor n (ops ++ more) = (m0, true) :: (r ++ offersFor n more) := by
      rw [offersFor_append, h1, List.cons_append]
    cases h4 : (offersFor n (ops ++ more)).getLast? with
    | none => rw [List.getLast?_eq_none_iff, h3] at h4; cases h4
    | some ms =>
      have h5 := Newest.static h3 h4
      have h6 := hsame h5
      rw [← h6]
      exact ⟨0, _, h5, Nat.le_refl _, fun _ => ⟨rfl, rfl⟩⟩
  | @dynamic m0 m r h1 h2 h3 =>
    have h4 : offersFor n (ops ++ more) = (m0, false) :: (r ++ offersFor n more) := by
      rw [offersFor_append, h1, List.cons_append]
    have hm := List.mem_of_find?_eq_some h2
    obtain ⟨l, el, _⟩ := recentFor_noClear n hclear (recentFor n ops [])
    have hm' : m ∈ recentFor n (ops ++ more) [] := by
      rw [recentFor_append, el]; exact List.mem_append_left _ hm
    obtain ⟨m', h5, h6⟩ := exists_newest (l := recentFor n (ops ++ more) []) (by intro h; rw [h] at hm'; cases hm')
    have h7 := Newest.dynamic h4 h5 h6
    have h8 := hsame h7
    rw [← h8]
    refine ⟨_, _, h7, h6 _ hm', ?_⟩
    rintro ⟨m1, r1, h9⟩
    rw [h1] at h9; cases h9

/-- The second path leads through the same frames, and its dynamic transforms are stamped `t` or later. -/
inductive Grown (t : Time) : List (Time × Nat) → List (Time × Nat) → Prop where
  | nil : Grown t [] []
  | cons {s s' : Time} {p : Nat} {l l' : List (Time × Nat)} : (s = 0 ∧ s' = 0) ∨ t ≤ s' → Grown t l l' →
      Grown t ((s, p) :: l) ((s', p) :: l')

theorem Grown.le {t : Time} {l l' : List (Time × Nat)} (h : Grown t l l') {s' : Time} (hs : s' ∈ l'.map Prod.fst)
    (h0 : s' ≠ 0) : t ≤ s' := by
  induction h with
  | nil => cases hs
  | cons h1 _ ih =>
    rcases List.mem_cons.1 hs with rfl | hs
    · rcases h1 with h1 | h1
      · exact absurd h1.2 h0
      · exact h1
    · exact ih hs

theorem Grown.nonzero {t : Time} (ht : t ≠ 0) {l l' : List (Time × Nat)} (h : Grown t l l') {s : Time}
    (hs : s ∈ l.map Prod.fst) (h0 : s ≠ 0) : ∃ s' ∈ l'.map Prod.fst, s' ≠ 0 := by
  induction h with
  | nil => cases hs
  | cons h1 _ ih =>
    rcases List.mem_cons.1 hs with rfl | hs
    · refine ⟨_, List.mem_cons_self .., ?_⟩
      rcases h1 with h1 | h1
      · exact absurd h1.1 h0
      · simp only; omega
    · obtain ⟨s', hs', hz⟩ := ih hs
      exact ⟨s', List.mem_cons_of_mem _ hs', hz⟩

theorem Grown.append {t : Time} {l l' k k' : List (Time × Nat)} (h : Grown t l l') (h' : Grown t k k') :
    Grown t (l ++ k) (l' ++ k') := by
  induction h with
  | nil => exact h'
  | cons h1 _ ih => exact .cons h1 ih

theorem Grown.min_le {t : Time} {l l' : List (Time × Nat)} (h : Grown t l l') {t' : Time}
    (ht : MinNonzeroOf (l.map Prod.fst) t) (ht' : MinNonzeroOf (l'.map Prod.fst) t') : t ≤ t' := by
  rcases ht with ⟨rfl, _⟩ | ⟨h0, h1, _⟩
  · exact Nat.zero_le _
  · rcases ht' with ⟨_, h3⟩ | ⟨h3, h4, _⟩
    · obtain ⟨s', hs', hz⟩ := h.nonzero h0 h1 h0
      exact absurd (h3 s' hs') hz
    · exact h.le h4 h3

/-- An initial part of a path grows to an initial part of the grown path. -/
theorem Grown.take {t : Time} {b b' : Buf X} {l1 l2 l' : List (Time × Nat)} {a c q : Nat}
    (h : Grown t (l1 ++ l2) l') (h1 : NewestPath b a q l1) (h2 : NewestPath b' a c l') :
    ∃ k1 k2, l' = k1 ++ k2 ∧ Grown t l1 k1 ∧ NewestPath b' a q k1 := by
  induction h1 generalizing l' with
  | nil => exact ⟨[], l', rfl, .nil, .nil _⟩
  | cons he _ ih =>
    cases h with
    | cons h3 h4 =>
      cases h2 with
      | cons h5 h6 =>
        obtain ⟨k1, k2, e, g, p⟩ := ih h4 h6
        exact ⟨_ :: k1, k2, by rw [e]; rfl, .cons h3 g, .cons h5 p⟩

/-- An initial part of the grown path is the growth of an initial part. -/
theorem Grown.split {t : Time} {b : Buf X} {l l' : List (Time × Nat)} (h : Grown t l l') {b' : Buf X} {a c : Nat}
    (hp : NewestPath b a c l) {q : Nat} {l1 l2 : List (Time × Nat)} (he : l' = l1 ++ l2) (hq : NewestPath b' a q l1) :
    ∃ k, NewestPath b a q k := by
  induction h generalizing a l1 with
  | nil =>
    cases l1 with
    | nil => cases hq; exact ⟨[], .nil _⟩
    | cons x r => cases he
  | cons h1 _ ih =>
    cases l1 with
    | nil => cases hq; exact ⟨[], .nil _⟩
    | cons x r =>
      rw [List.cons_append] at he
      injection he with he1 he2
      subst he1
      cases hq with
      | cons hq1 hq2 =>
        cases hp with
        | cons hp1 hp2 =>
          obtain ⟨k, hk⟩ := ih hp2 he2 hq2
          exact ⟨_, .cons hp1 hk⟩

/-- A path of newest transforms is still there after more messages. -/
theorem NewestPath.grows {D : Duration} {ops more : List (Op X)} (hreg : Regular D (ops ++ more))
    (hclear : Op.clear ∉ more) {par : Name → Option Name} {depth : Name → Nat} (hT : OneTree (ops ++ more) par depth)
    {b b' : Buf X} (hb : b = (Buf.init D).run ops)
    (hb' : b' = (Buf.init D).run (ops ++ more)) (hframes : ∀ {n i}, IsFrame b n i → IsFrame b' n i) {i j : Nat}
    {l : List (Time × Nat)} (h : NewestPath b i j l) :
    ∀ {n : Name}, IsFrame b n i → ∃ l', NewestPath b' i j l' := by
  induction h with
  | nil => intro n _; exact ⟨[], .nil _⟩
  | cons he _ ih =>
    intro n hi
    obtain ⟨p, e, hp, hs⟩ := he.tells hreg.prefix hb hi
    obtain ⟨s', e', h1, h2, h3⟩ := hs.grows hclear hT
    obtain ⟨l', h4⟩ := ih hp
    obtain ⟨h6, _⟩ := (newest_iff hreg hb' (hframes hi) _ s' e').2 ⟨p, hframes hp, h1⟩
    exact ⟨_, .cons h6 h4⟩

/-- A transform available at time `t`: the newest one for that frame is to the same parent, then and later; it is
static, or from `t` on stamped `t` or later. -/
theorem ParentAt.grows {D : Duration} {ops more : List (Op X)} (hreg : Regular D (ops ++ more))
    (hclear : Op.clear ∉ more) {par : Name → Option Name} {depth : Name → Nat} (hT : OneTree (ops ++ more) par depth)
    {b b' : Buf X} (hb : b = (Buf.init D).run ops)
    (hb' : b' = (Buf.init D).run (ops ++ more)) (hframes : ∀ {n i}, IsFrame b n i → IsFrame b' n i) {t : Time}
    (ht : t ≠ 0) {i j : Nat} {e : X} (h : ParentAt b t i j e) {n : Name} (hi : IsFrame b n i) :
    ∃ p s s', IsFrame b p j ∧ NewestEdge b i j s ∧ NewestEdge b' i j s' ∧ ((s = 0 ∧ s' = 0) ∨ t ≤ s') := by
  have hw : WF D b := by rw [hb]; exact WF.run (WF.init D) ops
  have hn : n ≠ noParentName := isFrame_ne hw hi
  have hreg0 := hreg.prefix
  have hfc := frame_content D hn ops
  rw [← hb] at hfc
  unfold FrameContent at hfc
  obtain ⟨hj, c, sm, hc, hd, hp, hx⟩ := h
  cases hoff : offersFor n ops with
  | nil => rw [hoff] at hfc; rw [hfc i hi.2] at hc; cases hc
  | cons mf r =>
    obtain ⟨m0, f⟩ := mf
    cases f with
    | true =>
      rw [hoff] at hfc
      obtain ⟨i1, m, f, h1, h2, h3⟩ := hfc
      have e1 : i1 = i := by have h := hi.2; rw [h1] at h; exact Option.some.inj h
      subst e1
      rw [h3] at hc
      have hc := Option.some.inj hc
      subst hc
      simp only [Cache.getData, GetRes.ok.injEq] at hd
      subst hd
      have hedge : NewestEdge b i1 j 0 := ⟨hj, _, _, h3, rfl, hp, rfl⟩
      obtain ⟨p, e', hpf, hs⟩ := hedge.tells hreg0 hb hi
      obtain ⟨s', e'', h4, _, h5⟩ := hs.grows hclear hT
      obtain ⟨h6, _⟩ := (newest_iff hreg hb' (hframes hi) _ s' e'').2 ⟨p, hframes hpf, h4⟩
      exact ⟨p, 0, s', hpf, hedge, h6, Or.inl (h5 ⟨_, _, hoff⟩)⟩
    | false =>
      obtain ⟨i1, st, h1, h2, h3⟩ := C51_frame_window hreg0.dur hn ops hb hoff (by
        intro m s hm
        obtain ⟨⟨a, ha⟩, hv, _⟩ := offersFor_mem hm
        exact hreg0.range _ _ _ ha hv)
      have e1 : i1 = i := by have h := hi.2; rw [h1] at h; exact Option.some.inj h
      subst e1
      rw [h2] at hc
      have hc := Option.some.inj hc
      subst hc
      -- a sample with the answer's parent, and one not older than `t`
      have hsamples : ∃ o ∈ st, ∃ w ∈ st, o.parent = j ∧ t ≤ w.stamp := by
        have hd : dynGetData st t = .ok sm := hd
        unfold dynGetData at hd
        rcases findClosest_cases h3.1 t with ⟨_, e1⟩ | ⟨f, r, _, h0, _⟩ | ⟨_, s, hs, hst, e1⟩ |
          ⟨_, o, w, ha, ho, hw', e1⟩ | ⟨_, _, e1⟩
        · rw [e1] at hd; cases hd
        · exact absurd h0 ht
        · rw [e1] at hd
          simp only [GetRes.ok.injEq] at hd
          subst hd
          exact ⟨s, hs, s, hs, hp, by omega⟩
        · rw [e1] at hd
          refine ⟨o, ha.1, w, ha.2.1, ?_, by omega⟩
          simp only [] at hd
          split at hd
          · rename_i hsame
            simp only [GetRes.ok.injEq] at hd
            subst hd
            unfold interpolate at hp
            split at hp
            · rw [hsame]; exact hp
            · exact hp
          · simp only [GetRes.ok.injEq] at hd
            subst hd
            exact hp
        · rw [e1] at hd; cases hd
      obtain ⟨o, ho, w, hw1, hop, hwt⟩ := hsamples
      obtain ⟨mo, hmo, eo⟩ := (window_counts h3 o).1 ho
      obtain ⟨mw, hmw, ew⟩ := (window_counts h3 w).1 hw1
      have hwm : w.stamp = mw.stamp := by rw [ew]; rfl
      have hof : ∀ {m : Msg X}, m ∈ recentFor n ops [] → ∃ s, (m, s) ∈ offersFor n ops := by
        intro m hm
        rcases recentFor_mem hm with h | h
        · cases h
        · exact h
      obtain ⟨fo, hfo⟩ := hof hmo.mem
      have hpn : IsFrame b (stripSlash mo.parent) j := by
        refine ⟨hj, ?_⟩
        rw [mentioned_number hb (offersFor_mentions hfo).2.1]
        rw [eo] at hop
        exact congrArg some hop
      have hparo : par n = some (stripSlash mo.parent) := by
        obtain ⟨⟨a, ha⟩, hv, hch⟩ := offersFor_mem hfo
        rw [← hch]; exact hT.prefix.agrees _ _ _ ha hv
      obtain ⟨mx, h5, h6⟩ := exists_newest (l := recentFor n ops []) (by
        intro h; have := hmo.mem; rw [h] at this; cases this)
      have hnew := Newest.dynamic hoff h5 h6
      have hsame : stripSlash mx.parent = stripSlash mo.parent := by
        have := hT.prefix.newest hnew
        rw [hparo] at this
        exact (Option.some.inj this).symm
      rw [hsame] at hnew
      obtain ⟨s', e', h7, h8, _⟩ := hnew.grows hclear hT
      obtain ⟨h9, _⟩ := (newest_iff hreg0 hb hi _ _ _).2 ⟨_, hpn, hnew⟩
      obtain ⟨h10, _⟩ := (newest_iff hreg hb' (hframes hi) _ _ _).2 ⟨_, hframes hpn, h7⟩
      have := h6 _ hmw.mem
      exact ⟨_, _, _, hpn, h9, h10, Or.inr (by omega)⟩

/-- A chain of transforms available at time `t` follows newest transforms, then and later. -/
theorem Chain.grows {D : Duration} {ops more : List (Op X)} (hreg : Regular D (ops ++ more))
    (hclear : Op.clear ∉ more) {par : Name → Option Name} {depth : Name → Nat} (hT : OneTree (ops ++ more) par depth)
    {b b' : Buf X} (hb : b = (Buf.init D).run ops)
    (hb' : b' = (Buf.init D).run (ops ++ more)) (hframes : ∀ {n i}, IsFrame b n i → IsFrame b' n i) {t : Time}
    (ht : t ≠ 0) {i c : Nat} {x : X} {k : Nat} {n : Name} (hi : IsFrame b n i) (h : Chain b t i c x k) :
    ∃ p l l', IsFrame b p c ∧ NewestPath b i c l ∧ NewestPath b' i c l' ∧ Grown t l l' := by
  induction h with
  | refl => exact ⟨n, [], [], hi, .nil _, .nil _, .nil⟩
  | snoc _ he ih =>
    obtain ⟨p, l, l', hp, h1, h2, h3⟩ := ih
    obtain ⟨p', s, s', hp', h4, h5, h6⟩ := he.grows hreg hclear hT hb hb' hframes ht hp
    exact ⟨p', _, _, hp', h1.append (.cons h4 (.nil _)), h2.append (.cons h5 (.nil _)), h3.append (.cons h6 .nil)⟩

/-- The latest stamp of a known frame does not go back either. -/
theorem latestStamp_grows {D : Duration} {ops more : List (Op X)} (hreg : Regular D (ops ++ more))
    (hclear : Op.clear ∉ more) {b b' : Buf X} (hb : b = (Buf.init D).run ops)
    (hb' : b' = (Buf.init D).run (ops ++ more)) {n : Name} {i : Nat} (hi : IsFrame b n i) (hi' : IsFrame b' n i)
    {c : Cache X} (hc : b.getFrame i = some c) : ∃ c', b'.getFrame i = some c' ∧ c.latestStamp ≤ c'.latestStamp := by
  have hw : WF D b := by rw [hb]; exact WF.run (WF.init D) ops
  have hn : n ≠ noParentName := isFrame_ne hw hi
  have hfc := frame_content D hn ops
  rw [← hb] at hfc
  unfold FrameContent at hfc
  have hfc' := frame_content D hn (ops ++ more)
  rw [← hb'] at hfc'
  unfold FrameContent at hfc'
  have hrange : ∀ m s, (m, s) ∈ offersFor n (ops ++ more) → (m.stamp : Int) + D ≤ TIME_MAX := by
    intro m s hm
    obtain ⟨⟨a, ha⟩, hv, _⟩ := offersFor_mem hm
    exact hreg.range _ _ _ ha hv
  cases hoff : offersFor n ops with
  | nil => rw [hoff] at hfc; rw [hfc i hi.2] at hc; cases hc
  | cons mf r =>
    obtain ⟨m0, f⟩ := mf
    have h4 : offersFor n (ops ++ more) = (m0, f) :: (r ++ offersFor n more) := by
      rw [offersFor_append, hoff, List.cons_append]
    cases f with
    | true =>
      rw [hoff] at hfc; rw [h4] at hfc'
      obtain ⟨i1, m, f, h1, h2, h3⟩ := hfc
      obtain ⟨i2, m', f', h1', h2', h3'⟩ := hfc'
      have e1 : i1 = i := by have h := hi.2; rw [h1] at h; exact Option.some.inj h
      have e2 : i2 = i := by have h := hi'.2; rw [h1'] at h; exact Option.some.inj h
      subst e1; subst e2
      rw [h3] at hc
      rw [← Option.some.inj hc]
      exact ⟨_, h3', Nat.zero_le _⟩
    | false =>
      obtain ⟨i1, st, h1, h2, h3⟩ := C51_frame_window hreg.dur hn ops hb hoff
        (fun m s hm => hrange m s (by rw [offersFor_append]; exact List.mem_append_left _ hm))
      obtain ⟨i2, st', h1', h2', h3'⟩ := C51_frame_window hreg.dur hn _ hb' h4 hrange
      have e1 : i1 = i := by have h := hi.2; rw [h1] at h; exact Option.some.inj h
      have e2 : i2 = i := by have h := hi'.2; rw [h1'] at h; exact Option.some.inj h
      subst e1; subst e2
      rw [h2] at hc
      rw [← Option.some.inj hc]
      refine ⟨_, h2', ?_⟩
      cases st with
      | nil => exact Nat.zero_le _
      | cons s tl =>
        obtain ⟨m, hm, es⟩ := (window_counts h3 s).1 (List.mem_cons_self ..)
        obtain ⟨l, el, _⟩ := recentFor_noClear n hclear (recentFor n ops [])
        have hm' : m ∈ recentFor n (ops ++ more) [] := by
          rw [recentFor_append, el]; exact List.mem_append_left _ hm.mem
        obtain ⟨m', h5, h6⟩ := exists_newest (l := recentFor n (ops ++ more) []) (by intro h; rw [h] at hm'; cases hm')
        have heff : Effective D (ops ++ more) n m' := ⟨h5, fun a ha => by
          have := h6 a ha; have := hreg.dur; omega⟩
        have hin := (window_counts h3' _).2 ⟨m', heff, rfl⟩
        have hsl : s.stamp = m.stamp := by rw [es]; rfl
        have hle := h6 _ hm'
        show s.stamp ≤ dynLatestStamp st'
        cases st' with
        | nil => cases hin
        | cons s' tl' =>
          show s.stamp ≤ s'.stamp
          rcases List.mem_cons.1 hin with h | h
          · rw [← h]; show s.stamp ≤ m'.stamp; omega
          · have := List.rel_of_pairwise_cons h3'.1 h
            have : m'.stamp < s'.stamp := this
            omega

/-- **C83, forward.** As long as all messages agree with one tree and `clear` is not called, the time stamp of a lookup
at time 0 never goes back: whatever is sent between two successful lookups, the later one has the later or the same
stamp. -/
theorem C83_forward {U : X → Prop} (L : RigidLaws U) {D : Duration} (hD : 0 < D) {ops more : List (Op X)}
    (hreg : Regular D (ops ++ more)) (hU : AllOffered U (ops ++ more)) {par : Name → Option Name} {depth : Name → Nat}
    (hT : OneTree (ops ++ more) par depth) (hclear : Op.clear ∉ more)
    {target source : Name} {m m' : Msg X}
    (h : ((Buf.init D).run ops).lookupTransform target source 0 = .ok m)
    (h' : ((Buf.init D).run (ops ++ more)).lookupTransform target source 0 = .ok m') : m.stamp ≤ m'.stamp := by
  generalize hb : (Buf.init D).run ops = b at h
  generalize hb' : (Buf.init D).run (ops ++ more) = b' at h'
  have hb := hb.symm
  have hb' := hb'.symm
  have hw : WF D b := by rw [hb]; exact WF.run (WF.init D) ops
  have hw' : WF D b' := by rw [hb']; exact WF.run (WF.init D) _
  have hframes : ∀ {n i}, IsFrame b n i → IsFrame b' n i := by
    intro n i hi
    refine ⟨hi.1, ?_⟩
    rw [hb', run_append, ← hb]
    exact frameIDs_run more hw hi.2
  by_cases hne : target = source
  · subst hne
    unfold Buf.lookupTransform at h h'
    rw [if_pos rfl] at h h'
    injection h with h; injection h' with h'
    subst h; subst h'
    simp only [if_true]
    cases hc : b.getFrame (b.lookupFrameNumber target) with
    | none => exact Nat.zero_le _
    | some c =>
      have hi : IsFrame b target (b.lookupFrameNumber target) := by
        have h0 : b.lookupFrameNumber target ≠ 0 := by
          intro h; rw [h] at hc
          rw [hb, getFrame_zero hreg.prefix.names] at hc
          cases hc
        refine ⟨h0, ?_⟩
        unfold Buf.lookupFrameNumber at h0 ⊢
        cases hf : b.frameIDs target with
        | none => rw [hf] at h0; exact absurd rfl h0
        | some i => rfl
      have hi' := hframes hi
      obtain ⟨c', hc', hle⟩ := latestStamp_grows hreg hclear hb hb' hi hi' hc
      rw [lookupFrameNumber_isFrame hi', hc']
      exact hle
  · obtain ⟨g, s, hg, hs, lt, ls⟩ := lookup_ok_frames hne h
    have hg' := hframes hg
    have hs' := hframes hs
    have hT0 := hT.prefix
    have hreg0 := hreg.prefix
    -- roots before and after
    obtain ⟨_, rs⟩ := hT0.root source
    obtain ⟨_, rg⟩ := hT0.root target
    obtain ⟨_, rs'⟩ := hT.root source
    obtain ⟨_, rg'⟩ := hT.root target
    obtain ⟨r, _, rs⟩ := rs.root hreg0 hb hs
    obtain ⟨r1, _, rg⟩ := rg.root hreg0 hb hg
    obtain ⟨r', _, rs'⟩ := rs'.root hreg hb' hs'
    obtain ⟨r1', _, rg'⟩ := rg'.root hreg hb' hg'
    have e : r = r1 := Classical.byContradiction fun hd => by
      have := (C20_unconnected ⟨ops, hb⟩ hg hs lt ls rs rg hd).1
      rw [h] at this; cases this
    have e' : r' = r1' := Classical.byContradiction fun hd => by
      have := (C20_unconnected ⟨_, hb'⟩ hg' hs' lt ls rs' rg' hd).1
      rw [h'] at this; cases this
    subst e; subst e'
    obtain ⟨q, hq⟩ := C20_lowest_exists rs rg
    obtain ⟨q', hq'⟩ := C20_lowest_exists rs' rg'
    obtain ⟨⟨Ls, hLs⟩, ⟨Lg, hLg⟩, hlow⟩ := hq
    obtain ⟨⟨Ls', hLs'⟩, ⟨Lg', hLg'⟩, hlow'⟩ := hq'
    have hmax : ∀ {ops : List (Op X)} {b : Buf X}, Regular D ops → b = (Buf.init D).run ops → ∀ {n i j l}, IsFrame b n i →
        NewestPath b i j l → ∀ e ∈ l, e.1 < TIME_MAX := by
      intro ops b hr hb n i j l hi hp e he
      obtain ⟨c, x, _, hx⟩ := hp.way hr hb hi
      exact hx.stamp_lt hr hD _ (List.mem_map_of_mem he)
    have hU0 : AllOffered U ops := fun m a s hm => hU m a s (List.mem_append_left _ hm)
    obtain ⟨t, ht, hst, hat, _⟩ := C20_common_time L hU0 hb hg hs lt ls hne rs rg ⟨⟨_, hLs⟩, ⟨_, hLg⟩, hlow⟩ hLs hLg (by
      intro e he
      rcases List.mem_append.1 he with he | he
      · exact hmax hreg0 hb hs hLs e he
      · exact hmax hreg0 hb hg hLg e he)
    obtain ⟨t', ht', hst', _⟩ := C20_common_time L hU hb' hg' hs' lt ls hne rs' rg'
      ⟨⟨_, hLs'⟩, ⟨_, hLg'⟩, hlow'⟩ hLs' hLg' (by
        intro e he
        rcases List.mem_append.1 he with he | he
        · exact hmax hreg hb' hs' hLs' e he
        · exact hmax hreg hb' hg' hLg' e he)
    rw [hst m h, hst' m' h']
    by_cases h0 : t = 0
    · rw [h0]; exact Nat.zero_le _
    -- the ways available at `t`
    rw [(hat h0).1] at h
    have hchains : ∃ c x y n k, Chain b t s c x n ∧ Chain b t g c y k := by
      obtain ⟨g1, s1, hg1, hs1, _, _, _, hcase⟩ := C15_path_composition ⟨ops, hb⟩ h0 hne h
      have e1 : g1 = g := by have h1 := hg.2; rw [hg1.2] at h1; exact Option.some.inj h1
      have e2 : s1 = s := by have h1 := hs.2; rw [hs1.2] at h1; exact Option.some.inj h1
      subst e1; subst e2
      rcases hcase with ⟨k, _, hch⟩ | ⟨k, y, _, hch, hy⟩ | ⟨q, x, y, k, l, _, _, hx, hy, hxf⟩
      · exact ⟨_, _, _, _, _, hch, .refl⟩
      · exact ⟨_, _, _, _, _, .refl, hch⟩
      · exact ⟨_, _, _, _, _, hx, hy⟩
    obtain ⟨c, x, y, n, k, hx, hy⟩ := hchains
    obtain ⟨_, Ps, Ps', _, hPs, hPs', gs⟩ := hx.grows hreg hclear hT hb hb' hframes h0 hs
    obtain ⟨_, Pg, Pg', _, hPg, hPg', gg⟩ := hy.grows hreg hclear hT hb hb' hframes h0 hg
    obtain ⟨l3, h3⟩ := hlow c ⟨_, hPs⟩ ⟨_, hPg⟩
    obtain ⟨⟨Rs, hRs, _⟩, hr⟩ := rs
    obtain ⟨⟨Rg, hRg, _⟩, _⟩ := rg
    have e1 := hRs.unique' hr hPs (hLs.append h3)
    have e2 := hRg.unique' hr hPg (hLg.append h3)
    rw [e1] at gs
    rw [e2] at gg
    obtain ⟨Ks, _, _, gs, hKs⟩ := gs.take hLs hPs'
    obtain ⟨Kg, _, _, gg, hKg⟩ := gg.take hLg hPg'
    obtain ⟨⟨Rs', hRs', _⟩, hr'⟩ := rs'
    obtain ⟨⟨Rg', hRg', _⟩, _⟩ := rg'
    -- the meeting point is the same
    have hqq : q' = q := by
      obtain ⟨l3, h3⟩ := hlow' q ⟨_, hKs⟩ ⟨_, hKg⟩
      have e1 := hRs'.unique' hr' hKs (hLs'.append h3)
      have e2 := hRg'.unique' hr' hKg (hLg'.append h3)
      obtain ⟨k1, hk1⟩ := gs.split hLs e1 hLs'
      obtain ⟨k2, hk2⟩ := gg.split hLg e2 hLg'
      obtain ⟨k3, hk3⟩ := hlow q' ⟨_, hk1⟩ ⟨_, hk2⟩
      obtain ⟨nq, _, hnq, _⟩ := hLs.way hreg0 hb hs
      obtain ⟨K3, hK3⟩ := hk3.grows hreg hclear hT hb hb' hframes hnq
      -- a cycle through `q` on a path that ends
      obtain ⟨R2, _, hR2⟩ := hRs'.factor hr' hKs
      have := hR2.acyclic hr' (hK3.append h3)
      have hnil : K3 = [] := by
        cases K3 with
        | nil => rfl
        | cons x r => cases this
      subst hnil
      cases hK3
      rfl
    subst hqq
    have e1 := hRs'.unique' hr' hKs hLs'
    have e2 := hRg'.unique' hr' hKg hLg'
    subst e1; subst e2
    exact (gs.append gg).min_le ht ht'

/-! ### Examples: the hypotheses are met, and each of them is needed -/

section
/-- Newest transforms of the example history: `b → a` stamped 18, `c → a` static, `a → w` stamped 20. -/
theorem exOps_newest : Newest exOps ['b'] ['a'] 18 (200 : Int) ∧ Newest exOps ['c'] ['a'] 0 (1000 : Int) ∧
    Newest exOps ['a'] ['w'] 20 (3 : Int) ∧ ¬ ∃ p s e, Newest exOps ['w'] p s (e : Int) ∧ p ≠ noParentName := by
  refine ⟨.dynamic (m := tmsg ['a'] ['b'] 18 200) rfl (by decide) (by decide), .static (m := tmsg ['a'] ['/', 'c'] 0 1000) (s := true) rfl rfl,
    .dynamic (m := tmsg ['w'] ['a'] 20 3) rfl (by decide) (by decide), ?_⟩
  rintro ⟨p, s, e, h, _⟩
  obtain ⟨m, f, hm, _⟩ := h.offer
  have : offersFor ['w'] exOps = [] := by decide
  rw [this] at hm; cases hm

/-- `C83_value` on `b` and `c`: both end at `w`, they meet at `a`, the only dynamic transform on the way is stamped 18. -/
example : EndsBy exOps ['b'] ['w'] ∧ EndsBy exOps ['c'] ['w'] ∧ NewestWay exOps ['b'] ['a'] [18] (200 : Int) ∧
    NewestWay exOps ['c'] ['a'] [0] (1000 : Int) ∧ LowestBy exOps ['b'] ['c'] ['a'] ∧ MinNonzeroOf [18, 0] 18 := by
  obtain ⟨h1, h2, h3, h4⟩ := exOps_newest
  have hn : ['a'] ≠ noParentName := by decide
  have hn' : ['w'] ≠ noParentName := by decide
  have w1 : NewestWay exOps ['b'] ['a'] [18] (200 : Int) := .snoc .refl h1 hn
  have w2 : NewestWay exOps ['c'] ['a'] [0] (1000 : Int) := .snoc .refl h2 hn
  refine ⟨⟨⟨_, _, .snoc w1 h3 hn', by decide⟩, h4⟩, ⟨⟨_, _, .snoc w2 h3 hn', by decide⟩, h4⟩, w1, w2,
    ⟨⟨_, _, w1⟩, ⟨_, _, w2⟩, ?_⟩, Or.inr ⟨by decide, by decide, by decide⟩⟩
  -- everything above both is above `a`
  have up : ∀ {l x f}, NewestWay exOps ['b'] f l (x : Int) → f = ['b'] ∨ ReachesBy exOps ['a'] f := by
    intro l x f h
    induction h with
    | refl => exact Or.inl rfl
    | @snoc c p l s x e _ hs hp ih =>
      right
      rcases ih with rfl | ⟨l, x, h⟩
      · have := exOps_tree.newest hs
        have : p = ['a'] := (Option.some.inj this).symm
        subst this
        exact ⟨_, _, .refl⟩
      · exact ⟨_, _, .snoc h hs hp⟩
  rintro f ⟨l, x, h⟩ ⟨l', x', h'⟩
  rcases up h with rfl | h
  · exfalso
    have key : ∀ {l x f}, NewestWay exOps ['c'] f l (x : Int) → f ∈ [['c'], ['a'], ['w']] := by
      intro l x f h
      induction h with
      | refl => decide
      | @snoc c p l s x e _ hs hp ih =>
        have := exOps_tree.newest hs
        simp only [List.mem_cons, List.not_mem_nil, or_false] at ih
        rcases ih with rfl | rfl | rfl
        · rw [← Option.some.inj this]; decide
        · rw [← Option.some.inj this]; decide
        · cases this
    exact absurd (key h') (by decide)
  · exact h

/-- The example history meets the hypotheses of `C83_forward` (`exOps_regular`, `exOps_tree`); between the two lookups
`b` is updated. -/
example : Regular 100 exOps ∧ OneTree exOps exPar exDepth ∧ exOps = exOps.take 3 ++ exOps.drop 3 ∧
    Op.clear ∉ exOps.drop 3 ∧
    ((Buf.init 100).run (exOps.take 3)).lookupTransform ['w'] ['b'] 0 = .ok (tmsg ['w'] ['b'] 12 101) ∧
    ((Buf.init 100).run exOps).lookupTransform ['w'] ['b'] 0 = .ok (tmsg ['w'] ['b'] 18 202) :=
  ⟨exOps_regular, exOps_tree, rfl, by simp [exOps, put], by decide, by decide⟩
end

/-- **C83, limit (finding).** The hypotheses are needed.  The stamp of lookups at time 0 goes back when a frame moves to
a parent whose transforms are older (from 30 to 12), and after `clear` (from 20 to 5). -/
theorem C83_back_finding :
    (∃ ops more : List (Op Int), Op.clear ∉ more ∧
      ((Buf.init 100).run ops).lookupTransform ['w'] ['b'] 0 = .ok (tmsg ['w'] ['b'] 30 2) ∧
      ((Buf.init 100).run (ops ++ more)).lookupTransform ['w'] ['b'] 0 = .ok (tmsg ['w'] ['b'] 12 8)) ∧
    (∃ ops more : List (Op Int), OneTree (ops ++ more) exPar exDepth ∧
      ((Buf.init 100).run ops).lookupTransform ['w'] ['a'] 0 = .ok (tmsg ['w'] ['a'] 20 3) ∧
      ((Buf.init 100).run (ops ++ more)).lookupTransform ['w'] ['a'] 0 = .ok (tmsg ['w'] ['a'] 5 4)) := by
  refine ⟨⟨[put ['w'] ['c'] 12 1, put ['w'] ['b'] 30 2], [put ['c'] ['b'] 12 7, put ['c'] ['b'] 40 7], ?_, ?_, ?_⟩,
    ⟨exOps, [.clear, put ['w'] ['a'] 5 4], ?_, ?_, ?_⟩⟩
  · simp [put]
  · decide
  · decide
  · refine ⟨?_, exOps_tree.deeper, exOps_tree.bound, exOps_tree.named⟩
    intro m a s hm hv
    rcases List.mem_append.1 hm with hm | hm
    · exact exOps_tree.agrees m a s hm hv
    · simp only [put, List.mem_cons, List.not_mem_nil, or_false, reduceCtorEq, false_or, Op.set.injEq] at hm
      obtain ⟨rfl, _⟩ := hm
      decide
  · decide
  · decide

end Tf2
