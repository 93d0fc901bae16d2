import Verif.Proofs.Denote
import Verif.Props.Lookup
import Verif.Props.Listing

/-!
# C59, C60: lookups as a function of the messages sent

The statements mention no state of the buffer: only the history of calls, and the answer to the next call.
-/
namespace Tf2

variable {X : Type} [Rigid X]

/-! ### From the buffer to the messages -/

theorem leads_of_chain {D : Duration} {ops : List (Op X)} (hreg : Regular D ops) (hz : InterpZero X) {b : Buf X}
    (hb : b = (Buf.init D).run ops) {t : Time} (ht : t ≠ 0) {a : Name} {i j k : Nat} {x : X} (hi : IsFrame b a i)
    (h : Chain b t i j x k) : ∃ c, IsFrame b c j ∧ Leads D ops t a c x k := by
  induction h with
  | refl => exact ⟨a, hi, .refl⟩
  | @snoc c p x e k _ he ih =>
    obtain ⟨n, hn, hl⟩ := ih
    obtain ⟨q, hq, hs⟩ := (says_iff hreg hz hb ht hn p e).1 he
    refine ⟨q, hq, .snoc hl hs ?_⟩
    intro h
    have hw : WF D b := by rw [hb]; exact WF.run (WF.init D) ops
    have h1 := hq.2
    rw [h] at h1
    exact hq.1 (by have h0 := (hw.ids noParentName 0).2 hw.zero; rw [h1] at h0; injection h0)

theorem Says.mentioned {D : Duration} {ops : List (Op X)} {t : Time} {n p : Name} {e : X} (h : Says D ops t n p e) :
    n ∈ mentions ops ∧ p ∈ mentions ops := by
  obtain ⟨m, s, hm, rfl⟩ := h.offer
  have h1 := offersFor_mentions hm
  exact ⟨h1.1, h1.2.1⟩

theorem chain_of_leads {D : Duration} {ops : List (Op X)} (hreg : Regular D ops) (hz : InterpZero X) {b : Buf X}
    (hb : b = (Buf.init D).run ops) {t : Time} (ht : t ≠ 0) {a c : Name} {i k : Nat} {x : X} (hi : IsFrame b a i)
    (h : Leads D ops t a c x k) : ∃ j, IsFrame b c j ∧ Chain b t i j x k := by
  induction h with
  | refl => exact ⟨i, hi, .refl⟩
  | @snoc c p x e k _ hs hp ih =>
    obtain ⟨j, hj, hc⟩ := ih
    have hq := isFrame_of_mentioned hb hs.mentioned.2 hp
    exact ⟨_, hq, .snoc hc ((says_iff hreg hz hb ht hj _ e).2 ⟨p, hq, hs⟩)⟩

theorem ends_of_wayEnds {D : Duration} {ops : List (Op X)} (hreg : Regular D ops) (hz : InterpZero X) {b : Buf X}
    (hb : b = (Buf.init D).run ops) {t : Time} (ht : t ≠ 0) {a : Name} {i : Nat} (hi : IsFrame b a i)
    (h : WayEnds D ops t a) : ∃ r, Rooted b t i r := by
  obtain ⟨r, x, k, hk, hl, hno⟩ := h
  obtain ⟨j, hj, hc⟩ := chain_of_leads hreg hz hb ht hi hl
  refine ⟨j, k, hk, ⟨x, hc⟩, ?_⟩
  rintro ⟨p, e, hp⟩
  obtain ⟨q, hq, hs⟩ := (says_iff hreg hz hb ht hj p e).1 hp
  refine hno ⟨q, e, hs, ?_⟩
  intro h
  have hw : WF D b := by rw [hb]; exact WF.run (WF.init D) ops
  have h1 := hq.2
  rw [h] at h1
  exact hq.1 (by have h0 := (hw.ids noParentName 0).2 hw.zero; rw [h1] at h0; injection h0)

/-! ### C59 -/

/-- **C59, soundness.** A successful lookup between different frames at a time other than 0: the messages lead from
both frames to a common frame, and the answer is the composition along these ways, with the right labels.  Nothing
is assumed about loops or algebra. -/
theorem C59_sound {D : Duration} {ops : List (Op X)} (hreg : Regular D ops) (hz : InterpZero X)
    {target source : Name} {t : Time} (ht : t ≠ 0) (hne : target ≠ source) {m : Msg X}
    (h : ((Buf.init D).run ops).lookupTransform target source t = .ok m) :
    target ∈ mentions ops ∧ source ∈ mentions ops ∧ LegalName target ∧ LegalName source ∧
    m.parent = target ∧ m.child = source ∧ m.stamp = t ∧
    ((∃ k, Leads D ops t source target m.xf k) ∨
     (∃ k y, Leads D ops t target source y k ∧ m.xf = Rigid.inv y) ∨
     (∃ c x y k l, Leads D ops t source c x k ∧ Leads D ops t target c y l ∧ m.xf = Rigid.comp (Rigid.inv y) x)) := by
  have hR : Reachable D ((Buf.init D : Buf X).run ops) := ⟨ops, rfl⟩
  obtain ⟨g, s, hg, hs, lg, ls⟩ := lookup_ok_frames hne h
  have hment : ∀ {n : Name} {i : Nat}, IsFrame ((Buf.init D : Buf X).run ops) n i → n ∈ mentions ops := by
    intro n i hi
    have hf : ((Buf.init D : Buf X).run ops).frameExists n = true := by
      unfold Buf.frameExists; rw [hi.2]; rfl
    rcases ((C36_frame_strings D ops).2.2.2 n).1 hf with h | h
    · exact h
    · exfalso
      have hw := hR.wf
      have h1 := hi.2
      rw [h] at h1
      exact hi.1 (by have h0 := (hw.ids noParentName 0).2 hw.zero; rw [h1] at h0; injection h0)
  obtain ⟨g', s', hg', hs', hp, hc, hst, hcase⟩ := C15_path_composition hR ht hne h
  refine ⟨hment hg, hment hs, lg, ls, hp, hc, hst, ?_⟩
  have hw := hR.wf
  rcases hcase with ⟨k, _, hch⟩ | ⟨k, y, _, hch, hy⟩ | ⟨q, x, y, k, l, _, _, hx, hy, hxf⟩
  · obtain ⟨c, hcf, hl⟩ := leads_of_chain hreg hz rfl ht hs' hch
    have : c = target := hw.inj hcf.2 hg'.2
    subst this
    exact Or.inl ⟨k, hl⟩
  · obtain ⟨c, hcf, hl⟩ := leads_of_chain hreg hz rfl ht hg' hch
    have : c = source := hw.inj hcf.2 hs'.2
    subst this
    exact Or.inr (Or.inl ⟨k, y, hl, hy⟩)
  · obtain ⟨c, hcf, hl⟩ := leads_of_chain hreg hz rfl ht hs' hx
    obtain ⟨c', hcf', hl'⟩ := leads_of_chain hreg hz rfl ht hg' hy
    have : c' = c := hw.inj hcf'.2 hcf.2
    subst this
    exact Or.inr (Or.inr ⟨c', x, y, k, l, hl, hl', hxf⟩)

/-- **C59, completeness.** Between frames that were mentioned and whose ways up end, a lookup at a time other than 0
succeeds exactly when the messages lead from both to a common frame. -/
theorem C59_complete {D : Duration} {ops : List (Op X)} (hreg : Regular D ops) (hz : InterpZero X)
    {target source : Name} {t : Time} (ht : t ≠ 0) (hg : target ∈ mentions ops) (hs : source ∈ mentions ops)
    (ng : target ≠ noParentName) (ns : source ≠ noParentName)
    (lg : LegalName target) (ls : LegalName source) (eg : WayEnds D ops t target) (es : WayEnds D ops t source) :
    (∃ m, ((Buf.init D).run ops).lookupTransform target source t = .ok m) ↔
      ∃ c x y k l, Leads D ops t source c x k ∧ Leads D ops t target c y l := by
  have hw : WF D ((Buf.init D : Buf X).run ops) := WF.run (WF.init D) ops
  have fg := isFrame_of_mentioned (D := D) (X := X) rfl hg ng
  have fs := isFrame_of_mentioned (D := D) (X := X) rfl hs ns
  obtain ⟨r, rs⟩ := ends_of_wayEnds hreg hz rfl ht fs es
  obtain ⟨r', rg⟩ := ends_of_wayEnds hreg hz rfl ht fg eg
  rw [lookup_ok_iff hw ht fg fs lg ls rs rg]
  obtain ⟨k, _, Es⟩ := rs
  obtain ⟨l, _, Eg⟩ := rg
  constructor
  · rintro rfl
    obtain ⟨⟨x, hx⟩, _⟩ := Es
    obtain ⟨⟨y, hy⟩, _⟩ := Eg
    obtain ⟨c, hc, h1⟩ := leads_of_chain hreg hz rfl ht fs hx
    obtain ⟨c', hc', h2⟩ := leads_of_chain hreg hz rfl ht fg hy
    have : c' = c := hw.inj hc'.2 hc.2
    subst this
    exact ⟨c', x, y, k, l, h1, h2⟩
  · rintro ⟨c, x, y, k', l', h1, h2⟩
    obtain ⟨j, hj, c1⟩ := chain_of_leads hreg hz rfl ht fs h1
    obtain ⟨j', hj', c2⟩ := chain_of_leads hreg hz rfl ht fg h2
    have : j' = j := by have h3 := hj.2; rw [hj'.2] at h3; injection h3
    subst this
    have e1 := Es.of_chain c1
    have e2 := EndsAt.cons c2 e1
    exact (e2.unique Eg).1

/-- **C59, value.** Over well-formed transforms, the answer is the composition along the ways to *any* common frame:
source up to it, and down to the target. -/
theorem C59_value {U : X → Prop} (L : RigidLaws U) {D : Duration} {ops : List (Op X)} (hU : AllOffered U ops)
    (hreg : Regular D ops) (hz : InterpZero X) {target source : Name} {t : Time} (ht : t ≠ 0) (hne : target ≠ source)
    {m : Msg X} (h : ((Buf.init D).run ops).lookupTransform target source t = .ok m) (es : WayEnds D ops t source)
    {c : Name} {x y : X} {k l : Nat} (hx : Leads D ops t source c x k) (hy : Leads D ops t target c y l) :
    m.xf = Rigid.comp (Rigid.inv y) x := by
  obtain ⟨g, s, fg, fs, lg, ls⟩ := lookup_ok_frames hne h
  obtain ⟨r, n, _, Es⟩ := ends_of_wayEnds hreg hz rfl ht fs es
  obtain ⟨j, hj, c1⟩ := chain_of_leads hreg hz rfl ht fs hx
  obtain ⟨j', hj', c2⟩ := chain_of_leads hreg hz rfl ht fg hy
  have : j' = j := by have h3 := hj.2; rw [hj'.2] at h3; injection h3
  subst this
  exact C15_common_ancestor L hU rfl ht hne h fg fs Es c1 c2

/-! ### C60: one tree -/

theorem counts_of_recent {D : Duration} {ops : List (Op X)} {n : Name} {m : Msg X} (h : m ∈ recentFor n ops [])
    (hD : ∀ a ∈ recentFor n ops [], (a.stamp : Int) ≤ m.stamp + D) : ∃ m', Effective D ops n m' ∧ m'.stamp = m.stamp := by
  cases hf : (recentFor n ops []).find? (fun a => a.stamp == m.stamp) with
  | none =>
    have := List.find?_eq_none.1 hf m h
    simp at this
  | some m' =>
    have hst : m'.stamp = m.stamp := by
      have := List.find?_some hf
      simpa using this
    exact ⟨m', ⟨by rw [hst]; exact hf, by rw [hst]; exact hD⟩, hst⟩

theorem Says.covered {D : Duration} {ops : List (Op X)} {t : Time} {n p : Name} {e : X} (h : Says D ops t n p e) :
    Covered D ops t n := by
  cases h with
  | static h1 _ => exact Or.inl ⟨_, _, h1⟩
  | exact h1 hm hst => exact Or.inr ⟨⟨_, _, h1⟩, _, hm.mem, _, hm.mem, by omega, by omega, hm.2⟩
  | between h1 ho hw h2 h3 _ _ => exact Or.inr ⟨⟨_, _, h1⟩, _, ho.mem, _, hw.mem, by omega, by omega, ho.2⟩
  | switch h1 ho hw h2 h3 _ _ => exact Or.inr ⟨⟨_, _, h1⟩, _, ho.mem, _, hw.mem, by omega, by omega, ho.2⟩

theorem Covered.says {D : Duration} {ops : List (Op X)} (hreg : Regular D ops) (hz : InterpZero X) {t : Time}
    (ht : t ≠ 0) {n : Name} (hpar : ∀ m s, (m, s) ∈ offersFor n ops → stripSlash m.parent ≠ noParentName)
    (h : Covered D ops t n) : ∃ p e, Says D ops t n p e := by
  rcases h with ⟨m0, r, h0⟩ | ⟨⟨m0, r, h0⟩, m1, hm1, m2, hm2, h1, h2, h3⟩
  · cases hl : (offersFor n ops).getLast? with
    | none => rw [h0] at hl; simp at hl
    | some ms => exact ⟨_, _, .static h0 hl⟩
  · obtain ⟨b, hb⟩ : ∃ b : Buf X, b = (Buf.init D).run ops := ⟨_, rfl⟩
    have hmem0 : (m0, false) ∈ offersFor n ops := by rw [h0]; exact List.mem_cons_self ..
    have hn := offers_ne_reserved hreg hmem0
    have hment : n ∈ mentions ops := (offersFor_mentions hmem0).1
    have hf := isFrame_of_mentioned hb hment hn
    obtain ⟨i, st, g1, g2, g3⟩ := C51_frame_window hreg.dur hn ops hb h0 (by
      intro m s hm
      obtain ⟨⟨a, ha⟩, hv, _⟩ := offersFor_mem hm
      exact hreg.range _ _ _ ha hv)
    have hcnt := window_counts g3
    obtain ⟨m1', c1, e1⟩ := counts_of_recent hm1 h3
    obtain ⟨m2', c2, e2⟩ := counts_of_recent (D := D) hm2 (fun a ha => by have := h3 a ha; omega)
    have s1 := (hcnt _).2 ⟨m1', c1, rfl⟩
    have s2 := (hcnt _).2 ⟨m2', c2, rfl⟩
    have hok : ∃ s ∈ st, ∃ d, dynGetData st t = .ok d ∧ d.parent = s.parent := by
      unfold dynGetData
      rcases findClosest_cases g3.1 t with ⟨q0, q1⟩ | ⟨f, r, _, q0, _⟩ | ⟨_, s, hs, _, q1⟩ |
        ⟨_, o, w, ha, _, _, q1⟩ | ⟨_, hout, q1⟩
      · rw [q0] at s1; cases s1
      · exact absurd q0 ht
      · rw [q1]; exact ⟨s, hs, s, rfl, rfl⟩
      · rw [q1]
        refine ⟨o, ha.1, ?_⟩
        simp only []
        split
        · refine ⟨_, rfl, ?_⟩
          unfold interpolate
          split
          · rename_i hh; have := ha.2.2.1; omega
          · rfl
        · exact ⟨_, rfl, rfl⟩
      · exfalso
        have t1 : (toSample b.lookupFrameNumber n m1').stamp = m1'.stamp := rfl
        have t2 : (toSample b.lookupFrameNumber n m2').stamp = m2'.stamp := rfl
        rcases hout with h | h
        · have := h _ s1; omega
        · have := h _ s2; omega
    obtain ⟨s, hs, d, hd, hdp⟩ := hok
    obtain ⟨m, hm, rfl⟩ := (hcnt s).1 hs
    obtain ⟨f, hoff⟩ : ∃ f, (m, f) ∈ offersFor n ops := by
      rcases recentFor_mem hm.mem with h | h
      · cases h
      · exact h
    have hpf := isFrame_of_mentioned hb (offersFor_mentions hoff).2.1 (hpar _ _ hoff)
    have hif : IsFrame b n i := by
      have := hf.2; rw [g1] at this; injection this with this
      rw [this]; exact hf
    have hP : ParentAt b t i (b.lookupFrameNumber (stripSlash m.parent)) d.xf :=
      ⟨hpf.1, _, _, g2, hd, by rw [hdp]; rfl, rfl⟩
    obtain ⟨p, _, hsays⟩ := (says_iff hreg hz hb ht hif _ _).1 hP
    exact ⟨p, d.xf, hsays⟩

theorem OneTree.says {D : Duration} {ops : List (Op X)} {par : Name → Option Name} {depth : Name → Nat}
    (hT : OneTree ops par depth) {t : Time} {n p : Name} {e : X} (h : Says D ops t n p e) : par n = some p := by
  obtain ⟨m, s, hm, rfl⟩ := h.offer
  obtain ⟨⟨a, ha⟩, hv, hc⟩ := offersFor_mem hm
  rw [← hc]; exact hT.agrees _ _ _ ha hv

theorem OneTree.told_iff {D : Duration} {ops : List (Op X)} {par : Name → Option Name} {depth : Name → Nat}
    (hT : OneTree ops par depth) (hreg : Regular D ops) (hz : InterpZero X) {t : Time} (ht : t ≠ 0) (n : Name) :
    Covered D ops t n ↔ ∃ p e, Says D ops t n p e := by
  refine ⟨Covered.says hreg hz ht ?_, fun ⟨_, _, h⟩ => h.covered⟩
  intro m s hm
  obtain ⟨⟨a, ha⟩, hv, hc⟩ := offersFor_mem hm
  exact hT.named _ _ (hT.agrees _ _ _ ha hv)

theorem OneTree.upTo_iff {D : Duration} {ops : List (Op X)} {par : Name → Option Name} {depth : Name → Nat}
    (hT : OneTree ops par depth) (hreg : Regular D ops) (hz : InterpZero X) {t : Time} (ht : t ≠ 0) (a c : Name) :
    UpTo par (Covered D ops t) a c ↔ ∃ x k, Leads D ops t a c x k := by
  constructor
  · intro h
    induction h with
    | refl => exact ⟨_, _, .refl⟩
    | @snoc c p _ hp ht' ih =>
      obtain ⟨x, k, hl⟩ := ih
      obtain ⟨p', e, hs⟩ := (hT.told_iff hreg hz ht c).1 ht'
      have : p' = p := by have := hT.says hs; rw [hp] at this; injection this with this; exact this.symm
      subst this
      exact ⟨_, _, .snoc hl hs (hT.named _ _ hp)⟩
  · rintro ⟨x, k, h⟩
    induction h with
    | refl => exact .refl
    | snoc _ hs _ ih => exact .snoc ih (hT.says hs) hs.covered

theorem OneTree.wayEnds {D : Duration} {ops : List (Op X)} {par : Name → Option Name} {depth : Name → Nat}
    (hT : OneTree ops par depth) (t : Time) (a : Name) : WayEnds D ops t a := by
  have key : ∀ k, (∃ r x k', k' ≤ k ∧ Leads D ops t a r x k' ∧ ¬ ∃ p e, Says D ops t r p e ∧ p ≠ noParentName) ∨
      ∃ c x, Leads D ops t a c x (k + 1) ∧ depth c + (k + 1) ≤ depth a := by
    intro k
    induction k with
    | zero =>
      by_cases h : ∃ p e, Says D ops t a p e ∧ p ≠ noParentName
      · obtain ⟨p, e, hs, hp⟩ := h
        have := hT.deeper _ _ (hT.says hs)
        exact Or.inr ⟨p, _, .snoc .refl hs hp, by omega⟩
      · exact Or.inl ⟨a, _, 0, Nat.le_refl _, .refl, h⟩
    | succ k ih =>
      rcases ih with ⟨r, x, k', hk, h⟩ | ⟨c, x, hl, hd⟩
      · exact Or.inl ⟨r, x, k', by omega, h⟩
      · by_cases h : ∃ p e, Says D ops t c p e ∧ p ≠ noParentName
        · obtain ⟨p, e, hs, hp⟩ := h
          have := hT.deeper _ _ (hT.says hs)
          exact Or.inr ⟨p, _, .snoc hl hs hp, by omega⟩
        · exact Or.inl ⟨c, x, k + 1, Nat.le_refl _, hl, h⟩
  rcases key 1000 with ⟨r, x, k', hk, h⟩ | ⟨c, x, _, hd⟩
  · exact ⟨r, x, k', hk, h⟩
  · have := hT.bound a; omega

/-- **C60.** When all messages agree with one tree, `canTransform` between different frames at a time other than 0
holds exactly when both names are legal and were mentioned, and the frames on the two ways up to a common frame have
all been told about at that time. -/
theorem C60_available {D : Duration} {ops : List (Op X)} (hreg : Regular D ops) (hz : InterpZero X)
    {par : Name → Option Name} {depth : Name → Nat} (hT : OneTree ops par depth) {target source : Name} {t : Time}
    (ht : t ≠ 0) (hne : target ≠ source) (ng : target ≠ noParentName) (ns : source ≠ noParentName) :
    ((Buf.init D).run ops).canTransform target source t = .ok true ↔
      LegalName target ∧ LegalName source ∧ target ∈ mentions ops ∧ source ∈ mentions ops ∧
      ∃ c, UpTo par (Covered D ops t) source c ∧ UpTo par (Covered D ops t) target c := by
  have hR : Reachable D ((Buf.init D : Buf X).run ops) := ⟨ops, rfl⟩
  obtain ⟨v, hv, hiff⟩ := C13_canTransform_iff hR target source t
  rw [hv]
  simp only [Res.ok.injEq]
  rw [hiff]
  constructor
  · rintro ⟨m, hm⟩
    obtain ⟨h1, h2, h3, h4, _⟩ := C59_sound hreg hz ht hne hm
    obtain ⟨c, x, y, k, l, hx, hy⟩ := (C59_complete hreg hz ht h1 h2 ng ns h3 h4 (hT.wayEnds t _) (hT.wayEnds t _)).1 ⟨m, hm⟩
    exact ⟨h3, h4, h1, h2, c, (hT.upTo_iff hreg hz ht _ _).2 ⟨x, k, hx⟩, (hT.upTo_iff hreg hz ht _ _).2 ⟨y, l, hy⟩⟩
  · rintro ⟨h3, h4, h1, h2, c, hx, hy⟩
    obtain ⟨x, k, hx⟩ := (hT.upTo_iff hreg hz ht _ _).1 hx
    obtain ⟨y, l, hy⟩ := (hT.upTo_iff hreg hz ht _ _).1 hy
    exact (C59_complete hreg hz ht h1 h2 ng ns h3 h4 (hT.wayEnds t _) (hT.wayEnds t _)).2 ⟨c, x, y, k, l, hx, hy⟩

theorem recentFor_append (n : Name) (ops more : List (Op X)) : ∀ acc,
    recentFor n (ops ++ more) acc = recentFor n more (recentFor n ops acc) := by
  induction ops with
  | nil => intro acc; rfl
  | cons o r ih =>
    intro acc
    cases o with
    | clear => simp only [List.cons_append, recentFor]; exact ih []
    | set m a s =>
      simp only [List.cons_append, recentFor]
      split <;> exact ih _

theorem recentFor_noClear (n : Name) {more : List (Op X)} (h : Op.clear ∉ more) : ∀ acc,
    ∃ l, recentFor n more acc = acc ++ l ∧ ∀ m ∈ l, ∃ a s, Op.set m a s ∈ more ∧ ValidMsg m := by
  induction more with
  | nil => intro acc; exact ⟨[], by simp [recentFor], by simp⟩
  | cons o r ih =>
    intro acc
    have h' : Op.clear ∉ r := fun hh => h (List.mem_cons_of_mem _ hh)
    cases o with
    | clear => exact absurd (List.mem_cons_self ..) h
    | set m a s =>
      simp only [recentFor]
      split
      · rename_i hv
        obtain ⟨l, e, hl⟩ := ih h' (acc ++ [m])
        refine ⟨m :: l, by rw [e]; simp, ?_⟩
        intro m' hm'
        rcases List.mem_cons.1 hm' with rfl | hm'
        · exact ⟨a, s, List.mem_cons_self .., hv.1⟩
        · obtain ⟨a', s', h1, h2⟩ := hl m' hm'
          exact ⟨a', s', List.mem_cons_of_mem _ h1, h2⟩
      · obtain ⟨l, e, hl⟩ := ih h' acc
        refine ⟨l, e, ?_⟩
        intro m' hm'
        obtain ⟨a', s', h1, h2⟩ := hl m' hm'
        exact ⟨a', s', List.mem_cons_of_mem _ h1, h2⟩

theorem Covered.persists {D : Duration} {ops more : List (Op X)} {t : Time} (hclear : Op.clear ∉ more) {gap : Nat}
    {n : Name}
    (hdense : (∃ m ∈ recentFor n ops [], m.stamp ≤ t) → ∃ m ∈ recentFor n ops [], m.stamp ≤ t ∧ t ≤ m.stamp + gap)
    (hnew : ∀ m a s, Op.set m a s ∈ more → ValidMsg m → (m.stamp : Int) + gap ≤ t + D)
    (h : Covered D ops t n) : Covered D (ops ++ more) t n := by
  rcases h with ⟨m0, r, h0⟩ | ⟨⟨m0, r, h0⟩, m1, hm1, m2, hm2, h1, h2, h3⟩
  · exact Or.inl ⟨m0, r ++ offersFor n more, by rw [offersFor_append, h0]; rfl⟩
  · refine Or.inr ⟨⟨m0, r ++ offersFor n more, by rw [offersFor_append, h0]; rfl⟩, ?_⟩
    rw [recentFor_append]
    obtain ⟨l, e, hl⟩ := recentFor_noClear n hclear (recentFor n ops [])
    rw [e]
    obtain ⟨m1', hm1', h4, h5⟩ := hdense ⟨m1, hm1, h1⟩
    have key : ∀ a, a ∈ recentFor n ops [] → a.stamp ≤ t → t ≤ a.stamp + gap → m1.stamp ≤ a.stamp →
        ∀ x ∈ recentFor n ops [] ++ l, (x.stamp : Int) ≤ a.stamp + D := by
      intro a _ q2 q3 q4 x hx
      rcases List.mem_append.1 hx with hx | hx
      · have := h3 x hx; omega
      · obtain ⟨a', s', hh1, hh2⟩ := hl x hx
        have := hnew x a' s' hh1 hh2
        omega
    by_cases hle : m1.stamp ≤ m1'.stamp
    · exact ⟨m1', List.mem_append_left _ hm1', m2, List.mem_append_left _ hm2, h4, h2, key m1' hm1' h4 h5 hle⟩
    · exact ⟨m1, List.mem_append_left _ hm1, m2, List.mem_append_left _ hm2, h1, h2,
        key m1 hm1 h1 (by omega) (Nat.le_refl _)⟩

/-- **C60, persistence.** What could be transformed at time `t` can still be transformed at time `t` after further
messages, as long as the buffer is not cleared, the tree does not change, the messages for each frame came at most
`gap` apart around `t`, and nothing newer than `t + D - gap` has been sent. -/
theorem C60_persists {D : Duration} {ops more : List (Op X)} (hreg : Regular D (ops ++ more)) (hz : InterpZero X)
    {par : Name → Option Name} {depth : Name → Nat} (hT : OneTree (ops ++ more) par depth)
    {target source : Name} {t : Time} (ht : t ≠ 0) (hne : target ≠ source) (ng : target ≠ noParentName)
    (ns : source ≠ noParentName) (hclear : Op.clear ∉ more) {gap : Nat}
    (hdense : ∀ n, (∃ m ∈ recentFor n ops [], m.stamp ≤ t) → ∃ m ∈ recentFor n ops [], m.stamp ≤ t ∧ t ≤ m.stamp + gap)
    (hnew : ∀ m a s, Op.set m a s ∈ more → ValidMsg m → (m.stamp : Int) + gap ≤ t + D)
    (h : ((Buf.init D).run ops).canTransform target source t = .ok true) :
    ((Buf.init D).run (ops ++ more)).canTransform target source t = .ok true := by
  have hreg' : Regular D ops := ⟨hreg.dur, fun m a s hm => hreg.range m a s (List.mem_append_left _ hm),
    fun m a s hm => hreg.names m a s (List.mem_append_left _ hm)⟩
  have hT' : OneTree ops par depth :=
    ⟨fun m a s hm => hT.agrees m a s (List.mem_append_left _ hm), hT.deeper, hT.bound, hT.named⟩
  rw [C60_available hreg' hz hT' ht hne ng ns] at h
  rw [C60_available hreg hz hT ht hne ng ns]
  obtain ⟨h1, h2, h3, h4, c, hx, hy⟩ := h
  have hup : ∀ {a c : Name}, UpTo par (Covered D ops t) a c → UpTo par (Covered D (ops ++ more) t) a c := by
    intro a c hu
    induction hu with
    | refl => exact .refl
    | snoc _ hp ht' ih => exact .snoc ih hp (ht'.persists hclear (hdense _) hnew)
  refine ⟨h1, h2, ?_, ?_, c, hup hx, hup hy⟩
  · rw [mentions_append]; exact List.mem_append_left _ h3
  · rw [mentions_append]; exact List.mem_append_left _ h4

/-- **C60, finding.** The time the buffer remembers is shorter than its cache duration by up to the distance of two
messages: with duration 10, frame `a` known at 8 (between messages at 1 and 9), a message at 12 makes time 8
unavailable although 8 + 10 ≥ 12. -/
theorem C60_gap_finding :
    ((Buf.init 10 : Buf Int).run [put ['w'] ['a'] 1 0, put ['w'] ['a'] 9 8]).canTransform ['w'] ['a'] 8 = .ok true ∧
    ((Buf.init 10 : Buf Int).run [put ['w'] ['a'] 1 0, put ['w'] ['a'] 9 8, put ['w'] ['a'] 12 11]).canTransform
      ['w'] ['a'] 8 = .ok false := by decide

/-- What the messages say at time `t` is not changed by messages for frames that already have data at or after `t`,
newer than that data. -/
theorem Says.stable {D : Duration} {ops more : List (Op X)} {t : Time} (hclear : Op.clear ∉ more) {gap : Nat}
    (hdense : ∀ n, (∃ m ∈ recentFor n ops [], m.stamp ≤ t) → ∃ m ∈ recentFor n ops [], m.stamp ≤ t ∧ t ≤ m.stamp + gap)
    (hnew : ∀ m a s, Op.set m a s ∈ more → ValidMsg m → (m.stamp : Int) + gap ≤ t + D ∧
      (∃ m0 r, offersFor (stripSlash m.child) ops = (m0, false) :: r) ∧
      ∃ w ∈ recentFor (stripSlash m.child) ops [], t ≤ w.stamp ∧ w.stamp < m.stamp)
    {n p : Name} {e : X} (h : Says D ops t n p e) : Says D (ops ++ more) t n p e := by
  -- the new messages for `n`
  have hl : ∃ l, recentFor n (ops ++ more) [] = recentFor n ops [] ++ l ∧ ∀ x ∈ l, (x.stamp : Int) + gap ≤ t + D ∧
      ∃ w ∈ recentFor n ops [], t ≤ w.stamp ∧ w.stamp < x.stamp := by
    have key : ∀ (mo : List (Op X)), (∀ o ∈ mo, o ∈ more) → ∀ acc, ∃ l, recentFor n mo acc = acc ++ l ∧
        ∀ x ∈ l, ∃ a s, Op.set x a s ∈ more ∧ ValidMsg x ∧ stripSlash x.child = n := by
      intro mo
      induction mo with
      | nil => intro _ acc; exact ⟨[], by simp [recentFor], by simp⟩
      | cons o r ih =>
        intro hsub acc
        have ih := ih (fun o ho => hsub o (List.mem_cons_of_mem _ ho))
        cases o with
        | clear => exact absurd (hsub _ (List.mem_cons_self ..)) hclear
        | set m a s =>
          simp only [recentFor]
          split
          · rename_i hv
            obtain ⟨l, e1, e2⟩ := ih (acc ++ [m])
            refine ⟨m :: l, by rw [e1]; simp, ?_⟩
            intro x hx
            rcases List.mem_cons.1 hx with rfl | hx
            · exact ⟨a, s, hsub _ (List.mem_cons_self ..), hv.1, hv.2⟩
            · exact e2 x hx
          · exact ih acc
    obtain ⟨l, e1, e2⟩ := key more (fun o ho => ho) (recentFor n ops [])
    refine ⟨l, by rw [recentFor_append, e1], ?_⟩
    intro x hx
    obtain ⟨a, s, h1, h2, h3⟩ := e2 x hx
    obtain ⟨h4, _, h5⟩ := hnew x a s h1 h2
    rw [h3] at h5
    exact ⟨h4, h5⟩
  obtain ⟨l, hrec, hl⟩ := hl
  have hoffd : ∀ {m0 : Msg X} {r : List (Msg X × Bool)} {f : Bool}, offersFor n ops = (m0, f) :: r →
      ∃ r', offersFor n (ops ++ more) = (m0, f) :: r' := by
    intro m0 r f h0; exact ⟨r ++ offersFor n more, by rw [offersFor_append, h0]; rfl⟩
  -- old counting messages that are recent enough still count
  have hcount : ∀ {m : Msg X}, Effective D ops n m → (t : Int) ≤ m.stamp + gap → Effective D (ops ++ more) n m := by
    intro m hm hr
    refine ⟨by rw [hrec, List.find?_append, hm.1]; rfl, ?_⟩
    rw [hrec]
    intro x hx
    rcases List.mem_append.1 hx with hx | hx
    · exact hm.2 x hx
    · have := (hl x hx).1; omega
  have hbetween : ∀ {o w : Msg X}, Effective D ops n o → Effective D ops n w → o.stamp < t → t < w.stamp →
      (∀ k, Effective D ops n k → k.stamp ≤ o.stamp ∨ w.stamp ≤ k.stamp) →
      Effective D (ops ++ more) n o ∧ Effective D (ops ++ more) n w ∧
        ∀ k, Effective D (ops ++ more) n k → k.stamp ≤ o.stamp ∨ w.stamp ≤ k.stamp := by
    intro o w ho hw h1 h2 hk
    have hor : (t : Int) ≤ o.stamp + gap := by
      obtain ⟨m', hm', h3, h4⟩ := hdense n ⟨o, ho.mem, by omega⟩
      by_cases hle : m'.stamp ≤ o.stamp
      · omega
      · obtain ⟨m'', c, e⟩ := counts_of_recent (D := D) hm' (fun a ha => by have := ho.2 a ha; omega)
        rcases hk m'' c with h | h <;> omega
    refine ⟨hcount ho hor, hcount hw (by omega), ?_⟩
    intro k hkc
    have hf := hkc.1
    rw [hrec, List.find?_append] at hf
    cases hfo : (recentFor n ops []).find? (fun a => a.stamp == k.stamp) with
    | some k' =>
      rw [hfo] at hf
      simp only [Option.some_or, Option.some.injEq] at hf
      subst hf
      refine hk k' ⟨hfo, ?_⟩
      intro a ha
      exact hkc.2 a (by rw [hrec]; exact List.mem_append_left _ ha)
    | none =>
      rw [hfo] at hf
      simp only [Option.none_or] at hf
      obtain ⟨_, a, ha, h3, h4⟩ := hl k (List.mem_of_find?_eq_some hf)
      obtain ⟨a', c, e⟩ := counts_of_recent (D := D) ha (fun x hx => by have := ho.2 x hx; omega)
      rcases hk a' c with h | h
      · omega
      · right; omega
  cases h with
  | @static m0 m s r h0 h1 =>
    have hempty : offersFor n more = [] := by
      cases hoff : offersFor n more with
      | nil => rfl
      | cons ms r' =>
        exfalso
        obtain ⟨⟨a, h2⟩, h3, h4⟩ := offersFor_mem (n := n) (ops := more) (m := ms.1) (s := ms.2)
          (by rw [hoff]; exact List.mem_cons_self ..)
        obtain ⟨_, ⟨m0', r'', h5⟩, _⟩ := hnew _ a _ h2 h3
        rw [h4, h0] at h5
        cases h5
    have he : offersFor n (ops ++ more) = offersFor n ops := by rw [offersFor_append, hempty, List.append_nil]
    exact .static (by rw [he]; exact h0) (by rw [he]; exact h1)
  | @exact m0 m r h0 hm hst =>
    obtain ⟨r', h0'⟩ := hoffd h0
    exact .exact h0' (hcount hm (by omega)) hst
  | @between m0 o w r h0 ho hw h1 h2 hk hs =>
    obtain ⟨r', h0'⟩ := hoffd h0
    obtain ⟨c1, c2, c3⟩ := hbetween ho hw h1 h2 hk
    exact .between h0' c1 c2 h1 h2 c3 hs
  | @switch m0 o w r h0 ho hw h1 h2 hk hs =>
    obtain ⟨r', h0'⟩ := hoffd h0
    obtain ⟨c1, c2, c3⟩ := hbetween ho hw h1 h2 hk
    exact .switch h0' c1 c2 h1 h2 c3 hs

/-- **C60, stability.** An answer about the past does not change: if all further messages are for dynamic frames that
already had data at or after `t`, and newer than that data, then the lookup at `t` returns the very same transform
(under the conditions of persistence). -/
theorem C60_stable {U : X → Prop} (L : RigidLaws U) {D : Duration} {ops more : List (Op X)}
    (hU : AllOffered U (ops ++ more)) (hreg : Regular D (ops ++ more)) (hz : InterpZero X)
    {par : Name → Option Name} {depth : Name → Nat} (hT : OneTree (ops ++ more) par depth)
    {target source : Name} {t : Time} (ht : t ≠ 0) (hne : target ≠ source) (ng : target ≠ noParentName)
    (ns : source ≠ noParentName) (hclear : Op.clear ∉ more) {gap : Nat}
    (hdense : ∀ n, (∃ m ∈ recentFor n ops [], m.stamp ≤ t) → ∃ m ∈ recentFor n ops [], m.stamp ≤ t ∧ t ≤ m.stamp + gap)
    (hnew : ∀ m a s, Op.set m a s ∈ more → ValidMsg m → (m.stamp : Int) + gap ≤ t + D ∧
      (∃ m0 r, offersFor (stripSlash m.child) ops = (m0, false) :: r) ∧
      ∃ w ∈ recentFor (stripSlash m.child) ops [], t ≤ w.stamp ∧ w.stamp < m.stamp)
    {m : Msg X} (h : ((Buf.init D).run ops).lookupTransform target source t = .ok m) :
    ((Buf.init D).run (ops ++ more)).lookupTransform target source t = .ok m := by
  have hreg' : Regular D ops := ⟨hreg.dur, fun m a s hm => hreg.range m a s (List.mem_append_left _ hm),
    fun m a s hm => hreg.names m a s (List.mem_append_left _ hm)⟩
  have hT' : OneTree ops par depth :=
    ⟨fun m a s hm => hT.agrees m a s (List.mem_append_left _ hm), hT.deeper, hT.bound, hT.named⟩
  have hU' : AllOffered U ops := fun m a s hm => hU m a s (List.mem_append_left _ hm)
  obtain ⟨h1, h2, h3, h4, e1, e2, e3, _⟩ := C59_sound hreg' hz ht hne h
  obtain ⟨c, x, y, k, l, hx, hy⟩ :=
    (C59_complete hreg' hz ht h1 h2 ng ns h3 h4 (hT'.wayEnds t _) (hT'.wayEnds t _)).1 ⟨m, h⟩
  have hup : ∀ {a c : Name} {x : X} {k : Nat}, Leads D ops t a c x k → Leads D (ops ++ more) t a c x k := by
    intro a c x k hl
    induction hl with
    | refl => exact .refl
    | snoc _ hs hp ih => exact .snoc ih (hs.stable hclear hdense hnew) hp
  have h1' : target ∈ mentions (ops ++ more) := by rw [mentions_append]; exact List.mem_append_left _ h1
  have h2' : source ∈ mentions (ops ++ more) := by rw [mentions_append]; exact List.mem_append_left _ h2
  obtain ⟨m', hm'⟩ := (C59_complete hreg hz ht h1' h2' ng ns h3 h4 (hT.wayEnds t _) (hT.wayEnds t _)).2
    ⟨c, x, y, k, l, hup hx, hup hy⟩
  obtain ⟨_, _, _, _, e1', e2', e3', _⟩ := C59_sound hreg hz ht hne hm'
  have v := C59_value L hU' hreg' hz ht hne h (hT'.wayEnds t _) hx hy
  have v' := C59_value L hU hreg hz ht hne hm' (hT.wayEnds t _) (hup hx) (hup hy)
  rw [hm']
  have : m' = m := by
    cases m; cases m'
    simp only at e1 e2 e3 e1' e2' e3' v v'
    rw [e1, e2, e3, v, e1', e2', e3', v']
  rw [this]

/-! ### Examples -/

theorem interpZero_int : InterpZero Int := by
  intro a b d
  show a + (b - a) * 0 / d = a
  simp

/-- The example history is regular and follows one tree. -/
theorem exOps_regular : Regular 100 exOps := by
  refine ⟨by decide, ?_, ?_⟩
  · intro m a s hm _
    simp only [exOps, put, List.mem_cons, Op.set.injEq, List.not_mem_nil, or_false] at hm
    rcases hm with h | h | h | h | h | h | h <;> obtain ⟨rfl, _, _⟩ := h <;> decide
  · intro m a s hm _
    simp only [exOps, put, List.mem_cons, Op.set.injEq, List.not_mem_nil, or_false] at hm
    rcases hm with h | h | h | h | h | h | h <;> obtain ⟨rfl, _, _⟩ := h <;> decide

/-- The tree of the example history. -/
def exPar (n : Name) : Option Name :=
  if n = ['a'] then some ['w'] else if n = ['b'] then some ['a'] else if n = ['c'] then some ['a']
  else if n = ['y'] then some ['z'] else none

/-- Depths in it. -/
def exDepth (n : Name) : Nat := if n = ['a'] ∨ n = ['y'] then 1 else if n = ['b'] ∨ n = ['c'] then 2 else 0

theorem exOps_tree : OneTree exOps exPar exDepth := by
  refine ⟨?_, ?_, ?_, ?_⟩
  · intro m a s hm _
    simp only [exOps, put, List.mem_cons, Op.set.injEq, List.not_mem_nil, or_false] at hm
    rcases hm with h | h | h | h | h | h | h <;> obtain ⟨rfl, _, _⟩ := h <;> decide
  · intro n p h
    unfold exPar at h
    split at h
    · rename_i e; subst e; injection h with h; subst h; decide
    · split at h
      · rename_i e; subst e; injection h with h; subst h; decide
      · split at h
        · rename_i e; subst e; injection h with h; subst h; decide
        · split at h
          · rename_i e; subst e; injection h with h; subst h; decide
          · cases h
  · intro n; unfold exDepth; split
    · omega
    · split <;> omega
  · intro n p h
    unfold exPar at h
    split at h
    · injection h with h; subst h; decide
    · split at h
      · injection h with h; subst h; decide
      · split at h
        · injection h with h; subst h; decide
        · split at h
          · injection h with h; subst h; decide
          · cases h

/-- Two frames on the same side: `b` at 15 is told about (messages at 12 and 18), and so is `a`. -/
example : Covered 100 exOps 15 ['b'] ∧ Covered 100 exOps 15 ['a'] ∧ Covered 100 exOps 15 ['c'] ∧
    exBuf.lookupTransform ['c'] ['b'] 15 = .ok (tmsg ['c'] ['b'] 15 (-850)) := by
  refine ⟨Or.inr ⟨⟨_, _, rfl⟩, tmsg ['/', 'a'] ['b'] 12 100, by decide, tmsg ['a'] ['b'] 18 200, by decide, by decide,
    by decide, by decide⟩, Or.inr ⟨⟨_, _, rfl⟩, tmsg ['w'] ['a'] 10 1, by decide, tmsg ['w'] ['a'] 20 3, by decide,
    by decide, by decide, by decide⟩, Or.inl ⟨_, _, rfl⟩, by decide⟩

/-- And the messages lead from `b` to `w` in two steps. -/
example : Leads 100 exOps 15 ['b'] ['w'] (152 : Int) 2 := by
  have h1 : Says 100 exOps 15 ['b'] ['a'] (150 : Int) :=
    .between (o := tmsg ['/', 'a'] ['b'] 12 100) (w := tmsg ['a'] ['b'] 18 200) rfl ⟨by decide, by decide⟩
      ⟨by decide, by decide⟩ (by decide) (by decide) (by
        intro k hk
        have := hk.mem
        have e : recentFor ['b'] exOps [] = [tmsg ['/', 'a'] ['b'] 12 100, tmsg ['a'] ['b'] 18 200] := by decide
        rw [e] at this
        simp only [List.mem_cons, List.not_mem_nil, or_false] at this
        rcases this with rfl | rfl <;> decide) rfl
  have h2 : Says 100 exOps 15 ['a'] ['w'] (2 : Int) :=
    .between (o := tmsg ['w'] ['a'] 10 1) (w := tmsg ['w'] ['a'] 20 3) rfl ⟨by decide, by decide⟩
      ⟨by decide, by decide⟩ (by decide) (by decide) (by
        intro k hk
        have := hk.mem
        have e : recentFor ['a'] exOps [] = [tmsg ['w'] ['a'] 10 1, tmsg ['w'] ['a'] 20 3] := by decide
        rw [e] at this
        simp only [List.mem_cons, List.not_mem_nil, or_false] at this
        rcases this with rfl | rfl <;> decide) rfl
  exact Leads.snoc (Leads.snoc .refl h1 (by decide)) h2 (by decide)

end Tf2
