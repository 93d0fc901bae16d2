import Verif.Proofs.WalkAt

namespace Tf2

variable {X : Type}

/-! ### Names -/

theorem startsWithSlash_iff (n : Name) : startsWithSlash n = true ↔ n.head? = some '/' := by
  unfold startsWithSlash
  split
  · simp
  · rename_i h
    cases n with
    | nil => simp
    | cons c r =>
      simp only [Bool.false_eq_true, List.head?_cons, Option.some.injEq, false_iff]
      intro he; subst he; exact h r rfl

theorem WF.frameIDs_zero {D : Duration} {b : Buf X} (h : WF D b) {n : Name} :
    b.frameIDs n = some 0 ↔ n = noParentName := by
  rw [h.ids, h.zero]
  constructor
  · intro h; injection h with h; exact h.symm
  · intro h; rw [h]

theorem WF.inj {D : Duration} {b : Buf X} (h : WF D b) {m n : Name} {i : Nat}
    (h1 : b.frameIDs m = some i) (h2 : b.frameIDs n = some i) : m = n := by
  have a := (h.ids m i).1 h1
  have c := (h.ids n i).1 h2
  rw [a] at c; cases c; rfl

theorem lookupFrameNumber_isFrame {b : Buf X} {n : Name} {i : Nat} (h : IsFrame b n i) :
    b.lookupFrameNumber n = i := by
  unfold Buf.lookupFrameNumber; rw [h.2]; rfl

theorem isFrame_of_lookup {b : Buf X} {n : Name} (h : b.lookupFrameNumber n ≠ 0) :
    IsFrame b n (b.lookupFrameNumber n) := by
  refine ⟨h, ?_⟩
  unfold Buf.lookupFrameNumber at *
  cases hn : b.frameIDs n with
  | none => rw [hn] at h; exact absurd rfl h
  | some i => rfl

theorem validate_legal {b : Buf X} {n : Name} {i : Nat} (h : IsFrame b n i) (hl : LegalName n) :
    b.validateFrameId n = .ok i := by
  unfold Buf.validateFrameId
  have h2 : startsWithSlash n = false := by
    rw [← Bool.not_eq_true, startsWithSlash_iff]; exact hl.2
  rw [if_neg hl.1, h2, lookupFrameNumber_isFrame h]
  cases i with
  | zero => exact absurd rfl h.1
  | succ i => rfl

theorem warn_legal {n : Name} (hl : LegalName n) : Buf.warnFrameId n = false := by
  have h2 : startsWithSlash n = false := by
    rw [← Bool.not_eq_true, startsWithSlash_iff]; exact hl.2
  unfold Buf.warnFrameId; simp [hl.1, h2]

theorem warn_illegal {n : Name} (hl : ¬ LegalName n) : Buf.warnFrameId n = true := by
  unfold Buf.warnFrameId
  by_cases h1 : n = []
  · simp [h1]
  · have : startsWithSlash n = true := by
      rw [startsWithSlash_iff]
      exact Classical.byContradiction fun h => hl ⟨h1, h⟩
    simp [this]

theorem validate_cases (b : Buf X) (n : Name) :
    (LegalName n ∧ ∃ i, IsFrame b n i ∧ b.validateFrameId n = .ok i) ∨
    (¬ LegalName n ∧ b.validateFrameId n = .throw .invalidArgument) ∨
    (LegalName n ∧ b.lookupFrameNumber n = 0 ∧ b.validateFrameId n = .throw .lookup) := by
  by_cases hl : LegalName n
  · by_cases h0 : b.lookupFrameNumber n = 0
    · right; right
      refine ⟨hl, h0, ?_⟩
      unfold Buf.validateFrameId
      have h2 : startsWithSlash n = false := by
        rw [← Bool.not_eq_true, startsWithSlash_iff]; exact hl.2
      rw [if_neg hl.1, h2, h0]; rfl
    · left
      exact ⟨hl, _, isFrame_of_lookup h0, validate_legal (isFrame_of_lookup h0) hl⟩
  · right; left
    refine ⟨hl, ?_⟩
    unfold Buf.validateFrameId
    by_cases h1 : n = []
    · rw [if_pos h1]
    · rw [if_neg h1, if_pos]
      rw [startsWithSlash_iff]
      exact Classical.byContradiction fun h => hl ⟨h1, h⟩

section
variable [Rigid X] {b : Buf X} {D : Duration} {t : Time}

/-- The message a walk result gives. -/
def lookupOfWalk (target source : Name) : WalkRes (TAcc X) → Res (Msg X)
  | .ub => .ub
  | .err c => .throw (Buf.codeExc c)
  | .done a _ => .ok { parent := target, child := source, stamp := a.time, xf := a.result }

theorem lookup_eq {target source : Name} {g s : Nat} (hg : IsFrame b target g) (hs : IsFrame b source s)
    (hlg : LegalName target) (hls : LegalName source) (hne : target ≠ source) :
    b.lookupTransform target source t = lookupOfWalk target source (b.walk transformAccum TAcc.init t g s) := by
  unfold Buf.lookupTransform
  rw [if_neg hne, validate_legal hg hlg, validate_legal hs hls]
  simp only
  unfold lookupOfWalk
  rfl

theorem lookup_walkAt (hw : WF D b) {target source : Name} {g s : Nat} (hg : IsFrame b target g)
    (hs : IsFrame b source s) (hlg : LegalName target) (hls : LegalName source) (hne : target ≠ source)
    (ht : t ≠ 0) :
    b.lookupTransform target source t =
      lookupOfWalk target source (b.walkAt transformAccum TAcc.init t g s) := by
  rw [lookup_eq hg hs hlg hls hne]
  unfold Buf.walk
  rw [if_neg (fun h : s = g => hne (hw.inj hg.2 (h ▸ hs.2))), if_neg ht]

/-- A successful lookup between different names is between legal, known frames. -/
theorem lookup_ok_frames {target source : Name} (hne : target ≠ source) {m : Msg X}
    (h : b.lookupTransform target source t = .ok m) :
    ∃ g s, IsFrame b target g ∧ IsFrame b source s ∧ LegalName target ∧ LegalName source := by
  unfold Buf.lookupTransform at h
  rw [if_neg hne] at h
  rcases validate_cases b target with ⟨hl, i, hi, e⟩ | ⟨_, e⟩ | ⟨_, _, e⟩
  · rcases validate_cases b source with ⟨hl', i', hi', e'⟩ | ⟨_, e'⟩ | ⟨_, _, e'⟩
    · exact ⟨i, i', hi, hi', hl, hl'⟩
    · rw [e, e'] at h; cases h
    · rw [e, e'] at h; cases h
  · rw [e] at h; cases h
  · rw [e] at h; cases h

/-! ### Connectivity -/

theorem walkAt_total (hw : WF D b) {s g r r' n m : Nat} (hs : s ≠ 0)
    (h1 : EndsAt b t s r n) (h2 : EndsAt b t g r' m) (hn : n ≤ maxGraphDepth) (hm : m ≤ maxGraphDepth) :
    (r = r' ∧ ∃ a ch, b.walkAt transformAccum TAcc.init t g s = .done a ch) ∨
    (r ≠ r' ∧ b.getFrame r = none ∧ b.getFrame r' = none ∧
      b.walkAt transformAccum TAcc.init t g s = .err .connectivity) ∨
    (r ≠ r' ∧ ((b.getFrame r).isSome ∨ (b.getFrame r').isSome) ∧
      b.walkAt transformAccum TAcc.init t g s = .err .extrapolation) := by
  have hsp := walkAt_spec (t := t) hw (tgt := g) hs TAcc.init rfl rfl
  generalize b.walkAt transformAccum TAcc.init t g s = w at *
  match w, hsp with
  | .ub, hsp => exact absurd hsp id
  | .err .noError, hsp => exact absurd hsp id
  | .err .lookup, hsp =>
    exfalso
    rcases hsp with ⟨c, x, hc⟩ | ⟨c, x, hc⟩
    · have := h1.le hc; omega
    · have := h2.le hc; omega
  | .err .connectivity, hsp =>
    obtain ⟨q, q', n', m', e1, e2, hne, hq, hq'⟩ := hsp
    obtain ⟨rfl, _⟩ := h1.unique e1
    obtain ⟨rfl, _⟩ := h2.unique e2
    exact Or.inr (Or.inl ⟨hne, hq, hq', rfl⟩)
  | .err .extrapolation, hsp =>
    obtain ⟨q, q', n', m', e1, e2, hne, hq⟩ := hsp
    obtain ⟨rfl, _⟩ := h1.unique e1
    obtain ⟨rfl, _⟩ := h2.unique e2
    exact Or.inr (Or.inr ⟨hne, hq, rfl⟩)
  | .done a ch, hsp =>
    refine Or.inl ⟨?_, a, ch, rfl⟩
    obtain ⟨_, ⟨k, _, hc⟩ | ⟨k, y, _, hc, _⟩ | ⟨q, x, y, k, l, _, _, hx, hy, hno, _⟩⟩ := hsp
    · exact ((h1.of_chain hc).unique h2).1
    · exact ((h2.of_chain hc).unique h1).1.symm
    · have e1 : EndsAt b t s q k := ⟨⟨_, hx⟩, hno⟩
      have e2 : EndsAt b t g q l := ⟨⟨_, hy⟩, hno⟩
      rw [(h1.unique e1).1, (h2.unique e2).1]

/-! ### Values under the laws of rigid motions -/

/-- Every answer of every cache is well formed. -/
def EdgesIn (U : X → Prop) (b : Buf X) : Prop :=
  ∀ f c, b.getFrame f = some c → ∀ t s, c.getData t = .ok s → U s.xf

theorem ParentAt.inU {U : X → Prop} (hU : EdgesIn U b) {f p : Nat} {e : X} (h : ParentAt b t f p e) :
    U e := by
  obtain ⟨_, c, s, h1, h2, _, rfl⟩ := h
  exact hU f c h1 t s h2

theorem Chain.inU {U : X → Prop} (L : RigidLaws U) (hU : EdgesIn U b) {a c : Nat} {x : X} {n : Nat}
    (h : Chain b t a c x n) : U x := by
  induction h with
  | refl => exact L.one
  | snoc _ h2 ih => exact L.comp (h2.inU hU) ih

/-- Concatenation of chains multiplies the transforms. -/
theorem Chain.trans_mul {U : X → Prop} (L : RigidLaws U) (hU : EdgesIn U b) {a c d : Nat} {x y : X}
    {n m : Nat} (h : Chain b t a c x n) (h' : Chain b t c d y m) :
    Chain b t a d (Rigid.comp y x) (n + m) := by
  induction h' with
  | refl => rw [L.one_comp (h.inU L hU)]; exact h
  | @snoc c' p x' e k h1 h2 ih =>
    rw [L.assoc (h2.inU hU) (h1.inU L hU) (h.inU L hU)]
    exact .snoc ih h2

/-- The transform between two frames does not depend on the common ancestor used. -/
theorem common_ancestor {U : X → Prop} (L : RigidLaws U) (hU : EdgesIn U b) {s g c r n0 m0 : Nat}
    {x y x' y' : X} {n m n' m' : Nat} (hs : EndsAt b t s r n0) (hg : EndsAt b t g r m0)
    (h1 : Chain b t s c x n) (h2 : Chain b t g c y m)
    (h3 : Chain b t s r x' n') (h4 : Chain b t g r y' m') :
    Rigid.comp (Rigid.inv y') x' = Rigid.comp (Rigid.inv y) x := by
  obtain ⟨⟨z, hz⟩, _⟩ := hs.of_chain h1
  have e1 := h1.trans_mul L hU hz
  have e2 := h2.trans_mul L hU hz
  have p1 := hs.pos_unique e1 h3
  have p2 := hg.pos_unique e2 h4
  subst p1 p2
  have q1 := (e1.det h3).2
  have q2 := (e2.det h4).2
  have ux := h1.inU L hU
  have uy := h2.inU L hU
  have uz := hz.inU L hU
  have uzy := L.comp uz uy
  rw [← q1, ← q2]
  -- inv (z y) (z x) = inv y x
  have hinv : Rigid.comp (Rigid.inv (Rigid.comp z y)) z = Rigid.inv y := by
    have h5 : Rigid.comp (Rigid.comp (Rigid.inv (Rigid.comp z y)) z) y = Rigid.one := by
      rw [L.assoc (L.inv uzy) uz uy, L.inv_comp uzy]
    have u5 := L.comp (L.inv uzy) uz
    calc _ = Rigid.comp (Rigid.comp (Rigid.inv (Rigid.comp z y)) z) Rigid.one := (L.comp_one u5).symm
      _ = Rigid.comp (Rigid.comp (Rigid.inv (Rigid.comp z y)) z) (Rigid.comp y (Rigid.inv y)) := by
          rw [L.comp_inv uy]
      _ = Rigid.comp (Rigid.comp (Rigid.comp (Rigid.inv (Rigid.comp z y)) z) y) (Rigid.inv y) := by
          rw [L.assoc u5 uy (L.inv uy)]
      _ = Rigid.inv y := by rw [h5, L.one_comp (L.inv uy)]
  rw [← L.assoc (L.inv uzy) uz ux, hinv]

theorem RigidLaws.inv_one {U : X → Prop} (L : RigidLaws U) : Rigid.inv (Rigid.one : X) = Rigid.one := by
  rw [← L.comp_one (L.inv L.one), L.inv_comp L.one]

/-- The value of a successful walk, in terms of any common ancestor. -/
theorem walkAt_value {U : X → Prop} (L : RigidLaws U) (hU : EdgesIn U b) (hw : WF D b)
    {s g c r n0 m0 n m : Nat} {x y : X} (hs0 : s ≠ 0) (hs : EndsAt b t s r n0) (hg : EndsAt b t g r m0)
    (h1 : Chain b t s c x n) (h2 : Chain b t g c y m) {a : TAcc X} {ch : List Nat}
    (h : b.walkAt transformAccum TAcc.init t g s = .done a ch) :
    a.time = t ∧ a.result = Rigid.comp (Rigid.inv y) x := by
  have hsp := walkAt_spec (t := t) hw (tgt := g) hs0 TAcc.init rfl rfl
  rw [h] at hsp
  obtain ⟨h0, hsp⟩ := hsp
  refine ⟨h0, ?_⟩
  obtain ⟨x', hx'⟩ := hs.1
  obtain ⟨y', hy'⟩ := hg.1
  have key := common_ancestor L hU hs hg h1 h2 hx' hy'
  rw [← key]
  obtain ⟨k, _, hc⟩ | ⟨k, z, _, hc, hr⟩ | ⟨q, u, v, k, l, _, _, hx, hy, hno, hr⟩ := hsp
  · rw [common_ancestor L hU hs hg hc .refl hx' hy', L.inv_one, L.one_comp (hc.inU L hU)]
  · rw [common_ancestor L hU hs hg .refl hc hx' hy', hr, L.comp_one (L.inv (hc.inU L hU))]
  · have e1 : EndsAt b t s q k := ⟨⟨_, hx⟩, hno⟩
    obtain ⟨rfl, _⟩ := hs.unique e1
    rw [common_ancestor L hU hs hg hx hy hx' hy', hr]

end

/-! ### Well-formed offers give well-formed answers -/

theorem dynGetData_inU [Rigid X] {U : X → Prop} (L : RigidLaws U) {D : Duration} {st : List (Sample X)}
    (hr : ReachableCache D st) (h : ∀ s ∈ st, U s.xf) {t : Time} {s : Sample X}
    (hs : dynGetData st t = .ok s) : U s.xf := by
  unfold dynGetData at hs
  rcases findClosest_cases hr.sorted t with ⟨_, e⟩ | ⟨f, r, e0, _, e⟩ | ⟨_, s', hs', _, e⟩ |
    ⟨_, o, n, hadj, h1, h2, e⟩ | ⟨_, _, e⟩ <;> rw [e] at hs
  · cases hs
  · injection hs with hs; subst hs; exact h _ (by simp [e0])
  · injection hs with hs; subst hs; exact h _ hs'
  · simp only at hs
    split at hs
    · injection hs with hs
      have hlt := hadj.2.2.1
      have : n.stamp ≠ o.stamp := by omega
      rw [← hs]
      simp only [interpolate, this, if_false]
      exact L.interp (h _ hadj.1) (h _ hadj.2.1) (by omega) (by omega) (by omega)
    · injection hs with hs; subst hs; exact h _ hadj.1
  · cases hs

/-- Every transform stored in the cache is in `U`. -/
def Cache.StoredIn (U : X → Prop) : Cache X → Prop
  | .dyn _ st => ∀ s ∈ st, U s.xf
  | .stat o => ∀ s, o = some s → U s.xf

/-- Every stored transform is in `U`. -/
def StoredIn (U : X → Prop) (b : Buf X) : Prop :=
  ∀ f c, b.getFrame f = some c → c.StoredIn U

theorem StoredIn.edges [Rigid X] {U : X → Prop} (L : RigidLaws U) {D : Duration} {b : Buf X}
    (hw : WF D b) (h : StoredIn U b) : EdgesIn U b := by
  intro f c hc t s hs
  have h1 := h f c hc
  have h2 := hw.caches f c hc
  cases c with
  | dyn D' st => exact dynGetData_inU L h2.2.1 h1 hs
  | stat o =>
    cases o with
    | none => exact absurd h2 (by simp [CacheOK])
    | some s' =>
      simp only [Cache.getData, GetRes.ok.injEq] at hs
      subst hs
      exact h1 s' rfl

theorem StoredIn.init (U : X → Prop) (D : Duration) : StoredIn U (Buf.init D : Buf X) := by
  intro f c hc
  unfold Buf.init Buf.getFrame at hc
  cases f <;> simp at hc

theorem StoredIn.step [Rigid X] {U : X → Prop} {D : Duration} {b : Buf X} (hw : WF D b)
    (h : StoredIn U b) (op : Op X) (ho : ∀ m a s, op = .set m a s → U m.xf) : StoredIn U (b.step op) := by
  cases op with
  | clear =>
    intro f c hc
    simp only [Buf.step] at hc
    rw [Buf.getFrame_clear] at hc
    split at hc
    · exact h 0 c hc
    · cases hb : b.getFrame f with
      | none => rw [hb] at hc; cases hc
      | some c' =>
        rw [hb] at hc; simp only [Option.map_some, Option.some.injEq] at hc
        subst hc
        have := h f c' hb
        cases c' with
        | dyn D st => intro s hs; cases hs
        | stat o => exact this
  | set m a s =>
    have hm : U m.xf := ho m a s rfl
    simp only [Buf.step]
    cases hv : Buf.msgValid (Buf.stripMsg m) with
    | false => rw [Buf.setTransform_invalid hv]; exact h
    | true =>
      obtain ⟨cid, pid, c0, c1, ir, st⟩ := Buf.setTransform_step hw.names m a s hv
      intro f c hc
      rw [st.hframes] at hc
      split at hc
      · injection hc with hc
        subst hc
        have hins := st.hins
        have h0 : c0.StoredIn U := by
          rw [st.hc0]
          cases hb : b.getFrame cid with
          | some c' => exact h cid c' hb
          | none =>
            simp only [Option.getD_none, Buf.newCache]
            split
            · intro s hs; cases hs
            · intro s hs; cases hs
        cases c0 with
        | dyn D' st' =>
          simp only [Cache.insert, Prod.mk.injEq] at hins
          rw [← hins.1]
          intro x hx
          rcases mem_dynInsert hx with hx | hx
          · exact h0 x hx
          · rw [hx]; exact hm
        | stat o =>
          simp only [Cache.insert, Prod.mk.injEq] at hins
          rw [← hins.1]
          intro x hx
          injection hx with hx
          rw [← hx]; exact hm
      · exact h f c hc

theorem StoredIn.run [Rigid X] {U : X → Prop} {D : Duration} (ops : List (Op X)) :
    ∀ {b : Buf X}, WF D b → StoredIn U b → AllOffered U ops → StoredIn U (b.run ops) := by
  induction ops with
  | nil => intro b _ h _; exact h
  | cons o r ih =>
    intro b hw h ho
    have h1 := h.step hw o (fun m a s e => ho m a s (by rw [e]; exact List.mem_cons_self ..))
    exact ih (hw.step o) h1 (fun m a s hm => ho m a s (List.mem_cons_of_mem _ hm))

end Tf2
