import Verif.Proofs.Buffer

namespace Tf2

variable {X : Type}

/-! ### Caches of a well-formed buffer -/

theorem dynGetData_ne_ub [Rigid X] {D : Duration} {st : List (Sample X)} (h : ReachableCache D st)
    (t : Time) : dynGetData st t ≠ .ub := by
  unfold dynGetData
  rcases findClosest_cases h.sorted t with ⟨_, e⟩ | ⟨f, r, _, _, e⟩ | ⟨_, s, _, _, e⟩ |
    ⟨_, o, n, _, _, _, e⟩ | ⟨_, _, e⟩ <;> rw [e] <;> simp
  split <;> simp

theorem dynGetParent_eq [Rigid X] (st : List (Sample X)) (t : Time) :
    dynGetParent st t =
      match dynGetData st t with
      | .ok s => .id s.parent
      | .fail => .id 0
      | .ub => .ub := by
  unfold dynGetData dynGetParent
  cases findClosest st t with
  | zero => rfl
  | one a => rfl
  | two a b =>
    by_cases hp : a.parent = b.parent
    · by_cases hst : b.stamp = a.stamp <;> simp [hp, interpolate, hst]
    · simp [hp]
  | ub => rfl

theorem Cache.getParent_eq [Rigid X] (c : Cache X) (t : Time) :
    c.getParent t =
      match c.getData t with
      | .ok s => .id s.parent
      | .fail => .id 0
      | .ub => .ub := by
  cases c with
  | dyn D st => exact dynGetParent_eq st t
  | stat o => cases o <;> rfl

theorem CacheOK.getData_ne_ub [Rigid X] {D : Duration} {i N : Nat} {c : Cache X}
    (h : CacheOK D i N c) (t : Time) : c.getData t ≠ .ub := by
  cases c with
  | dyn D' st => exact dynGetData_ne_ub h.2.1 t
  | stat o =>
    cases o with
    | none => exact absurd h (by simp [CacheOK])
    | some s => simp [Cache.getData]

/-- The answer's parent is the parent of a stored sample. -/
theorem CacheOK.getData_parent [Rigid X] {D : Duration} {i N : Nat} {c : Cache X}
    (h : CacheOK D i N c) {t : Time} {s : Sample X} (hs : c.getData t = .ok s) :
    s.parent < N ∧ s.parent ≠ i := by
  cases c with
  | dyn D' st =>
    obtain ⟨_, hr, hall⟩ := h
    simp only [Cache.getData, dynGetData] at hs
    have key : ∃ a ∈ st, a.parent = s.parent := by
      rcases findClosest_cases hr.sorted t with ⟨_, e⟩ | ⟨f, r, e0, _, e⟩ | ⟨_, s', hs', _, e⟩ |
        ⟨_, o, n, hadj, _, _, e⟩ | ⟨_, _, e⟩ <;> rw [e] at hs
      · cases hs
      · injection hs with hs; exact ⟨f, by simp [e0], by rw [hs]⟩
      · injection hs with hs; exact ⟨s', hs', by rw [hs]⟩
      · simp only at hs
        split at hs
        · injection hs with hs
          have : n.stamp ≠ o.stamp := by have := hadj.2.2.1; omega
          exact ⟨o, hadj.1, by rw [← hs]; simp [interpolate, this]⟩
        · injection hs with hs; exact ⟨o, hadj.1, by rw [hs]⟩
      · cases hs
    obtain ⟨a, ha, he⟩ := key
    have := hall a ha
    exact ⟨by omega, by rw [← he]; exact this.2.1⟩
  | stat o =>
    cases o with
    | none => exact absurd h (by simp [CacheOK])
    | some s' =>
      simp only [Cache.getData, GetRes.ok.injEq] at hs
      subst hs
      exact ⟨h.1, h.2.1⟩

/-! ### Unfolding lemmas for the loops -/
section
variable {A : Type} {b : Buf X} {f : Accum X A} {t : Time} {tgt src top k frame : Nat} {a a' : A}
  {chain : List Nat} {c : Cache X} {p : Nat}

theorem walkSource_zero : b.walkSource f t tgt k 0 a chain = .exit 0 false a chain := by
  unfold Buf.walkSource; simp

theorem walkSource_none (h0 : frame ≠ 0) (hc : b.getFrame frame = none) :
    b.walkSource f t tgt k frame a chain = .exit frame false a (chain ++ [frame]) := by
  unfold Buf.walkSource; simp [h0, hc]

theorem walkSource_ub (h0 : frame ≠ 0) (hc : b.getFrame frame = some c)
    (hg : f.gather c t a = (.ub, a')) : b.walkSource f t tgt k frame a chain = .ub := by
  unfold Buf.walkSource; simp [h0, hc, hg]

theorem walkSource_fail (h0 : frame ≠ 0) (hc : b.getFrame frame = some c)
    (hg : f.gather c t a = (.id 0, a')) :
    b.walkSource f t tgt k frame a chain = .exit frame true a' (chain ++ [frame]) := by
  unfold Buf.walkSource; simp [h0, hc, hg]

theorem walkSource_early (h0 : frame ≠ 0) (hc : b.getFrame frame = some c)
    (hg : f.gather c t a = (.id (p + 1), a')) (ht : frame = tgt) :
    b.walkSource f t tgt k frame a chain =
      .early (f.finalize .targetParentOfSource t a') (chain ++ [frame]) := by
  unfold Buf.walkSource; simp only [ht, if_true]
  simp [← ht, h0, hc, hg]

theorem walkSource_deep (h0 : frame ≠ 0) (hc : b.getFrame frame = some c)
    (hg : f.gather c t a = (.id (p + 1), a')) (ht : frame ≠ tgt) :
    b.walkSource f t tgt 0 frame a chain = .tooDeep := by
  unfold Buf.walkSource; simp [h0, hc, hg, ht]

theorem walkSource_step (h0 : frame ≠ 0) (hc : b.getFrame frame = some c)
    (hg : f.gather c t a = (.id (p + 1), a')) (ht : frame ≠ tgt) :
    b.walkSource f t tgt (k + 1) frame a chain =
      b.walkSource f t tgt k (p + 1) (f.accum true a') (chain ++ [frame]) := by
  conv => lhs; unfold Buf.walkSource
  simp [h0, hc, hg, ht]

theorem walkTarget_top : b.walkTarget f t src top k top a chain = .exit top a chain := by
  unfold Buf.walkTarget; simp

theorem walkTarget_none (h0 : frame ≠ top) (hc : b.getFrame frame = none) :
    b.walkTarget f t src top k frame a chain = .exit frame a (chain ++ [frame]) := by
  unfold Buf.walkTarget; simp [h0, hc]

theorem walkTarget_ub (h0 : frame ≠ top) (hc : b.getFrame frame = some c)
    (hg : f.gather c t a = (.ub, a')) : b.walkTarget f t src top k frame a chain = .ub := by
  unfold Buf.walkTarget; simp [h0, hc, hg]

theorem walkTarget_fail (h0 : frame ≠ top) (hc : b.getFrame frame = some c)
    (hg : f.gather c t a = (.id 0, a')) :
    b.walkTarget f t src top k frame a chain = .extrap := by
  unfold Buf.walkTarget; simp [h0, hc, hg]

theorem walkTarget_early (h0 : frame ≠ top) (hc : b.getFrame frame = some c)
    (hg : f.gather c t a = (.id (p + 1), a')) (ht : frame = src) :
    b.walkTarget f t src top k frame a chain =
      .early (f.finalize .sourceParentOfTarget t a') (chain ++ [frame]) := by
  unfold Buf.walkTarget; simp only [ht, if_true]
  simp [← ht, h0, hc, hg]

theorem walkTarget_deep (h0 : frame ≠ top) (hc : b.getFrame frame = some c)
    (hg : f.gather c t a = (.id (p + 1), a')) (ht : frame ≠ src) :
    b.walkTarget f t src top 0 frame a chain = .tooDeep := by
  unfold Buf.walkTarget; simp [h0, hc, hg, ht]

theorem walkTarget_step (h0 : frame ≠ top) (hc : b.getFrame frame = some c)
    (hg : f.gather c t a = (.id (p + 1), a')) (ht : frame ≠ src) :
    b.walkTarget f t src top (k + 1) frame a chain =
      b.walkTarget f t src top k (p + 1) (f.accum false a') (chain ++ [frame]) := by
  conv => lhs; unfold Buf.walkTarget
  simp [h0, hc, hg, ht]

end

/-! ### Chains -/

section
variable [Rigid X] {b : Buf X} {t : Time}

theorem ParentAt.det {f p p' : Nat} {e e' : X} (h : ParentAt b t f p e) (h' : ParentAt b t f p' e') :
    p = p' ∧ e = e' := by
  obtain ⟨_, c, s, h1, h2, h3, h4⟩ := h
  obtain ⟨_, c', s', h1', h2', h3', h4'⟩ := h'
  rw [h1] at h1'; cases h1'
  rw [h2] at h2'; cases h2'
  subst h3 h4 h3' h4'
  exact ⟨rfl, rfl⟩

theorem Chain.det {a c c' : Nat} {x x' : X} {n : Nat} (h : Chain b t a c x n)
    (h' : Chain b t a c' x' n) : c = c' ∧ x = x' := by
  induction n generalizing c c' x x' with
  | zero => cases h; cases h'; exact ⟨rfl, rfl⟩
  | succ n ih =>
    cases h with
    | snoc h1 h2 =>
      cases h' with
      | snoc h1' h2' =>
        obtain ⟨rfl, rfl⟩ := ih h1 h1'
        obtain ⟨rfl, rfl⟩ := h2.det h2'
        exact ⟨rfl, rfl⟩

/-- prefixes of chains exist -/
theorem Chain.prefix {a c : Nat} {x : X} {n : Nat} (h : Chain b t a c x n) {m : Nat} (hm : m ≤ n) :
    ∃ c' x', Chain b t a c' x' m := by
  induction h with
  | refl => exact ⟨a, _, by have : m = 0 := by omega
                            subst this; exact .refl⟩
  | @snoc c p x e n h1 h2 ih =>
    by_cases hmn : m ≤ n
    · exact ih hmn
    · have : m = n + 1 := by omega
      subst this
      exact ⟨p, _, .snoc h1 h2⟩

/-- the intermediate node of a longer chain continues it -/
theorem Chain.split {a c : Nat} {x : X} {n m : Nat} (h : Chain b t a c x (n + m)) {d : Nat} {y : X}
    (hd : Chain b t a d y n) : ∃ z, Chain b t d c z m := by
  induction m generalizing c x with
  | zero =>
    obtain ⟨rfl, _⟩ := Chain.det hd h
    exact ⟨_, .refl⟩
  | succ m ih =>
    cases h with
    | snoc h1 h2 =>
      obtain ⟨z, hz⟩ := ih h1
      exact ⟨_, .snoc hz h2⟩

theorem Chain.trans {a c d : Nat} {x y : X} {n m : Nat} (h : Chain b t a c x n)
    (h' : Chain b t c d y m) : ∃ z, Chain b t a d z (n + m) := by
  induction h' with
  | refl => exact ⟨x, h⟩
  | snoc _ h2 ih =>
    obtain ⟨z, hz⟩ := ih
    exact ⟨_, .snoc hz h2⟩

theorem EndsAt.le {a r n : Nat} (h : EndsAt b t a r n) {c : Nat} {x : X} {m : Nat}
    (hc : Chain b t a c x m) : m ≤ n := by
  obtain ⟨⟨y, hy⟩, hno⟩ := h
  refine Nat.le_of_not_lt fun hlt => ?_
  obtain ⟨c', x', h'⟩ := hc.prefix (m := n + 1) hlt
  cases h' with
  | snoc h1 h2 =>
    obtain ⟨rfl, _⟩ := hy.det h1
    exact hno ⟨_, _, h2⟩

theorem EndsAt.unique {a r r' n n' : Nat} (h : EndsAt b t a r n) (h' : EndsAt b t a r' n') :
    r = r' ∧ n = n' := by
  obtain ⟨x, hx⟩ := h.1
  obtain ⟨x', hx'⟩ := h'.1
  have h1 := h'.le hx
  have h2 := h.le hx'
  have : n = n' := by omega
  subst this
  exact ⟨(hx.det hx').1, rfl⟩

/-- a node on a terminating chain has the same end -/
theorem EndsAt.of_chain {a r n : Nat} (h : EndsAt b t a r n) {c : Nat} {x : X} {m : Nat}
    (hc : Chain b t a c x m) : EndsAt b t c r (n - m) := by
  have hle := h.le hc
  obtain ⟨⟨y, hy⟩, hno⟩ := h
  have : n = m + (n - m) := by omega
  rw [this] at hy
  exact ⟨hy.split hc, hno⟩

/-- the position of a node on a terminating chain is unique -/
theorem EndsAt.pos_unique {a r n : Nat} (h : EndsAt b t a r n) {c : Nat} {x x' : X} {m m' : Nat}
    (hc : Chain b t a c x m) (hc' : Chain b t a c x' m') : m = m' := by
  have h1 := h.of_chain hc
  have h2 := h.of_chain hc'
  have h3 := h.le hc
  have h4 := h.le hc'
  have := (h1.unique h2).2
  omega

theorem EndsAt.cons {a r n : Nat} {c : Nat} {x : X} {m : Nat}
    (hc : Chain b t a c x m) (h : EndsAt b t c r n) : EndsAt b t a r (m + n) := by
  obtain ⟨⟨y, hy⟩, hno⟩ := h
  exact ⟨hc.trans hy, hno⟩

theorem ParentAt.ne_zero {f p : Nat} {e : X} (h : ParentAt b t f p e) : p ≠ 0 := h.1

theorem Chain.ne_zero {a c : Nat} {x : X} {n : Nat} (h : Chain b t a c x n) (ha : a ≠ 0) : c ≠ 0 := by
  cases h with
  | refl => exact ha
  | snoc _ h2 => exact h2.1

/-! ### The two loops for `TransformAccum` -/

/-- What `gather` of `TransformAccum` does at a frame that has a cache. -/
theorem gather_cases {D : Duration} (hw : WF D b) {f : Nat} {c : Cache X} (hc : b.getFrame f = some c)
    (a : TAcc X) :
    (∃ a', transformAccum.gather c t a = (.id 0, a') ∧ a'.sourceToTop = a.sourceToTop ∧
      a'.targetToTop = a.targetToTop ∧ ¬ ∃ p e, ParentAt b t f p e) ∨
    (∃ p s, transformAccum.gather c t a = (.id (p + 1), { a with st := some s }) ∧
      ParentAt b t f (p + 1) s.xf) := by
  have hub := (hw.caches f c hc).getData_ne_ub t
  simp only [transformAccum]
  cases hd : c.getData t with
  | ub => exact absurd hd hub
  | fail =>
    left
    refine ⟨a, rfl, rfl, rfl, ?_⟩
    rintro ⟨p, e, _, c', s, h1, h2, _⟩
    rw [hc] at h1; cases h1
    rw [hd] at h2; cases h2
  | ok s =>
    cases hp : s.parent with
    | zero =>
      left
      refine ⟨{ a with st := some s }, by simp [hp], rfl, rfl, ?_⟩
      rintro ⟨p, e, h0, c', s', h1, h2, h3, _⟩
      rw [hc] at h1; cases h1
      rw [hd] at h2; cases h2
      omega
    | succ p =>
      right
      exact ⟨p, s, by simp [hp], by omega, c, s, hc, hd, hp, rfl⟩

theorem no_parent_of_no_cache {f : Nat} (hc : b.getFrame f = none) :
    ¬ ∃ p e, ParentAt b t f p e := by
  rintro ⟨p, e, _, c', s', h1, _⟩
  rw [hc] at h1; cases h1

/-- Specification of the first loop. -/
def Loop1.Spec (b : Buf X) (t : Time) (src tgt : Nat) (bound : Nat) (a0 : TAcc X) :
    Loop1 (TAcc X) → Prop
  | .exit top ex a _ => ∃ n, Chain b t src top a.sourceToTop n ∧ n ≤ bound ∧
      (¬ ∃ p e, ParentAt b t top p e) ∧ ex = (b.getFrame top).isSome ∧
      a.targetToTop = a0.targetToTop ∧ top ≠ 0 ∧
      (∀ y m, m < n → ¬ Chain b t src tgt y m)
  | .early a _ => ∃ n, Chain b t src tgt a.result n ∧ n ≤ bound ∧ a.time = t ∧
      (∃ p e, ParentAt b t tgt p e)
  | .tooDeep => (∃ c x, Chain b t src c x (bound + 1)) ∧ (∀ y m, m ≤ bound → ¬ Chain b t src tgt y m)
  | .ub => False

theorem walkSource_spec {D : Duration} (hw : WF D b) {src tgt : Nat} (k : Nat) :
    ∀ (frame : Nat) (a : TAcc X) (chain : List Nat) (n : Nat) (a0 : TAcc X),
      Chain b t src frame a.sourceToTop n → frame ≠ 0 → a.targetToTop = a0.targetToTop →
      (∀ y m, m < n → ¬ Chain b t src tgt y m) →
      Loop1.Spec b t src tgt (n + k) a0 (b.walkSource transformAccum t tgt k frame a chain) := by
  induction k with
  | zero =>
    intro frame a chain n a0 hch h0 hat hnot
    cases hc : b.getFrame frame with
    | none =>
      rw [walkSource_none h0 hc]
      exact ⟨n, hch, by omega, no_parent_of_no_cache hc, by rw [hc]; rfl, hat, h0, hnot⟩
    | some c =>
      rcases gather_cases hw hc a (t := t) with ⟨a', h1, h2, h3, h4⟩ | ⟨p, s, h1, h2⟩
      · rw [walkSource_fail h0 hc h1]
        exact ⟨n, by rw [h2]; exact hch, by omega, h4, by rw [hc]; rfl, by rw [h3]; exact hat, h0, hnot⟩
      · by_cases ht : frame = tgt
        · rw [walkSource_early h0 hc h1 ht]; subst ht
          exact ⟨n, by simpa [transformAccum] using hch, by omega, rfl, _, _, h2⟩
        · rw [walkSource_deep h0 hc h1 ht]
          refine ⟨⟨_, _, .snoc hch h2⟩, ?_⟩
          intro y m hm hy
          by_cases hmn : m = n
          · subst hmn; exact ht (hch.det hy).1
          · exact hnot y m (by omega) hy
  | succ k ih =>
    intro frame a chain n a0 hch h0 hat hnot
    cases hc : b.getFrame frame with
    | none =>
      rw [walkSource_none h0 hc]
      exact ⟨n, hch, by omega, no_parent_of_no_cache hc, by rw [hc]; rfl, hat, h0, hnot⟩
    | some c =>
      rcases gather_cases hw hc a (t := t) with ⟨a', h1, h2, h3, h4⟩ | ⟨p, s, h1, h2⟩
      · rw [walkSource_fail h0 hc h1]
        exact ⟨n, by rw [h2]; exact hch, by omega, h4, by rw [hc]; rfl, by rw [h3]; exact hat, h0, hnot⟩
      · by_cases ht : frame = tgt
        · rw [walkSource_early h0 hc h1 ht]; subst ht
          exact ⟨n, by simpa [transformAccum] using hch, by omega, rfl, _, _, h2⟩
        · rw [walkSource_step h0 hc h1 ht]
          have e : n + (k + 1) = (n + 1) + k := by omega
          rw [e]
          apply ih
          · exact .snoc hch h2
          · omega
          · exact hat
          · intro y m hm hy
            by_cases hmn : m = n
            · subst hmn; exact ht (hch.det hy).1
            · exact hnot y m (by omega) hy

/-- Specification of the second loop. -/
def Loop2.Spec (b : Buf X) (t : Time) (src tgt top : Nat) (bound : Nat) (a0 : TAcc X) :
    Loop2 (TAcc X) → Prop
  | .exit fr a _ => ∃ n, Chain b t tgt fr a.targetToTop n ∧ n ≤ bound ∧
      (fr = top ∨ b.getFrame fr = none) ∧ a.sourceToTop = a0.sourceToTop
  | .extrap => ∃ fr x n, Chain b t tgt fr x n ∧ n ≤ bound ∧ fr ≠ top ∧
      (¬ ∃ p e, ParentAt b t fr p e) ∧ (b.getFrame fr).isSome
  | .early a _ => ∃ n y, Chain b t tgt src y n ∧ n ≤ bound ∧ a.result = Rigid.inv y ∧ a.time = t ∧
      (∃ p e, ParentAt b t src p e) ∧ src ≠ top
  | .tooDeep => ∃ c x, Chain b t tgt c x (bound + 1)
  | .ub => False

theorem walkTarget_spec {D : Duration} (hw : WF D b) {src tgt top : Nat} (k : Nat) :
    ∀ (frame : Nat) (a : TAcc X) (rev : List Nat) (n : Nat) (a0 : TAcc X),
      Chain b t tgt frame a.targetToTop n → a.sourceToTop = a0.sourceToTop →
      Loop2.Spec b t src tgt top (n + k) a0
        (b.walkTarget transformAccum t src top k frame a rev) := by
  induction k with
  | zero =>
    intro frame a rev n a0 hch hat
    by_cases htop : frame = top
    · subst htop; rw [walkTarget_top]
      exact ⟨n, hch, by omega, Or.inl rfl, hat⟩
    · cases hc : b.getFrame frame with
      | none =>
        rw [walkTarget_none htop hc]; exact ⟨n, hch, by omega, Or.inr hc, hat⟩
      | some c =>
        rcases gather_cases hw hc a (t := t) with ⟨a', h1, h2, h3, h4⟩ | ⟨p, s, h1, h2⟩
        · rw [walkTarget_fail htop hc h1]
          exact ⟨frame, _, n, hch, by omega, htop, h4, by rw [hc]; rfl⟩
        · by_cases hs : frame = src
          · rw [walkTarget_early htop hc h1 hs]; subst hs
            exact ⟨n, _, hch, by omega, by simp [transformAccum], rfl, ⟨_, _, h2⟩, htop⟩
          · rw [walkTarget_deep htop hc h1 hs]; exact ⟨_, _, .snoc hch h2⟩
  | succ k ih =>
    intro frame a rev n a0 hch hat
    by_cases htop : frame = top
    · subst htop; rw [walkTarget_top]
      exact ⟨n, hch, by omega, Or.inl rfl, hat⟩
    · cases hc : b.getFrame frame with
      | none =>
        rw [walkTarget_none htop hc]; exact ⟨n, hch, by omega, Or.inr hc, hat⟩
      | some c =>
        rcases gather_cases hw hc a (t := t) with ⟨a', h1, h2, h3, h4⟩ | ⟨p, s, h1, h2⟩
        · rw [walkTarget_fail htop hc h1]
          exact ⟨frame, _, n, hch, by omega, htop, h4, by rw [hc]; rfl⟩
        · by_cases hs : frame = src
          · rw [walkTarget_early htop hc h1 hs]; subst hs
            exact ⟨n, _, hch, by omega, by simp [transformAccum], rfl, ⟨_, _, h2⟩, htop⟩
          · rw [walkTarget_step htop hc h1 hs]
            have e : n + (k + 1) = (n + 1) + k := by omega
            rw [e]
            apply ih
            · exact .snoc hch h2
            · exact hat

end

/-! ### The pruning of the frame chain never erases past the end -/

theorem stripCommon_length : ∀ (c r : List Nat), (stripCommon c r).1.length ≤ c.length
  | [], r => by cases r <;> simp [stripCommon]
  | c :: cs, [] => by simp [stripCommon]
  | c :: cs, r :: rs => by
    unfold stripCommon
    split
    · have := stripCommon_length cs rs; simp; omega
    · simp

theorem pruneChain_some {chain rev : List Nat} {x : Nat} (h : chain = [] ∨ chain.getLast? = some x)
    : (pruneChain chain (rev ++ [x])).isSome := by
  unfold pruneChain
  simp only [List.reverse_append, List.reverse_cons, List.reverse_nil, List.nil_append,
    List.singleton_append]
  split
  · rename_i hn
    rcases h with rfl | h
    · simp [stripCommon] at hn
    · obtain ⟨ys, rfl⟩ : ∃ ys, chain = ys ++ [x] := by
        rw [List.getLast?_eq_some_iff] at h; exact h
      simp only [List.reverse_append, List.reverse_cons, List.reverse_nil, List.nil_append,
        List.singleton_append, stripCommon, if_true] at hn ⊢
      have := stripCommon_length ys.reverse rev.reverse
      simp only [List.length_reverse] at this
      rw [if_pos (by simp; omega)]
      rfl
  · rfl

variable {A : Type}

/-- The chain recorded by the first loop ends with the frame at which it stopped. -/
theorem walkSource_chain (b : Buf X) (f : Accum X A) (t : Time) (tgt k : Nat) :
    ∀ (frame : Nat) (a : A) (chain : List Nat) (top : Nat) (ex : Bool) (a' : A) (ch : List Nat),
      b.walkSource f t tgt k frame a chain = .exit top ex a' ch →
      (frame = 0 ∧ top = 0 ∧ ch = chain) ∨ ch.getLast? = some top := by
  induction k with
  | zero =>
    intro frame a chain top ex a' ch h
    by_cases h0 : frame = 0
    · subst h0; rw [walkSource_zero] at h; cases h; exact Or.inl ⟨rfl, rfl, rfl⟩
    · right
      cases hc : b.getFrame frame with
      | none => rw [walkSource_none h0 hc] at h; cases h; simp
      | some c =>
        rcases hg : f.gather c t a with ⟨r, a1⟩
        match r, hg with
        | .ub, hg => rw [walkSource_ub h0 hc hg] at h; cases h
        | .id 0, hg => rw [walkSource_fail h0 hc hg] at h; cases h; simp
        | .id (p + 1), hg =>
          by_cases ht : frame = tgt
          · rw [walkSource_early h0 hc hg ht] at h; cases h
          · rw [walkSource_deep h0 hc hg ht] at h; cases h
  | succ k ih =>
    intro frame a chain top ex a' ch h
    by_cases h0 : frame = 0
    · subst h0; rw [walkSource_zero] at h; cases h; exact Or.inl ⟨rfl, rfl, rfl⟩
    · right
      cases hc : b.getFrame frame with
      | none => rw [walkSource_none h0 hc] at h; cases h; simp
      | some c =>
        rcases hg : f.gather c t a with ⟨r, a1⟩
        match r, hg with
        | .ub, hg => rw [walkSource_ub h0 hc hg] at h; cases h
        | .id 0, hg => rw [walkSource_fail h0 hc hg] at h; cases h; simp
        | .id (p + 1), hg =>
          by_cases ht : frame = tgt
          · rw [walkSource_early h0 hc hg ht] at h; cases h
          · rw [walkSource_step h0 hc hg ht] at h
            rcases ih _ _ _ _ _ _ _ h with h' | h'
            · omega
            · exact h'

end Tf2
