import Verif.Proofs.Walk

namespace Tf2

variable {X A B : Type}

/-! ### Changing the accumulator -/

/-- Forget the accumulator. -/
def Loop1.forget : Loop1 A → Loop1 Unit
  | .exit top ex _ ch => .exit top ex () ch
  | .early _ ch => .early () ch
  | .tooDeep => .tooDeep
  | .ub => .ub

/-- Forget the accumulator. -/
def Loop2.forget : Loop2 A → Loop2 Unit
  | .exit fr _ ch => .exit fr () ch
  | .extrap => .extrap
  | .early _ ch => .early () ch
  | .tooDeep => .tooDeep
  | .ub => .ub

/-- Forget the accumulator. -/
def WalkRes.forget : WalkRes A → WalkRes Unit
  | .done _ ch => .done () ch
  | .err c => .err c
  | .ub => .ub

section
variable {f : Accum X A} {g : Accum X B}
  (hfg : ∀ c t a a', (f.gather c t a).1 = (g.gather c t a').1)
include hfg

theorem walkSource_sim (b : Buf X) (t : Time) (tgt k : Nat) :
    ∀ (frame : Nat) (a : A) (a' : B) (chain : List Nat),
      (b.walkSource f t tgt k frame a chain).forget = (b.walkSource g t tgt k frame a' chain).forget := by
  induction k with
  | zero =>
    intro frame a a' chain
    by_cases h0 : frame = 0
    · subst h0; rw [walkSource_zero, walkSource_zero]; rfl
    · cases hc : b.getFrame frame with
      | none => rw [walkSource_none h0 hc, walkSource_none h0 hc]; rfl
      | some c =>
        have e := hfg c t a a'
        rcases hf : f.gather c t a with ⟨r, a1⟩
        rcases hg : g.gather c t a' with ⟨r', a1'⟩
        rw [hf, hg] at e
        simp only at e; subst e
        match r, hf, hg with
        | .ub, hf, hg => rw [walkSource_ub h0 hc hf, walkSource_ub h0 hc hg]; rfl
        | .id 0, hf, hg => rw [walkSource_fail h0 hc hf, walkSource_fail h0 hc hg]; rfl
        | .id (p + 1), hf, hg =>
          by_cases ht : frame = tgt
          · rw [walkSource_early h0 hc hf ht, walkSource_early h0 hc hg ht]; rfl
          · rw [walkSource_deep h0 hc hf ht, walkSource_deep h0 hc hg ht]; rfl
  | succ k ih =>
    intro frame a a' chain
    by_cases h0 : frame = 0
    · subst h0; rw [walkSource_zero, walkSource_zero]; rfl
    · cases hc : b.getFrame frame with
      | none => rw [walkSource_none h0 hc, walkSource_none h0 hc]; rfl
      | some c =>
        have e := hfg c t a a'
        rcases hf : f.gather c t a with ⟨r, a1⟩
        rcases hg : g.gather c t a' with ⟨r', a1'⟩
        rw [hf, hg] at e
        simp only at e; subst e
        match r, hf, hg with
        | .ub, hf, hg => rw [walkSource_ub h0 hc hf, walkSource_ub h0 hc hg]; rfl
        | .id 0, hf, hg => rw [walkSource_fail h0 hc hf, walkSource_fail h0 hc hg]; rfl
        | .id (p + 1), hf, hg =>
          by_cases ht : frame = tgt
          · rw [walkSource_early h0 hc hf ht, walkSource_early h0 hc hg ht]; rfl
          · rw [walkSource_step h0 hc hf ht, walkSource_step h0 hc hg ht]; exact ih _ _ _ _

theorem walkTarget_sim (b : Buf X) (t : Time) (src top k : Nat) :
    ∀ (frame : Nat) (a : A) (a' : B) (rev : List Nat),
      (b.walkTarget f t src top k frame a rev).forget =
        (b.walkTarget g t src top k frame a' rev).forget := by
  induction k with
  | zero =>
    intro frame a a' chain
    by_cases h0 : frame = top
    · subst h0; rw [walkTarget_top, walkTarget_top]; rfl
    · cases hc : b.getFrame frame with
      | none => rw [walkTarget_none h0 hc, walkTarget_none h0 hc]; rfl
      | some c =>
        have e := hfg c t a a'
        rcases hf : f.gather c t a with ⟨r, a1⟩
        rcases hg : g.gather c t a' with ⟨r', a1'⟩
        rw [hf, hg] at e
        simp only at e; subst e
        match r, hf, hg with
        | .ub, hf, hg => rw [walkTarget_ub h0 hc hf, walkTarget_ub h0 hc hg]; rfl
        | .id 0, hf, hg => rw [walkTarget_fail h0 hc hf, walkTarget_fail h0 hc hg]; rfl
        | .id (p + 1), hf, hg =>
          by_cases ht : frame = src
          · rw [walkTarget_early h0 hc hf ht, walkTarget_early h0 hc hg ht]; rfl
          · rw [walkTarget_deep h0 hc hf ht, walkTarget_deep h0 hc hg ht]; rfl
  | succ k ih =>
    intro frame a a' chain
    by_cases h0 : frame = top
    · subst h0; rw [walkTarget_top, walkTarget_top]; rfl
    · cases hc : b.getFrame frame with
      | none => rw [walkTarget_none h0 hc, walkTarget_none h0 hc]; rfl
      | some c =>
        have e := hfg c t a a'
        rcases hf : f.gather c t a with ⟨r, a1⟩
        rcases hg : g.gather c t a' with ⟨r', a1'⟩
        rw [hf, hg] at e
        simp only at e; subst e
        match r, hf, hg with
        | .ub, hf, hg => rw [walkTarget_ub h0 hc hf, walkTarget_ub h0 hc hg]; rfl
        | .id 0, hf, hg => rw [walkTarget_fail h0 hc hf, walkTarget_fail h0 hc hg]; rfl
        | .id (p + 1), hf, hg =>
          by_cases ht : frame = src
          · rw [walkTarget_early h0 hc hf ht, walkTarget_early h0 hc hg ht]; rfl
          · rw [walkTarget_step h0 hc hf ht, walkTarget_step h0 hc hg ht]; exact ih _ _ _ _

theorem walkAt_sim (b : Buf X) (t : Time) (tgt src : Nat) (a : A) (a' : B) :
    (b.walkAt f a t tgt src).forget = (b.walkAt g a' t tgt src).forget := by
  have h1 := walkSource_sim hfg b t tgt maxGraphDepth src a a' []
  unfold Buf.walkAt
  generalize b.walkSource f t tgt maxGraphDepth src a [] = r at *
  generalize b.walkSource g t tgt maxGraphDepth src a' [] = r' at *
  cases r <;> cases r' <;> simp [Loop1.forget] at h1 <;> try (subst h1; rfl)
  case tooDeep.tooDeep => rfl
  case ub.ub => rfl
  rename_i top ex a1 ch top' ex' a1' ch'
  obtain ⟨rfl, rfl, rfl⟩ := h1
  have h2 := walkTarget_sim hfg b t src top maxGraphDepth tgt a1 a1' []
  simp only
  generalize b.walkTarget f t src top maxGraphDepth tgt a1 [] = r at *
  generalize b.walkTarget g t src top maxGraphDepth tgt a1' [] = r' at *
  cases r <;> cases r' <;> simp [Loop2.forget] at h2 <;> try (subst h2; rfl)
  case tooDeep.tooDeep => rfl
  case ub.ub => rfl
  case extrap.extrap => rfl
  obtain ⟨rfl, rfl⟩ := h2
  simp only
  split
  · split <;> rfl
  · split <;> rfl

theorem walk_sim (b : Buf X) (t : Time) (tgt src : Nat) (a : A) (a' : B) :
    (b.walk f a t tgt src).forget = (b.walk g a' t tgt src).forget := by
  unfold Buf.walk
  split
  · rfl
  · split
    · split
      · rfl
      · rfl
      · exact walkAt_sim hfg b _ tgt src a a'
    · exact walkAt_sim hfg b _ tgt src a a'

end

/-- `TransformAccum` and `CanTransformAccum` see the same parents. -/
theorem gather_same [Rigid X] (c : Cache X) (t : Time) (a : TAcc X) (u : Unit) :
    (transformAccum.gather c t a).1 = ((canAccum (X := X)).gather c t u).1 := by
  simp only [transformAccum, canAccum, Cache.getParent_eq]
  cases c.getData t <;> rfl

/-! ### Changing the buffer -/

section
variable {b b' : Buf X} {f : Accum X A} {t : Time} (S : Nat → Prop)
  (hS : ∀ j, S j → b.getFrame j = b'.getFrame j)
  (hcl : ∀ j c p a a', S j → b.getFrame j = some c → f.gather c t a = (.id (p + 1), a') → S (p + 1))
include hS hcl

theorem walkSource_congr (tgt k : Nat) :
    ∀ (frame : Nat) (a : A) (chain : List Nat), S frame →
      b.walkSource f t tgt k frame a chain = b'.walkSource f t tgt k frame a chain := by
  induction k with
  | zero =>
    intro frame a chain hs
    by_cases h0 : frame = 0
    · subst h0; rw [walkSource_zero, walkSource_zero]
    · have he := hS frame hs
      cases hc : b.getFrame frame with
      | none => rw [walkSource_none h0 hc, walkSource_none h0 (he ▸ hc)]
      | some c =>
        have hc' := he ▸ hc
        rcases hf : f.gather c t a with ⟨r, a1⟩
        match r, hf with
        | .ub, hf => rw [walkSource_ub h0 hc hf, walkSource_ub h0 hc' hf]
        | .id 0, hf => rw [walkSource_fail h0 hc hf, walkSource_fail h0 hc' hf]
        | .id (p + 1), hf =>
          by_cases ht : frame = tgt
          · rw [walkSource_early h0 hc hf ht, walkSource_early h0 hc' hf ht]
          · rw [walkSource_deep h0 hc hf ht, walkSource_deep h0 hc' hf ht]
  | succ k ih =>
    intro frame a chain hs
    by_cases h0 : frame = 0
    · subst h0; rw [walkSource_zero, walkSource_zero]
    · have he := hS frame hs
      cases hc : b.getFrame frame with
      | none => rw [walkSource_none h0 hc, walkSource_none h0 (he ▸ hc)]
      | some c =>
        have hc' := he ▸ hc
        rcases hf : f.gather c t a with ⟨r, a1⟩
        match r, hf with
        | .ub, hf => rw [walkSource_ub h0 hc hf, walkSource_ub h0 hc' hf]
        | .id 0, hf => rw [walkSource_fail h0 hc hf, walkSource_fail h0 hc' hf]
        | .id (p + 1), hf =>
          by_cases ht : frame = tgt
          · rw [walkSource_early h0 hc hf ht, walkSource_early h0 hc' hf ht]
          · rw [walkSource_step h0 hc hf ht, walkSource_step h0 hc' hf ht]
            exact ih _ _ _ (hcl _ _ _ _ _ hs hc hf)

theorem walkTarget_congr (src top k : Nat) :
    ∀ (frame : Nat) (a : A) (rev : List Nat), S frame →
      b.walkTarget f t src top k frame a rev = b'.walkTarget f t src top k frame a rev := by
  induction k with
  | zero =>
    intro frame a chain hs
    by_cases h0 : frame = top
    · subst h0; rw [walkTarget_top, walkTarget_top]
    · have he := hS frame hs
      cases hc : b.getFrame frame with
      | none => rw [walkTarget_none h0 hc, walkTarget_none h0 (he ▸ hc)]
      | some c =>
        have hc' := he ▸ hc
        rcases hf : f.gather c t a with ⟨r, a1⟩
        match r, hf with
        | .ub, hf => rw [walkTarget_ub h0 hc hf, walkTarget_ub h0 hc' hf]
        | .id 0, hf => rw [walkTarget_fail h0 hc hf, walkTarget_fail h0 hc' hf]
        | .id (p + 1), hf =>
          by_cases ht : frame = src
          · rw [walkTarget_early h0 hc hf ht, walkTarget_early h0 hc' hf ht]
          · rw [walkTarget_deep h0 hc hf ht, walkTarget_deep h0 hc' hf ht]
  | succ k ih =>
    intro frame a chain hs
    by_cases h0 : frame = top
    · subst h0; rw [walkTarget_top, walkTarget_top]
    · have he := hS frame hs
      cases hc : b.getFrame frame with
      | none => rw [walkTarget_none h0 hc, walkTarget_none h0 (he ▸ hc)]
      | some c =>
        have hc' := he ▸ hc
        rcases hf : f.gather c t a with ⟨r, a1⟩
        match r, hf with
        | .ub, hf => rw [walkTarget_ub h0 hc hf, walkTarget_ub h0 hc' hf]
        | .id 0, hf => rw [walkTarget_fail h0 hc hf, walkTarget_fail h0 hc' hf]
        | .id (p + 1), hf =>
          by_cases ht : frame = src
          · rw [walkTarget_early h0 hc hf ht, walkTarget_early h0 hc' hf ht]
          · rw [walkTarget_step h0 hc hf ht, walkTarget_step h0 hc' hf ht]
            exact ih _ _ _ (hcl _ _ _ _ _ hs hc hf)

theorem walkAt_congr (a : A) {tgt src : Nat} (hs : S src) (ht : S tgt) :
    b.walkAt f a t tgt src = b'.walkAt f a t tgt src := by
  unfold Buf.walkAt
  rw [walkSource_congr S hS hcl tgt _ src a [] hs]
  split
  · rfl
  · rfl
  · rfl
  · rw [walkTarget_congr S hS hcl src _ _ tgt _ [] ht]

end

/-- The latest common time only depends on the caches of a set closed under latest parents. -/
theorem lctSource_congr {b b' : Buf X} (S : Nat → Prop)
    (hS : ∀ j, S j → b.getFrame j = b'.getFrame j)
    (hcl : ∀ j c l p, S j → b.getFrame j = some c → c.latestTimeAndParent = some (l, p + 1) → S (p + 1))
    (tgt k : Nat) : ∀ (frame : Nat) (common : Time) (lct : List (Time × Nat)), S frame →
      b.lctSource tgt k frame common lct = b'.lctSource tgt k frame common lct := by
  induction k with
  | zero =>
    intro frame common lct hs
    unfold Buf.lctSource
    rw [hS frame hs]
  | succ k ih =>
    intro frame common lct hs
    unfold Buf.lctSource
    rw [← hS frame hs]
    split
    · rfl
    · cases hc : b.getFrame frame with
      | none => rfl
      | some c =>
        simp only
        split
        · rfl
        · rfl
        · rename_i l p h
          split
          · rfl
          · exact ih _ _ _ (hcl _ _ _ _ hs hc h)

theorem lctTarget_congr {b b' : Buf X} (S : Nat → Prop)
    (hS : ∀ j, S j → b.getFrame j = b'.getFrame j)
    (hcl : ∀ j c l p, S j → b.getFrame j = some c → c.latestTimeAndParent = some (l, p + 1) → S (p + 1))
    (src : Nat) (lct : List (Time × Nat)) (k : Nat) : ∀ (frame : Nat) (common : Time), S frame →
      b.lctTarget src lct k frame common = b'.lctTarget src lct k frame common := by
  induction k with
  | zero =>
    intro frame common hs
    unfold Buf.lctTarget
    rw [hS frame hs]
  | succ k ih =>
    intro frame common hs
    unfold Buf.lctTarget
    rw [← hS frame hs]
    cases hc : b.getFrame frame with
    | none => rfl
    | some c =>
      simp only
      split
      · rfl
      · rfl
      · rename_i l p h
        split
        · rfl
        · split
          · rfl
          · exact ih _ _ (hcl _ _ _ _ hs hc h)

theorem latestCommonTime_congr {b b' : Buf X} (S : Nat → Prop)
    (hS : ∀ j, S j → b.getFrame j = b'.getFrame j)
    (hcl : ∀ j c l p, S j → b.getFrame j = some c → c.latestTimeAndParent = some (l, p + 1) → S (p + 1))
    {tgt src : Nat} (hs : S src) (ht : S tgt) :
    b.latestCommonTime tgt src = b'.latestCommonTime tgt src := by
  unfold Buf.latestCommonTime
  rw [hS src hs, lctSource_congr S hS hcl tgt _ src _ _ hs]
  split
  · rfl
  · split
    · rfl
    · split
      · rfl
      · rfl
      · rfl
      · rw [lctTarget_congr S hS hcl src _ _ tgt _ ht]

/-- Buffers with the same caches answer the same walks. -/
theorem walk_congr {b b' : Buf X} (h : ∀ j, b.getFrame j = b'.getFrame j) (f : Accum X A) (a : A)
    (t : Time) (tgt src : Nat) : b.walk f a t tgt src = b'.walk f a t tgt src := by
  unfold Buf.walk
  have e1 := latestCommonTime_congr (b := b) (b' := b') (fun _ => True) (fun j _ => h j)
    (fun _ _ _ _ _ _ _ => trivial) (tgt := tgt) (src := src) trivial trivial
  have e2 : ∀ t, b.walkAt f a t tgt src = b'.walkAt f a t tgt src := fun t =>
    walkAt_congr (fun _ => True) (fun j _ => h j) (fun _ _ _ _ _ _ _ _ => trivial) a trivial trivial
  rw [e1]
  simp only [e2]

/-! ### The whole walk at a fixed time -/

section
variable [Rigid X] {b : Buf X} {t : Time} {D : Duration}

/-- What `walkToTopParent` with `TransformAccum` returns for two known frames at a fixed time. -/
def WalkRes.Spec (b : Buf X) (t : Time) (src tgt : Nat) : WalkRes (TAcc X) → Prop
  | .done a _ => a.time = t ∧
      ((∃ n, n ≤ maxGraphDepth ∧ Chain b t src tgt a.result n) ∨
       (∃ n y, n ≤ maxGraphDepth ∧ Chain b t tgt src y n ∧ a.result = Rigid.inv y) ∨
       (∃ r x y n m, n ≤ maxGraphDepth ∧ m ≤ maxGraphDepth ∧ Chain b t src r x n ∧ Chain b t tgt r y m ∧
          (¬ ∃ p e, ParentAt b t r p e) ∧ a.result = Rigid.comp (Rigid.inv y) x))
  | .err .lookup => (∃ c x, Chain b t src c x (maxGraphDepth + 1)) ∨
      (∃ c x, Chain b t tgt c x (maxGraphDepth + 1))
  | .err .connectivity => ∃ r r' n m, EndsAt b t src r n ∧ EndsAt b t tgt r' m ∧ r ≠ r' ∧
      b.getFrame r = none ∧ b.getFrame r' = none
  | .err .extrapolation => ∃ r r' n m, EndsAt b t src r n ∧ EndsAt b t tgt r' m ∧ r ≠ r' ∧
      ((b.getFrame r).isSome ∨ (b.getFrame r').isSome)
  | .err .noError => False
  | .ub => False

theorem walkAt_spec (hw : WF D b) {src tgt : Nat} (hs : src ≠ 0) (a : TAcc X)
    (ha : a.sourceToTop = Rigid.one) (ha' : a.targetToTop = Rigid.one) :
    (b.walkAt transformAccum a t tgt src).Spec b t src tgt := by
  have h1 := walkSource_spec (t := t) hw (src := src) (tgt := tgt) maxGraphDepth src a [] 0 a
    (by rw [ha]; exact .refl) hs rfl (by intro y m hm; omega)
  have hch := walkSource_chain b transformAccum t tgt maxGraphDepth src a []
  unfold Buf.walkAt
  generalize b.walkSource transformAccum t tgt maxGraphDepth src a [] = r at *
  rw [Nat.zero_add] at h1
  cases r with
  | ub => exact h1
  | tooDeep => exact Or.inl h1.1
  | early a1 ch =>
    obtain ⟨n, h2, h3, h4, h5⟩ := h1
    exact ⟨h4, Or.inl ⟨n, h3, h2⟩⟩
  | exit top ex a1 ch =>
    obtain ⟨n, hc, hn, hend, hex, hat, htop, hnot⟩ := h1
    have h2 := walkTarget_spec (t := t) hw (src := src) (tgt := tgt) (top := top) maxGraphDepth tgt a1 [] 0 a1
      (by rw [hat, ha']; exact .refl) rfl
    simp only
    generalize b.walkTarget transformAccum t src top maxGraphDepth tgt a1 [] = r at *
    rw [Nat.zero_add] at h2
    cases r with
    | ub => exact h2
    | tooDeep => exact Or.inr h2
    | extrap =>
      obtain ⟨fr, x, m, h3, h4, h5, h6, h7⟩ := h2
      exact ⟨top, fr, n, m, ⟨⟨_, hc⟩, hend⟩, ⟨⟨_, h3⟩, h6⟩, Ne.symm h5, Or.inr h7⟩
    | early a2 rev =>
      obtain ⟨m, y, h3, h4, h5, h6, _⟩ := h2
      exact ⟨h6, Or.inr (Or.inl ⟨m, y, h4, h3, h5⟩)⟩
    | exit fr a2 rev =>
      obtain ⟨m, h3, h4, h5, h6⟩ := h2
      simp only
      by_cases hft : fr = top
      · subst hft
        rw [if_pos rfl]
        have hp := pruneChain_some (chain := ch) (rev := rev) (x := fr) (by
          rcases hch _ _ _ _ rfl with ⟨h, _⟩ | h
          · exact absurd h hs
          · exact Or.inr h)
        cases hpc : pruneChain ch (rev ++ [fr]) with
        | none => rw [hpc] at hp; cases hp
        | some l =>
          refine ⟨rfl, Or.inr (Or.inr ⟨fr, _, _, n, m, hn, h4, hc, h3, hend, ?_⟩)⟩
          simp [transformAccum, h6]
      · rw [if_neg hft]
        have hfn : b.getFrame fr = none := by
          rcases h5 with h | h
          · exact absurd h hft
          · exact h
        cases ex with
        | true =>
          exact ⟨top, fr, n, m, ⟨⟨_, hc⟩, hend⟩, ⟨⟨_, h3⟩, no_parent_of_no_cache hfn⟩, Ne.symm hft,
            Or.inl hex.symm⟩
        | false =>
          refine ⟨top, fr, n, m, ⟨⟨_, hc⟩, hend⟩, ⟨⟨_, h3⟩, no_parent_of_no_cache hfn⟩, Ne.symm hft,
            ?_, hfn⟩
          cases hg : b.getFrame top with
          | none => rfl
          | some c => rw [hg] at hex; cases hex

end

end Tf2
