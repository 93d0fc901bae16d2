import Verif.Proofs.LookupOk
import Verif.Spec.Latest

/-!
# The loops of `getLatestCommonTime`
-/
namespace Tf2

variable {X : Type} [Rigid X] {b : Buf X} {D : Duration}

/-- What `latestTimeAndParent` says in terms of `NewestEdge`. -/
theorem latest_cases (hw : WF D b) {f : Nat} {c : Cache X} (hc : b.getFrame f = some c) :
    (∃ s, c.latestTimeAndParent = some (s, 0) ∧ ¬ ∃ p s, NewestEdge b f p s) ∨
    (∃ s p, c.latestTimeAndParent = some (s, p + 1) ∧ NewestEdge b f (p + 1) s) := by
  have hok := hw.caches f c hc
  cases c with
  | dyn D' st =>
    cases st with
    | nil =>
      left
      refine ⟨0, rfl, ?_⟩
      rintro ⟨p, s, _, c', e, h1, h2, _⟩
      rw [hc] at h1; cases h1
      cases h2
    | cons a r =>
      cases hp : a.parent with
      | zero =>
        left
        refine ⟨a.stamp, by simp [Cache.latestTimeAndParent, dynLatest, hp], ?_⟩
        rintro ⟨p, s, h0, c', e, h1, h2, h3, _⟩
        rw [hc] at h1; cases h1
        have : (GetRes.ok a : GetRes X) = .ok e := h2
        injection this with this; subst this; omega
      | succ p =>
        right
        exact ⟨a.stamp, p, by simp [Cache.latestTimeAndParent, dynLatest, hp], by omega, _, a, hc, rfl, hp, rfl⟩
  | stat o =>
    cases o with
    | none => exact absurd hok (by simp [CacheOK])
    | some a =>
      cases hp : a.parent with
      | zero =>
        left
        refine ⟨0, by simp [Cache.latestTimeAndParent, hp], ?_⟩
        rintro ⟨p, s, h0, c', e, h1, h2, h3, _⟩
        rw [hc] at h1; cases h1
        simp only [Cache.getData, GetRes.ok.injEq] at h2
        subst h2; simp only at h3; omega
      | succ p =>
        right
        exact ⟨0, p, by simp [Cache.latestTimeAndParent, hp], by omega, _, { a with stamp := 0 }, hc, rfl, hp, rfl⟩

theorem NewestEdge.det {f p p' : Nat} {s s' : Time} (h : NewestEdge b f p s) (h' : NewestEdge b f p' s') :
    p = p' ∧ s = s' := by
  obtain ⟨_, c, e, h1, h2, h3, h4⟩ := h
  obtain ⟨_, c', e', h1', h2', h3', h4'⟩ := h'
  rw [h1] at h1'; cases h1'
  rw [h2] at h2'; cases h2'
  exact ⟨h3.symm.trans h3', h4.trans h4'.symm⟩

theorem NewestEdge.cache (hw : WF D b) {f p : Nat} {s : Time} (h : NewestEdge b f p s) :
    ∃ c q, b.getFrame f = some c ∧ c.latestTimeAndParent = some (s, q + 1) ∧ p = q + 1 := by
  obtain ⟨h0, c, e, hc, h2⟩ := h
  rcases latest_cases hw hc with ⟨s', _, hno⟩ | ⟨s', q, hl, he⟩
  · exact absurd ⟨p, s, h0, c, e, hc, h2⟩ hno
  · obtain ⟨rfl, rfl⟩ := NewestEdge.det ⟨h0, c, e, hc, h2⟩ he
    exact ⟨c, q, hc, hl, rfl⟩

theorem NewestPath.append {a c d : Nat} {l l' : List (Time × Nat)} (h : NewestPath b a c l)
    (h' : NewestPath b c d l') : NewestPath b a d (l ++ l') := by
  induction h with
  | nil => exact h'
  | cons he _ ih => exact .cons he (ih h')

/-- A path to a terminal frame factors through every frame reached. -/
theorem NewestPath.factor {a r : Nat} {l : List (Time × Nat)} (h : NewestPath b a r l)
    (hr : ¬ ∃ p s, NewestEdge b r p s) {c : Nat} {l1 : List (Time × Nat)} (h1 : NewestPath b a c l1) :
    ∃ l2, l = l1 ++ l2 ∧ NewestPath b c r l2 := by
  induction h1 generalizing l with
  | nil => exact ⟨l, rfl, h⟩
  | @cons a p c s l1 he _ ih =>
    cases h with
    | nil => exact absurd ⟨p, s, he⟩ hr
    | cons he' hp =>
      obtain ⟨rfl, rfl⟩ := he.det he'
      obtain ⟨l2, e, h2⟩ := ih hp
      exact ⟨l2, by rw [e]; rfl, h2⟩

theorem NewestPath.unique {a r : Nat} {l l' : List (Time × Nat)} (h : NewestPath b a r l)
    (hr : ¬ ∃ p s, NewestEdge b r p s) (h' : NewestPath b a r l') : l = l' := by
  obtain ⟨l2, e, h2⟩ := h.factor hr h'
  cases h2 with
  | nil => simpa using e
  | cons he _ => exact absurd ⟨_, _, he⟩ hr

theorem NewestPath.term_unique {a r r' : Nat} {l l' : List (Time × Nat)} (h : NewestPath b a r l)
    (hr : ¬ ∃ p s, NewestEdge b r p s) (h' : NewestPath b a r' l') (hr' : ¬ ∃ p s, NewestEdge b r' p s) :
    r = r' := by
  obtain ⟨l2, _, h2⟩ := h.factor hr h'
  cases h2 with
  | nil => rfl
  | cons he _ => exact absurd ⟨_, _, he⟩ hr'

/-- No frame on a path that ends is its own proper ancestor. -/
theorem NewestPath.acyclic {a r : Nat} {l : List (Time × Nat)} (h : NewestPath b a r l)
    (hr : ¬ ∃ p s, NewestEdge b r p s) {l1 : List (Time × Nat)} (h1 : NewestPath b a a l1) : l1 = [] := by
  obtain ⟨l2, e, h2⟩ := h.factor hr h1
  have := h.unique hr h2
  rw [← this] at e
  simpa using e

/-- Two paths from a frame whose chain ends, to the same frame, are the same path. -/
theorem NewestPath.unique' {a r c : Nat} {l l1 l2 : List (Time × Nat)} (h : NewestPath b a r l)
    (hr : ¬ ∃ p s, NewestEdge b r p s) (h1 : NewestPath b a c l1) (h2 : NewestPath b a c l2) : l1 = l2 := by
  obtain ⟨r1, e1, p1⟩ := h.factor hr h1
  obtain ⟨r2, e2, p2⟩ := h.factor hr h2
  have := p1.unique hr p2
  subst this
  rw [e1] at e2
  exact List.append_cancel_right e2

/-- The frames along a path are reached by its prefixes. -/
theorem NewestPath.prefix_of_split {a c : Nat} {l1 l2 : List (Time × Nat)} {s : Time} {p : Nat}
    (h : NewestPath b a c (l1 ++ (s, p) :: l2)) :
    NewestPath b a p (l1 ++ [(s, p)]) ∧ NewestPath b p c l2 := by
  induction l1 generalizing a with
  | nil =>
    cases h with
    | cons he hp => exact ⟨.cons he (.nil _), hp⟩
  | cons x r ih =>
    cases h with
    | cons he hp =>
      obtain ⟨h1, h2⟩ := ih hp
      exact ⟨.cons he h1, h2⟩

theorem NewestPath.end_mem {a c : Nat} {l : List (Time × Nat)} (h : NewestPath b a c l) (hl : l ≠ []) :
    ∃ l' s, l = l' ++ [(s, c)] := by
  induction h with
  | nil => exact absurd rfl hl
  | @cons a p c s l he hp ih =>
    cases l with
    | nil => cases hp; exact ⟨[], s, rfl⟩
    | cons x r =>
      obtain ⟨l', s', e⟩ := ih (by simp)
      exact ⟨(s, p) :: l', s', by rw [e]; rfl⟩

theorem NewestPath.ne_zero {a c : Nat} {l : List (Time × Nat)} (h : NewestPath b a c l) (ha : a ≠ 0) :
    c ≠ 0 := by
  induction h with
  | nil => exact ha
  | cons he _ ih => exact ih he.1

/-- Stamps of a path entry list. -/
def stampsOf (l : List (Time × Nat)) : List Time := l.map Prod.fst

/-- The running minimum. -/
def accMin (common : Time) (l : List (Time × Nat)) : Time :=
  l.foldl (fun c e => minNonzero e.1 c) common

/-! ### The loops on paths -/

theorem lctSource_exit (hw : WF D b) {tgt r : Nat} (hr : ¬ ∃ p s, NewestEdge b r p s) {frame : Nat}
    {l : List (Time × Nat)} (h : NewestPath b frame r l) :
    ∀ (k : Nat) (common : Time) (lct : List (Time × Nat)), frame ≠ 0 → l.length ≤ k →
      (∀ e ∈ l, e.2 ≠ tgt) → b.lctSource tgt k frame common lct = .exit (lct ++ l) := by
  induction h with
  | nil a =>
    intro k common lct h0 _ _
    unfold Buf.lctSource
    rw [if_neg h0]
    cases hc : b.getFrame a with
    | none => simp
    | some c =>
      rcases latest_cases hw hc with ⟨s, hl, _⟩ | ⟨s, p, _, he⟩
      · simp [hl]
      · exact absurd ⟨_, _, he⟩ hr
  | @cons a p c s l he hp ih =>
    intro k common lct h0 hk hne
    obtain ⟨c', q, hc, hl, rfl⟩ := he.cache hw
    have hnt : ¬ (q + 1 = tgt) := hne (s, q + 1) (List.mem_cons_self ..)
    obtain ⟨k, rfl⟩ : ∃ k', k = k' + 1 := ⟨k - 1, by simp at hk; omega⟩
    conv => lhs; unfold Buf.lctSource
    simp only [if_neg h0, hc, hl, if_neg hnt]
    rw [ih hr k _ _ he.1 (by simp at hk; omega) (fun e he => hne e (List.mem_cons_of_mem _ he))]
    simp

theorem lctSource_early (hw : WF D b) {tgt frame : Nat} {l : List (Time × Nat)}
    (h : NewestPath b frame tgt l) : ∀ (k : Nat) (common : Time) (lct : List (Time × Nat)), frame ≠ 0 →
      l ≠ [] → l.length ≤ k + 1 → (∀ e ∈ l.dropLast, e.2 ≠ tgt) →
      b.lctSource tgt k frame common lct = .early (unMax (accMin common l)) := by
  induction h with
  | nil a => intro k common lct _ h; exact absurd rfl h
  | @cons a p c s l he hp ih =>
    intro k common lct h0 _ hk hne
    obtain ⟨c', q, hc, hl, rfl⟩ := he.cache hw
    cases l with
    | nil =>
      cases hp
      conv => lhs; unfold Buf.lctSource
      simp [if_neg h0, hc, hl, accMin]
    | cons x l =>
      have hnt : ¬ (q + 1 = c) := hne (s, q + 1) (by simp [List.dropLast])
      obtain ⟨k, rfl⟩ : ∃ k', k = k' + 1 := ⟨k - 1, by simp at hk; omega⟩
      conv => lhs; unfold Buf.lctSource
      simp only [if_neg h0, hc, hl, if_neg hnt]
      rw [ih k _ _ he.1 (by simp) (by simp at hk ⊢; omega)
        (fun e he => hne e (by rw [List.dropLast_cons_of_ne_nil (by simp)]; exact List.mem_cons_of_mem _ he))]
      rfl

/-- The parents in a list of entries. -/
abbrev parentIn (lct : List (Time × Nat)) (p : Nat) : Prop := ∃ e ∈ lct, e.2 = p

theorem any_parentIn (lct : List (Time × Nat)) (p : Nat) :
    (lct.any fun e => decide (e.2 = p)) = true ↔ parentIn lct p := by
  simp [parentIn]

theorem lctTarget_common (hw : WF D b) {src q frame : Nat} {lct l : List (Time × Nat)}
    (h : NewestPath b frame q l) : ∀ (k : Nat) (common : Time), l ≠ [] → l.length ≤ k + 1 →
      parentIn lct q → (∀ e ∈ l.dropLast, e.2 ≠ src ∧ ¬ parentIn lct e.2) →
      b.lctTarget src lct k frame common = .exit q (accMin common l) := by
  induction h with
  | nil a => intro k common h; exact absurd rfl h
  | @cons a p c s l he hp ih =>
    intro k common _ hk hin hne
    obtain ⟨c', q, hc, hl, rfl⟩ := he.cache hw
    cases l with
    | nil =>
      cases hp
      conv => lhs; unfold Buf.lctTarget
      simp only [hc, hl]
      rw [if_pos ((any_parentIn _ _).2 hin)]
      rfl
    | cons x l =>
      have hnt := hne (s, q + 1) (by simp [List.dropLast])
      obtain ⟨k, rfl⟩ : ∃ k', k = k' + 1 := ⟨k - 1, by simp at hk; omega⟩
      conv => lhs; unfold Buf.lctTarget
      simp only [hc, hl]
      rw [if_neg (fun h => hnt.2 ((any_parentIn _ _).1 h)), if_neg hnt.1]
      rw [ih k _ (by simp) (by simp at hk ⊢; omega) hin
        (fun e he => hne e (by rw [List.dropLast_cons_of_ne_nil (by simp)]; exact List.mem_cons_of_mem _ he))]
      rfl

theorem lctTarget_early (hw : WF D b) {src frame : Nat} {lct l : List (Time × Nat)}
    (h : NewestPath b frame src l) : ∀ (k : Nat) (common : Time), l ≠ [] → l.length ≤ k + 1 →
      (∀ e ∈ l, ¬ parentIn lct e.2) → (∀ e ∈ l.dropLast, e.2 ≠ src) →
      b.lctTarget src lct k frame common = .early (unMax (accMin common l)) := by
  induction h with
  | nil a => intro k common h; exact absurd rfl h
  | @cons a p c s l he hp ih =>
    intro k common _ hk hin hne
    obtain ⟨c', q, hc, hl, rfl⟩ := he.cache hw
    have hni := hin (s, q + 1) (List.mem_cons_self ..)
    cases l with
    | nil =>
      cases hp
      conv => lhs; unfold Buf.lctTarget
      simp only [hc, hl]
      rw [if_neg (fun h => hni ((any_parentIn _ _).1 h))]
      simp [accMin]
    | cons x l =>
      have hnt := hne (s, q + 1) (by simp [List.dropLast])
      obtain ⟨k, rfl⟩ : ∃ k', k = k' + 1 := ⟨k - 1, by simp at hk; omega⟩
      conv => lhs; unfold Buf.lctTarget
      simp only [hc, hl]
      rw [if_neg (fun h => hni ((any_parentIn _ _).1 h)), if_neg hnt]
      rw [ih k _ (by simp) (by simp at hk ⊢; omega) (fun e he => hin e (List.mem_cons_of_mem _ he))
        (fun e he => hne e (by rw [List.dropLast_cons_of_ne_nil (by simp)]; exact List.mem_cons_of_mem _ he))]
      rfl

theorem lctTarget_none (hw : WF D b) {src r frame : Nat} (hr : ¬ ∃ p s, NewestEdge b r p s)
    {lct l : List (Time × Nat)} (h : NewestPath b frame r l) : ∀ (k : Nat) (common : Time), l.length ≤ k →
      (∀ e ∈ l, e.2 ≠ src ∧ ¬ parentIn lct e.2) →
      b.lctTarget src lct k frame common = .exit 0 (accMin common l) := by
  induction h with
  | nil a =>
    intro k common _ _
    unfold Buf.lctTarget
    cases hc : b.getFrame a with
    | none => rfl
    | some c =>
      rcases latest_cases hw hc with ⟨s, hl, _⟩ | ⟨s, p, _, he⟩
      · simp [hl, accMin]
      · exact absurd ⟨_, _, he⟩ hr
  | @cons a p c s l he hp ih =>
    intro k common hk hne
    obtain ⟨c', q, hc, hl, rfl⟩ := he.cache hw
    have hnt := hne (s, q + 1) (List.mem_cons_self ..)
    obtain ⟨k, rfl⟩ : ∃ k', k = k' + 1 := ⟨k - 1, by simp at hk; omega⟩
    conv => lhs; unfold Buf.lctTarget
    simp only [hc, hl]
    rw [if_neg (fun h => hnt.2 ((any_parentIn _ _).1 h)), if_neg hnt.1]
    rw [ih hr k _ (by simp at hk; omega) (fun e he => hne e (List.mem_cons_of_mem _ he))]
    rfl

theorem lctJoin_eq {q : Nat} {l' rest : List (Time × Nat)} {s : Time} :
    ∀ (common : Time), (∀ e ∈ l', e.2 ≠ q) →
      Buf.lctJoin q (l' ++ (s, q) :: rest) common = accMin common (l' ++ [(s, q)]) := by
  induction l' with
  | nil => intro common _; simp [Buf.lctJoin, accMin]
  | cons x r ih =>
    intro common h
    have := h x (List.mem_cons_self ..)
    obtain ⟨s', p⟩ := x
    simp only [List.cons_append, Buf.lctJoin]
    rw [if_neg this, ih _ (fun e he => h e (List.mem_cons_of_mem _ he))]
    rfl

theorem accMin_append (common : Time) (l l' : List (Time × Nat)) :
    accMin common (l ++ l') = accMin (accMin common l) l' := by simp [accMin]

/-- The running minimum is the smallest nonzero stamp. -/
theorem unMax_accMin (l : List (Time × Nat)) (h : ∀ e ∈ l, e.1 < TIME_MAX) :
    MinNonzeroOf (stampsOf l) (unMax (accMin TIME_MAX l)) := by
  have key : ∀ (l : List (Time × Nat)) (c : Time), c ≠ 0 → (∀ e ∈ l, e.1 < TIME_MAX) →
      accMin c l ≠ 0 ∧ accMin c l ≤ c ∧ (∀ e ∈ l, e.1 ≠ 0 → accMin c l ≤ e.1) ∧
        (accMin c l = c ∨ accMin c l ∈ stampsOf l) := by
    intro l
    induction l with
    | nil => intro c hc _; simp [accMin, hc]
    | cons x r ih =>
      intro c hc hl
      by_cases hx : x.1 = 0
      · obtain ⟨h1, h2, h3, h4⟩ := ih c hc (fun e he => hl e (List.mem_cons_of_mem _ he))
        have e : accMin c (x :: r) = accMin c r := by simp [accMin, minNonzero, hx]
        rw [e]
        refine ⟨h1, h2, ?_, ?_⟩
        · intro e he hne
          rcases List.mem_cons.1 he with rfl | he
          · exact absurd hx hne
          · exact h3 e he hne
        · rcases h4 with h4 | h4
          · exact Or.inl h4
          · exact Or.inr (by simp only [stampsOf, List.map_cons, List.mem_cons]; exact Or.inr h4)
      · have hm : min x.1 c ≠ 0 := by omega
        obtain ⟨h1, h2, h3, h4⟩ := ih (min x.1 c) hm (fun e he => hl e (List.mem_cons_of_mem _ he))
        have e : accMin c (x :: r) = accMin (min x.1 c) r := by simp [accMin, minNonzero, hx]
        rw [e]
        refine ⟨h1, by omega, ?_, ?_⟩
        · intro e he hne
          rcases List.mem_cons.1 he with rfl | he
          · omega
          · exact h3 e he hne
        · rcases h4 with h4 | h4
          · by_cases hxc : x.1 ≤ c
            · exact Or.inr (by simp only [stampsOf, List.map_cons, List.mem_cons]; left; omega)
            · left; omega
          · exact Or.inr (by simp only [stampsOf, List.map_cons, List.mem_cons]; exact Or.inr h4)
  obtain ⟨h1, h2, h3, h4⟩ := key l TIME_MAX (by decide) h
  unfold unMax
  by_cases hmax : accMin TIME_MAX l = TIME_MAX
  · rw [if_pos hmax]
    left
    refine ⟨rfl, ?_⟩
    intro s hs
    obtain ⟨e, he, rfl⟩ := List.mem_map.1 hs
    refine Classical.byContradiction fun hne => ?_
    have := h3 e he hne
    have := h e he
    omega
  · rw [if_neg hmax]
    right
    refine ⟨h1, ?_, ?_⟩
    · rcases h4 with h4 | h4
      · exact absurd h4 hmax
      · exact h4
    · intro s hs hne
      obtain ⟨e, he, rfl⟩ := List.mem_map.1 hs
      exact h3 e he hne

/-- `getLatestCommonTime` on frames whose newest-transform paths end at the same frame. -/
theorem latestCommonTime_lca (hw : WF D b) {s g q r : Nat} (hs0 : s ≠ 0) (hg0 : g ≠ 0) (hne : s ≠ g)
    {Ls Lg ls lg : List (Time × Nat)} (hS : NewestPath b s r Ls) (hSl : Ls.length ≤ maxGraphDepth)
    (hG : NewestPath b g r Lg) (hGl : Lg.length ≤ maxGraphDepth) (hr : ¬ ∃ p s, NewestEdge b r p s)
    (hs : NewestPath b s q ls) (hg : NewestPath b g q lg)
    (hlow : ∀ f, (∃ l, NewestPath b s f l) → (∃ l, NewestPath b g f l) → ∃ l, NewestPath b q f l) :
    b.latestCommonTime g s = .ok (unMax (accMin TIME_MAX (lg ++ ls))) := by
  obtain ⟨Lq, eS, hQ⟩ := hS.factor hr hs
  obtain ⟨Lq', eG, hQ'⟩ := hG.factor hr hg
  have := hQ.unique hr hQ'
  subst this
  -- frames of a proper prefix are not ancestors of q
  have hsplit : ∀ {a : Nat} {l L : List (Time × Nat)}, NewestPath b a q l → NewestPath b a r L →
      ∀ e ∈ l.dropLast, ¬ ∃ l', NewestPath b q e.2 l' := by
    intro a l L hl hL e he hex
    obtain ⟨l', hl'⟩ := hex
    have hlne : l ≠ [] := by intro h; subst h; simp at he
    obtain ⟨l0, s0, e0⟩ := hl.end_mem hlne
    subst e0
    rw [List.dropLast_concat] at he
    obtain ⟨l1, l2, rfl⟩ := List.append_of_mem he
    obtain ⟨se, fe⟩ := e
    simp only [List.append_assoc, List.cons_append] at hl
    obtain ⟨_, h2⟩ := hl.prefix_of_split
    have hcyc := hl'.append h2
    have := hQ.acyclic hr hcyc
    simp at this
  have hdl : ∀ {a : Nat} {l : List (Time × Nat)}, NewestPath b a q l → ∀ e ∈ l, ∃ l', NewestPath b a e.2 l' := by
    intro a l hl e he
    obtain ⟨l1, l2, rfl⟩ := List.append_of_mem he
    obtain ⟨se, fe⟩ := e
    exact ⟨_, hl.prefix_of_split.1⟩
  have hmemS : ∀ {a : Nat} {l : List (Time × Nat)} {c : Nat}, NewestPath b a c l → ∀ e ∈ l, ∃ l', NewestPath b a e.2 l' := by
    intro a l c hl e he
    obtain ⟨l1, l2, rfl⟩ := List.append_of_mem he
    obtain ⟨se, fe⟩ := e
    exact ⟨_, hl.prefix_of_split.1⟩
  unfold Buf.latestCommonTime
  rw [if_neg (fun h => h.elim hs0 hg0), if_neg hne]
  have hlsLen : ls.length ≤ maxGraphDepth := by rw [eS] at hSl; simp at hSl; omega
  have hlgLen : lg.length ≤ maxGraphDepth := by rw [eG] at hGl; simp at hGl; omega
  by_cases hgq : g = q
  · -- target is an ancestor of source
    subst hgq
    have hlg : lg = [] := hG.acyclic hr hg
    subst hlg
    have hls : ls ≠ [] := by intro h; subst h; cases hs; exact hne rfl
    rw [lctSource_early hw hs maxGraphDepth TIME_MAX [] hs0 hls (by omega) (fun e he hq =>
      hsplit hs hS e he ⟨[], by rw [hq]; exact .nil _⟩)]
    rfl
  · -- target is not among the ancestors of source
    have hgn : ∀ e ∈ Ls, e.2 ≠ g := by
      intro e he hq
      obtain ⟨l', hl'⟩ := hmemS hS e he
      rw [hq] at hl'
      obtain ⟨l'', hl''⟩ := hlow g ⟨l', hl'⟩ ⟨[], .nil _⟩
      have hc := hg.append hl''
      have := hG.acyclic hr hc
      have hlg : lg = [] := (List.append_eq_nil_iff.1 this).1
      subst hlg
      cases hg
      exact hgq rfl
    rw [lctSource_exit hw hr hS maxGraphDepth TIME_MAX [] hs0 hSl hgn]
    simp only [List.nil_append]
    have hlg : lg ≠ [] := by intro h; subst h; cases hg; exact hgq rfl
    by_cases hsq : s = q
    · -- source is an ancestor of target
      subst hsq
      have hls : ls = [] := hS.acyclic hr hs
      subst hls
      rw [lctTarget_early hw hg maxGraphDepth TIME_MAX hlg (by omega) ?_ (fun e he hq =>
        hsplit hg hG e he ⟨[], by rw [hq]; exact .nil _⟩)]
      · simp
      · intro e he ⟨e', he', hp⟩
        obtain ⟨l1, l2, e1⟩ := List.append_of_mem he'
        obtain ⟨se, fe⟩ := e'
        have hS' := hS
        rw [e1] at hS'
        have h1 := hS'.prefix_of_split.1
        simp only at hp
        rw [hp] at h1
        obtain ⟨m1, m2, e2⟩ := List.append_of_mem he
        obtain ⟨st, ft⟩ := e
        have hg' := hg
        rw [e2] at hg'
        have h2 := hg'.prefix_of_split.2
        simp only at h1
        have := hS.acyclic hr (h1.append h2)
        simp at this
    · have hls : ls ≠ [] := by intro h; subst h; cases hs; exact hsq rfl
      have hq0 : q ≠ 0 := hs.ne_zero hs0
      have hqin : parentIn Ls q := by
        obtain ⟨l', s', e⟩ := hs.end_mem hls
        exact ⟨(s', q), by rw [eS, e]; simp, rfl⟩
      rw [lctTarget_common hw hg maxGraphDepth TIME_MAX hlg (by omega) hqin ?_]
      · obtain ⟨q, rfl⟩ : ∃ q', q = q' + 1 := ⟨q - 1, by omega⟩
        simp only
        obtain ⟨l', s', e⟩ := hs.end_mem hls
        have hL : Ls = l' ++ (s', q + 1) :: Lq := by rw [eS, e]; simp
        rw [hL, lctJoin_eq _ ?_, ← e, accMin_append]
        intro x hx hxq
        exact hsplit hs hS x (by rw [e]; simpa using hx) ⟨[], by rw [hxq]; exact .nil _⟩
      · intro e he
        have hnq := hsplit hg hG e he
        obtain ⟨lge, hge⟩ := hdl hg e (List.dropLast_subset _ he)
        constructor
        · intro hes
          exact hnq (hlow e.2 ⟨[], by rw [hes]; exact .nil _⟩ ⟨_, hge⟩)
        · rintro ⟨e', he', hp⟩
          obtain ⟨lse, hse⟩ := hmemS hS e' he'
          rw [hp] at hse
          exact hnq (hlow e.2 ⟨_, hse⟩ ⟨_, hge⟩)

/-- `getLatestCommonTime` on frames whose newest-transform paths end at different frames. -/
theorem latestCommonTime_apart (hw : WF D b) {s g r r' : Nat} (hs0 : s ≠ 0) (hg0 : g ≠ 0)
    {Ls Lg : List (Time × Nat)} (hS : NewestPath b s r Ls) (hSl : Ls.length ≤ maxGraphDepth)
    (hG : NewestPath b g r' Lg) (hGl : Lg.length ≤ maxGraphDepth) (hr : ¬ ∃ p s, NewestEdge b r p s)
    (hr' : ¬ ∃ p s, NewestEdge b r' p s) (hd : r ≠ r') :
    b.latestCommonTime g s = .err .connectivity := by
  have hne : s ≠ g := by rintro rfl; exact hd (hS.term_unique hr hG hr')
  have hmem : ∀ {a : Nat} {l : List (Time × Nat)} {c : Nat}, NewestPath b a c l → ∀ e ∈ l,
      ∃ l1 l2, NewestPath b a e.2 l1 ∧ NewestPath b e.2 c l2 := by
    intro a l c hl e he
    obtain ⟨l1, l2, rfl⟩ := List.append_of_mem he
    obtain ⟨se, fe⟩ := e
    exact ⟨_, _, hl.prefix_of_split⟩
  unfold Buf.latestCommonTime
  rw [if_neg (fun h => h.elim hs0 hg0), if_neg hne]
  rw [lctSource_exit hw hr hS maxGraphDepth TIME_MAX [] hs0 hSl ?_]
  · simp only [List.nil_append]
    rw [lctTarget_none hw hr' hG maxGraphDepth TIME_MAX hGl ?_]
    intro e he
    obtain ⟨_, l2, _, h2⟩ := hmem hG e he
    constructor
    · intro h; rw [h] at h2
      exact hd (hS.term_unique hr h2 hr')
    · rintro ⟨e', he', hp⟩
      obtain ⟨_, l2', _, h2'⟩ := hmem hS e' he'
      rw [hp] at h2'
      exact hd (h2'.term_unique hr h2 hr')
  · intro e he hq
    obtain ⟨_, l2, _, h2⟩ := hmem hS e he
    rw [hq] at h2
    exact hd (h2.term_unique hr hG hr')

/-- Frames with the same root have a lowest common ancestor. -/
theorem exists_lowest {s g r : Nat} {Ls Lg : List (Time × Nat)} (hS : NewestPath b s r Ls)
    (hG : NewestPath b g r Lg) (hr : ¬ ∃ p s, NewestEdge b r p s) : ∃ q, LowestCommon b s g q := by
  induction hS with
  | nil a =>
    refine ⟨a, ⟨[], .nil _⟩, ⟨_, hG⟩, ?_⟩
    rintro f ⟨l, hl⟩ _
    exact ⟨l, hl⟩
  | @cons a p c st l he hp ih =>
    by_cases h : ∃ l, NewestPath b g a l
    · exact ⟨a, ⟨[], .nil _⟩, h, fun f hf _ => hf⟩
    · obtain ⟨q, ⟨l1, h1⟩, h2, h3⟩ := ih hG hr
      refine ⟨q, ⟨_, .cons he h1⟩, h2, ?_⟩
      rintro f ⟨lf, hf⟩ hgf
      cases hf with
      | nil => exact absurd hgf h
      | cons he' hf' =>
        obtain ⟨rfl, rfl⟩ := he.det he'
        exact h3 f ⟨_, hf'⟩ hgf

end Tf2
