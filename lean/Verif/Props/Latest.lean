import Verif.Proofs.Latest
import Verif.Proofs.Examples

/-!
# Properties of lookups at time zero: C20
-/
namespace Tf2

variable {X : Type} [Rigid X]

theorem NewestEdge.parentAt {b : Buf X} {f p : Nat} {s : Time} (h : NewestEdge b f p s) :
    ∃ e, ParentAt b 0 f p e := by
  obtain ⟨h0, c, e, h1, h2, h3, _⟩ := h
  exact ⟨e.xf, h0, c, e, h1, h2, h3, rfl⟩

theorem ParentAt.newest {b : Buf X} {f p : Nat} {e : X} (h : ParentAt b 0 f p e) :
    ∃ s, NewestEdge b f p s := by
  obtain ⟨h0, c, s, h1, h2, h3, _⟩ := h
  exact ⟨_, h0, c, s, h1, h2, h3, rfl⟩

theorem NewestPath.chain {b : Buf X} {a c : Nat} {l : List (Time × Nat)} (h : NewestPath b a c l) :
    ∃ x, Chain b 0 a c x l.length := by
  induction h with
  | nil => exact ⟨_, .refl⟩
  | cons he _ ih =>
    obtain ⟨e, he⟩ := he.parentAt
    obtain ⟨x, hx⟩ := ih
    obtain ⟨z, hz⟩ := Chain.trans (.snoc .refl he) hx
    exact ⟨z, by rw [List.length_cons, Nat.add_comm]; simpa using hz⟩

/-- **C20.** For two different known frames with a common ancestor, let `ls` and `lg` be the newest
transforms on the way from each to their lowest common ancestor, and let `t` be the smallest stamp of
the dynamic ones (0 if all are static).  A lookup at time 0 is stamped `t`; if `t` is not 0 it is the
lookup at `t`; if `t` is 0 (only static transforms on the path) it succeeds with the composition of
those transforms. -/
theorem C20_common_time {U : X → Prop} (L : RigidLaws U) {D : Duration} {ops : List (Op X)}
    (hU : AllOffered U ops) {b : Buf X} (hb : b = (Buf.init D).run ops)
    {target source : Name} {g s q r : Nat} (hg : IsFrame b target g) (hs : IsFrame b source s)
    (lt : LegalName target) (ls : LegalName source) (hne : target ≠ source)
    (rs : NewestRoot b s r) (rg : NewestRoot b g r) (hq : LowestCommon b s g q)
    {Ls Lg : List (Time × Nat)} (hLs : NewestPath b s q Ls) (hLg : NewestPath b g q Lg)
    (hmax : ∀ e ∈ Ls ++ Lg, e.1 < TIME_MAX) :
    ∃ t, MinNonzeroOf ((Ls ++ Lg).map Prod.fst) t ∧
      (∀ m, b.lookupTransform target source 0 = .ok m → m.stamp = t) ∧
      (t ≠ 0 → b.lookupTransform target source 0 = b.lookupTransform target source t ∧
        b.canTransform target source 0 = b.canTransform target source t) ∧
      (t = 0 → ∀ x y n k, Chain b 0 s q x n → Chain b 0 g q y k →
        b.lookupTransform target source 0 =
          .ok { parent := target, child := source, stamp := 0, xf := Rigid.comp (Rigid.inv y) x }) := by
  have hw : WF D b := hb ▸ WF.run (WF.init D) ops
  obtain ⟨⟨Rs, hRs, hRsl⟩, hr⟩ := rs
  obtain ⟨⟨Rg, hRg, hRgl⟩, _⟩ := rg
  have hsg : s ≠ g := fun h => hne (hw.inj hg.2 (h ▸ hs.2))
  have hl := latestCommonTime_lca hw hs.1 hg.1 hsg hRs hRsl hRg hRgl hr hLs hLg hq.2.2
  generalize htdef : unMax (accMin TIME_MAX (Lg ++ Ls)) = t at hl
  have hmin : MinNonzeroOf ((Ls ++ Lg).map Prod.fst) t := by
    have h1 := unMax_accMin (Lg ++ Ls) (fun e he => hmax e (by
      rw [List.mem_append] at he ⊢; exact he.symm))
    rw [htdef] at h1
    have hm : ∀ x, x ∈ stampsOf (Lg ++ Ls) ↔ x ∈ (Ls ++ Lg).map Prod.fst := by
      intro x; simp only [stampsOf, List.map_append, List.mem_append]; exact or_comm
    rcases h1 with ⟨h, h'⟩ | ⟨h, h', h''⟩
    · exact Or.inl ⟨h, fun x hx => h' x ((hm x).2 hx)⟩
    · exact Or.inr ⟨h, (hm t).1 h', fun x hx => h'' x ((hm x).2 hx)⟩
  have hwalk0 : ∀ {A : Type} (f : Accum X A) (a : A), b.walk f a 0 g s = b.walkAt f a t g s := by
    intro A f a
    unfold Buf.walk
    rw [if_neg hsg, if_pos rfl, hl]
  have hlook : b.lookupTransform target source 0 =
      lookupOfWalk target source (b.walkAt transformAccum TAcc.init t g s) := by
    rw [lookup_eq hg hs lt ls hne, hwalk0]
  refine ⟨t, hmin, ?_, ?_, ?_⟩
  · intro m hm
    rw [hlook] at hm
    have hsp := walkAt_spec (t := t) hw (tgt := g) hs.1 TAcc.init rfl rfl
    generalize b.walkAt transformAccum TAcc.init t g s = w at *
    cases w with
    | ub => cases hm
    | err c => cases hm
    | done a ch =>
      simp only [lookupOfWalk, Res.ok.injEq] at hm
      subst hm
      exact hsp.1
  · intro ht
    refine ⟨by rw [hlook, lookup_walkAt hw hg hs lt ls hne ht], ?_⟩
    unfold Buf.canTransform
    rw [if_neg hne, if_neg hne, warn_legal lt, warn_legal ls, lookupFrameNumber_isFrame hg,
      lookupFrameNumber_isFrame hs]
    unfold Buf.canTransformNoLock
    have e0 := hwalk0 (canAccum (X := X)) ()
    have et : b.walk (canAccum (X := X)) () t g s = b.walkAt canAccum () t g s := by
      unfold Buf.walk
      rw [if_neg hsg, if_neg ht]
    rw [e0, et]
  · intro ht x y n k hx hy
    subst ht
    rw [hlook]
    have hnoedge : ¬ ∃ p e, ParentAt b 0 r p e := by
      rintro ⟨p, e, h⟩
      obtain ⟨st, hst⟩ := h.newest
      exact hr ⟨p, st, hst⟩
    have es : EndsAt b 0 s r Rs.length := ⟨hRs.chain, hnoedge⟩
    have eg : EndsAt b 0 g r Rg.length := ⟨hRg.chain, hnoedge⟩
    have hE : EdgesIn U b := hb ▸ edgesIn_run L D hU
    rcases walkAt_total hw hs.1 es eg hRsl hRgl with ⟨_, a, ch, h⟩ | ⟨h, _⟩ | ⟨h, _⟩
    · obtain ⟨h1, h2⟩ := walkAt_value L hE hw hs.1 es eg hx hy h
      rw [h]
      simp only [lookupOfWalk, h1, h2]
    · exact absurd rfl h
    · exact absurd rfl h

/-- **C20, existence.** The lowest common ancestor in `C20_common_time` exists whenever the newest
transforms lead both frames to the same root. -/
theorem C20_lowest_exists {b : Buf X} {g s r : Nat} (rs : NewestRoot b s r) (rg : NewestRoot b g r) :
    ∃ q, LowestCommon b s g q := by
  obtain ⟨⟨_, h1, _⟩, hr⟩ := rs
  obtain ⟨⟨_, h2, _⟩, _⟩ := rg
  exact exists_lowest h1 h2 hr

/-- **C20, unconnected frames.** If the newest transforms lead the two frames to different roots, a
lookup at time 0 reports that they are not connected. -/
theorem C20_unconnected {D : Duration} {b : Buf X} (hr : Reachable D b)
    {target source : Name} {g s r r' : Nat} (hg : IsFrame b target g) (hs : IsFrame b source s)
    (lt : LegalName target) (ls : LegalName source)
    (rs : NewestRoot b s r) (rg : NewestRoot b g r') (hd : r ≠ r') :
    b.lookupTransform target source 0 = .throw .connectivity ∧
    b.canTransform target source 0 = .ok false := by
  have hw := hr.wf
  obtain ⟨⟨Rs, hRs, hRsl⟩, hr1⟩ := rs
  obtain ⟨⟨Rg, hRg, hRgl⟩, hr2⟩ := rg
  have hsg : s ≠ g := by rintro rfl; exact hd (hRs.term_unique hr1 hRg hr2)
  have hne : target ≠ source := by
    rintro rfl
    have h1 := hg.2; have h2 := hs.2; rw [h1] at h2; injection h2 with h2; exact hsg h2.symm
  have hl := latestCommonTime_apart hw hs.1 hg.1 hRs hRsl hRg hRgl hr1 hr2 hd
  constructor
  · rw [lookup_eq hg hs lt ls hne]
    unfold Buf.walk
    rw [if_neg hsg, if_pos rfl, hl]
    rfl
  · unfold Buf.canTransform
    rw [if_neg hne, warn_legal lt, warn_legal ls, lookupFrameNumber_isFrame hg,
      lookupFrameNumber_isFrame hs]
    simp only [Bool.false_eq_true, if_false]
    rw [if_neg (fun h => h.elim hg.1 hs.1)]
    unfold Buf.canTransformNoLock
    rw [if_neg (fun h => h.elim hg.1 hs.1), if_neg (fun h => hsg h.symm)]
    unfold Buf.walk
    rw [if_neg hsg, if_pos rfl, hl]

/-! ### Examples: the hypotheses are met, and the common time is not always usable -/

section
/-- `b → a` newest stamp 18, `c → a` static, `a → w` newest stamp 20. -/
theorem ex_newest : NewestEdge exBuf 3 1 18 ∧ NewestEdge exBuf 4 1 0 ∧ NewestEdge exBuf 1 2 20 ∧
    ¬ ∃ p s, NewestEdge exBuf 2 p s :=
  ⟨⟨by decide, _, _, rfl, rfl, rfl, rfl⟩, ⟨by decide, _, _, rfl, rfl, rfl, rfl⟩,
    ⟨by decide, _, _, rfl, rfl, rfl, rfl⟩, by
      rintro ⟨p, s, _, c, e, h, _⟩
      cases h⟩

example : NewestRoot exBuf 3 2 ∧ NewestRoot exBuf 4 2 ∧
    NewestPath exBuf 3 1 [(18, 1)] ∧ NewestPath exBuf 4 1 [(0, 1)] ∧ LowestCommon exBuf 3 4 1 := by
  obtain ⟨h1, h2, h3, h4⟩ := ex_newest
  refine ⟨⟨⟨_, .cons h1 (.cons h3 (.nil _)), by decide⟩, h4⟩, ⟨⟨_, .cons h2 (.cons h3 (.nil _)), by decide⟩, h4⟩,
    .cons h1 (.nil _), .cons h2 (.nil _), ⟨_, .cons h1 (.nil _)⟩, ⟨_, .cons h2 (.nil _)⟩, ?_⟩
  rintro f ⟨l, hl⟩ ⟨l', hl'⟩
  cases hl with
  | nil =>
    cases hl' with
    | cons he hp =>
      obtain ⟨rfl, rfl⟩ := he.det h2
      cases hp with
      | cons he hp =>
        obtain ⟨rfl, rfl⟩ := he.det h3
        cases hp with
        | cons he _ => exact absurd ⟨_, _, he⟩ h4
  | cons he hp =>
    obtain ⟨rfl, rfl⟩ := he.det h1
    exact ⟨_, hp⟩

example : exBuf.lookupTransform ['c'] ['b'] 0 = exBuf.lookupTransform ['c'] ['b'] 18 ∧
    exBuf.lookupTransform ['w'] ['b'] 0 = exBuf.lookupTransform ['w'] ['b'] 18 ∧
    exBuf.lookupTransform ['c'] ['b'] 18 = .ok (tmsg ['c'] ['b'] 18 (200 - 1000)) ∧
    exBuf.lookupTransform ['a'] ['c'] 0 = .ok (tmsg ['a'] ['c'] 0 1000) ∧
    exBuf.lookupTransform ['a'] ['y'] 0 = .throw .connectivity := by decide
end

/-- **C20, limit (finding).** A lookup at time 0 can fail although every frame on the path holds
data: the common time can be older than everything one of the frames still holds. -/
theorem C20_latest_can_fail_finding :
    ∃ b : Buf Int, Reachable 100 b ∧ b.lookupTransform ['w'] ['a'] 0 = .ok (tmsg ['w'] ['a'] 30 1) ∧
      b.lookupTransform ['a'] ['b'] 0 = .ok (tmsg ['a'] ['b'] 10 2) ∧
      b.lookupTransform ['w'] ['b'] 0 = .throw .extrapolation :=
  ⟨_, ⟨[put ['w'] ['a'] 20 1, put ['w'] ['a'] 30 1, put ['a'] ['b'] 10 2], rfl⟩,
    by decide, by decide, by decide⟩

end Tf2
