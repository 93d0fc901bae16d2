import Verif.Proofs.LookupOk
import Verif.Proofs.Examples

/-!
# Properties of lookups: C13–C19, C21, C22
-/
namespace Tf2

variable {X : Type}

/-! ### C13, C14 -/

/-- **C13.** `canTransform(target, source, time)` never has undefined behaviour and returns true
exactly when `lookupTransform(target, source, time)` returns a transform, for all strings and
times. -/
theorem C13_canTransform_iff [Rigid X] {D : Duration} {b : Buf X} (hr : Reachable D b)
    (target source : Name) (t : Time) :
    ∃ v, b.canTransform target source t = .ok v ∧
      (v = true ↔ ∃ m, b.lookupTransform target source t = .ok m) := by
  have hw := hr.wf
  unfold Buf.canTransform
  by_cases hne : target = source
  · rw [if_pos hne]
    refine ⟨true, rfl, by simp [Buf.lookupTransform, hne]⟩
  · rw [if_neg hne]
    have hfalse : (¬ ∃ g s, IsFrame b target g ∧ IsFrame b source s ∧ LegalName target ∧
        LegalName source) →
        (false = true ↔ ∃ m, b.lookupTransform target source t = .ok m) := by
      intro h
      simp only [Bool.false_eq_true, false_iff]
      rintro ⟨m, hm⟩
      exact h (lookup_ok_frames hne hm)
    by_cases hlt : LegalName target
    · rw [warn_legal hlt]
      by_cases hls : LegalName source
      · rw [warn_legal hls]
        by_cases h0 : b.lookupFrameNumber target = 0 ∨ b.lookupFrameNumber source = 0
        · refine ⟨false, by simp [h0], hfalse ?_⟩
          rintro ⟨g, s, hg, hs, _⟩
          rw [lookupFrameNumber_isFrame hg, lookupFrameNumber_isFrame hs] at h0
          rcases h0 with h | h
          · exact hg.1 h
          · exact hs.1 h
        · have hg : IsFrame b target _ := isFrame_of_lookup (fun h => h0 (Or.inl h))
          have hs : IsFrame b source _ := isFrame_of_lookup (fun h => h0 (Or.inr h))
          have hid : b.lookupFrameNumber source ≠ b.lookupFrameNumber target := by
            intro h; exact hne (hw.inj hg.2 (h ▸ hs.2))
          obtain ⟨v, hv1, hv2⟩ := canNoLock_iff hw (t := t) hs.1 hg.1 hid
          refine ⟨v, by simp [h0, hv1], ?_⟩
          rw [hv2, lookup_eq hg hs hlt hls hne]
          generalize b.walk transformAccum TAcc.init t _ _ = w
          cases w <;> simp [lookupOfWalk]
      · exact ⟨false, by simp [warn_illegal hls], hfalse (by rintro ⟨_, _, _, _, _, h⟩; exact hls h)⟩
    · exact ⟨false, by simp [warn_illegal hlt], hfalse (by rintro ⟨_, _, _, _, h, _⟩; exact hlt h)⟩

example : exBuf.canTransform ['b'] ['c'] 15 = .ok true ∧ exBuf.canTransform ['b'] ['y'] 15 = .ok false ∧
    exBuf.canTransform ['b'] ['/', 'c'] 15 = .ok false ∧ exBuf.canTransform ['b'] ['c'] 19 = .ok false :=
  by decide

/-- **C14.** The five-argument `canTransform` returns true exactly when the five-argument
`lookupTransform` returns a transform. -/
theorem C14_canTransform_fixed_iff [Rigid X] {D : Duration} {b : Buf X} (hr : Reachable D b)
    (target : Name) (ttime : Time) (source : Name) (stime : Time) (fixed : Name) :
    ∃ v, b.canTransform5 target ttime source stime fixed = .ok v ∧
      (v = true ↔ ∃ m, b.lookupTransform5 target ttime source stime fixed = .ok m) := by
  have hw := hr.wf
  have hfalse : (¬ (LegalName target ∧ LegalName source ∧ LegalName fixed ∧
      (∃ i, IsFrame b target i) ∧ (∃ i, IsFrame b source i) ∧ ∃ i, IsFrame b fixed i)) →
      (false = true ↔ ∃ m, b.lookupTransform5 target ttime source stime fixed = .ok m) := by
    intro h
    simp only [Bool.false_eq_true, false_iff]
    rintro ⟨m, hm⟩
    unfold Buf.lookupTransform5 at hm
    rcases validate_cases b target with ⟨l1, i1, h1, e1⟩ | ⟨_, e1⟩ | ⟨_, _, e1⟩
    · rcases validate_cases b source with ⟨l2, i2, h2, e2⟩ | ⟨_, e2⟩ | ⟨_, _, e2⟩
      · rcases validate_cases b fixed with ⟨l3, i3, h3, e3⟩ | ⟨_, e3⟩ | ⟨_, _, e3⟩
        · exact h ⟨l1, l2, l3, ⟨i1, h1⟩, ⟨i2, h2⟩, ⟨i3, h3⟩⟩
        · rw [e1, e2, e3] at hm; cases hm
        · rw [e1, e2, e3] at hm; cases hm
      · rw [e1, e2] at hm; cases hm
      · rw [e1, e2] at hm; cases hm
    · rw [e1] at hm; cases hm
    · rw [e1] at hm; cases hm
  unfold Buf.canTransform5
  by_cases l1 : LegalName target
  · rw [warn_legal l1]
    by_cases l2 : LegalName source
    · rw [warn_legal l2]
      by_cases l3 : LegalName fixed
      · rw [warn_legal l3]
        simp only [Bool.false_eq_true, if_false]
        by_cases h0 : b.lookupFrameNumber target = 0 ∨ b.lookupFrameNumber source = 0 ∨
            b.lookupFrameNumber fixed = 0
        · refine ⟨false, by rw [if_pos h0], hfalse ?_⟩
          rintro ⟨_, _, _, ⟨i, hi⟩, ⟨j, hj⟩, ⟨k, hk⟩⟩
          rw [lookupFrameNumber_isFrame hi, lookupFrameNumber_isFrame hj,
            lookupFrameNumber_isFrame hk] at h0
          rcases h0 with h | h | h
          · exact hi.1 h
          · exact hj.1 h
          · exact hk.1 h
        · rw [if_neg h0]
          have hg : IsFrame b target _ := isFrame_of_lookup (fun h => h0 (Or.inl h))
          have hs : IsFrame b source _ := isFrame_of_lookup (fun h => h0 (Or.inr (Or.inl h)))
          have hf : IsFrame b fixed _ := isFrame_of_lookup (fun h => h0 (Or.inr (Or.inr h)))
          generalize b.lookupFrameNumber target = g at *
          generalize b.lookupFrameNumber source = s at *
          generalize b.lookupFrameNumber fixed = f at *
          -- each half
          have half : ∀ {n m : Name} {i j : Nat} {t : Time}, IsFrame b n i → IsFrame b m j →
              LegalName n → LegalName m →
              ∃ v, b.canTransformNoLock i j t = .ok v ∧
                (v = true ↔ ∃ r, b.lookupTransform n m t = .ok r) := by
            intro n m i j t hn hm ln lm
            by_cases he : n = m
            · subst he
              have : i = j := by have h1 := hn.2; rw [hm.2] at h1; injection h1 with h1; exact h1.symm
              subst this
              refine ⟨true, by unfold Buf.canTransformNoLock; simp [hn.1], ?_⟩
              simp [Buf.lookupTransform]
            · obtain ⟨v, hv1, hv2⟩ := canNoLock_iff hw (t := t) hm.1 hn.1
                (fun h => he (hw.inj hn.2 (h ▸ hm.2)))
              refine ⟨v, hv1, ?_⟩
              rw [hv2, lookup_eq hn hm ln lm he]
              generalize b.walk transformAccum TAcc.init t _ _ = w
              cases w <;> simp [lookupOfWalk]
          obtain ⟨v1, a1, a2⟩ := half (t := ttime) hg hf l1 l3
          obtain ⟨v2, c1, c2⟩ := half (t := stime) hf hs l3 l2
          rw [a1, c1]
          have hl : (∃ m, b.lookupTransform5 target ttime source stime fixed = .ok m) ↔
              (∃ m, b.lookupTransform fixed source stime = .ok m) ∧
              (∃ m, b.lookupTransform target fixed ttime = .ok m) := by
            unfold Buf.lookupTransform5
            rw [validate_legal hg l1, validate_legal hs l2, validate_legal hf l3]
            simp only
            cases b.lookupTransform fixed source stime <;>
              cases b.lookupTransform target fixed ttime <;> simp
          rw [hl, ← a2, ← c2]
          cases v1 <;> cases v2 <;> simp
      · exact ⟨false, by simp [warn_illegal l3], hfalse (fun h => l3 h.2.2.1)⟩
    · exact ⟨false, by simp [warn_illegal l2], hfalse (fun h => l2 h.2.1)⟩
  · exact ⟨false, by simp [warn_illegal l1], hfalse (fun h => l1 h.1)⟩

example : exBuf.canTransform5 ['b'] 12 ['a'] 10 ['w'] = .ok true ∧
    exBuf.lookupTransform5 ['b'] 12 ['a'] 10 ['w'] = .ok (tmsg ['b'] ['a'] 12 (-100)) ∧
    exBuf.canTransform5 ['b'] 12 ['a'] 9 ['w'] = .ok false := by decide

/-! ### C15 -/

/-- **C15 (any arithmetic).** A successful lookup at a nonzero time between different names is about
two known frames, is stamped with the time, names them, and its value is the composition of the
stored child-to-parent transforms: up from the source to the target; or the inverse of the way up
from the target to the source; or up from the source and down to the target through a common
ancestor.  No chain used is longer than 1000 edges. -/
theorem C15_path_composition [Rigid X] {D : Duration} {b : Buf X} (hr : Reachable D b)
    {target source : Name} {t : Time} (ht : t ≠ 0) (hne : target ≠ source) {m : Msg X}
    (h : b.lookupTransform target source t = .ok m) :
    ∃ g s, IsFrame b target g ∧ IsFrame b source s ∧
      m.parent = target ∧ m.child = source ∧ m.stamp = t ∧
      ((∃ n, n ≤ 1000 ∧ Chain b t s g m.xf n) ∨
       (∃ n y, n ≤ 1000 ∧ Chain b t g s y n ∧ m.xf = Rigid.inv y) ∨
       (∃ c x y n k, n ≤ 1000 ∧ k ≤ 1000 ∧ Chain b t s c x n ∧ Chain b t g c y k ∧
          m.xf = Rigid.comp (Rigid.inv y) x)) := by
  have hw := hr.wf
  obtain ⟨g, s, hg, hs, lg, ls⟩ := lookup_ok_frames hne h
  rw [lookup_walkAt hw hg hs lg ls hne ht] at h
  have hsp := walkAt_spec (t := t) hw (tgt := g) hs.1 TAcc.init rfl rfl
  generalize b.walkAt transformAccum TAcc.init t g s = w at *
  cases w with
  | ub => cases h
  | err c => cases h
  | done a ch =>
    simp only [lookupOfWalk, Res.ok.injEq] at h
    subst h
    obtain ⟨h1, h2⟩ := hsp
    refine ⟨g, s, hg, hs, rfl, rfl, h1, ?_⟩
    rcases h2 with h2 | h2 | ⟨c, x, y, n, k, h3, h4, h5, h6, _, h7⟩
    · exact Or.inl h2
    · exact Or.inr (Or.inl h2)
    · exact Or.inr (Or.inr ⟨c, x, y, n, k, h3, h4, h5, h6, h7⟩)

example : exBuf.lookupTransform ['w'] ['b'] 15 = .ok (tmsg ['w'] ['b'] 15 152) ∧
    exBuf.lookupTransform ['b'] ['w'] 15 = .ok (tmsg ['b'] ['w'] 15 (-152)) ∧
    exBuf.lookupTransform ['b'] ['c'] 15 = .ok (tmsg ['b'] ['c'] 15 850) := by decide

/-- **C15 (rigid motions).** Over well-formed data, when the source's parent chain ends, the value of
a successful lookup is `inverse(target→c) ∘ (source→c)` for *every* common ancestor `c`, in
particular for the lowest one (the shortest path), whichever way the walk ended. -/
theorem C15_common_ancestor [Rigid X] {U : X → Prop} (L : RigidLaws U) {D : Duration}
    {ops : List (Op X)} (hU : AllOffered U ops) {b : Buf X} (hb : b = (Buf.init D).run ops)
    {target source : Name} {t : Time} (ht : t ≠ 0) (hne : target ≠ source) {m : Msg X}
    (h : b.lookupTransform target source t = .ok m)
    {g s c r n k l : Nat} {x y : X} (hg : IsFrame b target g) (hs : IsFrame b source s)
    (he : EndsAt b t s r l) (hx : Chain b t s c x n) (hy : Chain b t g c y k) :
    m.xf = Rigid.comp (Rigid.inv y) x := by
  have hw : WF D b := by rw [hb]; exact WF.run (WF.init D) ops
  have hE : EdgesIn U b := by rw [hb]; exact edgesIn_run L D hU
  obtain ⟨_, _, _, _, lg, ls⟩ := lookup_ok_frames hne h
  rw [lookup_walkAt hw hg hs lg ls hne ht] at h
  cases hwk : b.walkAt transformAccum TAcc.init t g s with
  | ub => rw [hwk] at h; cases h
  | err c => rw [hwk] at h; cases h
  | done a ch =>
    rw [hwk] at h
    simp only [lookupOfWalk, Res.ok.injEq] at h
    subst h
    obtain ⟨m', hg'⟩ := lookup_ok_ends hw hs.1 he hwk
    exact (walkAt_value L hE hw hs.1 he hg' hx hy hwk).2

example : ∃ m, exBuf.lookupTransform ['b'] ['c'] 15 = .ok m ∧
    m.xf = Rigid.comp (Rigid.inv (Rigid.comp 150 0)) (Rigid.comp 1000 0) :=
  ⟨tmsg ['b'] ['c'] 15 850, by decide,
    C15_common_ancestor toyLaws (toyOffered exOps) rfl (t := 15) (by decide) (by decide)
      (target := ['b']) (source := ['c']) (by decide) (g := 3) (s := 4) (c := 1)
      ⟨by decide, by decide⟩ ⟨by decide, by decide⟩ ex_root_c (.snoc .refl ex_edges.2.1)
      (.snoc .refl ex_edges.1)⟩

/-! ### C16, C17 -/

/-- **C16.** Over well-formed data, when the chain of one of the frames ends, lookups in opposite
directions at the same nonzero time compose to the identity. -/
theorem C16_inverse [Rigid X] {U : X → Prop} (L : RigidLaws U) {D : Duration} {ops : List (Op X)}
    (hU : AllOffered U ops) {b : Buf X} (hb : b = (Buf.init D).run ops) {f1 f2 : Name} {t : Time}
    (ht : t ≠ 0) {i r l : Nat} (hi : IsFrame b f2 i) (he : EndsAt b t i r l) {m1 m2 : Msg X}
    (h1 : b.lookupTransform f1 f2 t = .ok m1) (h2 : b.lookupTransform f2 f1 t = .ok m2) :
    Rigid.comp m1.xf m2.xf = Rigid.one ∧ Rigid.comp m2.xf m1.xf = Rigid.one := by
  have hw : WF D b := by rw [hb]; exact WF.run (WF.init D) ops
  have hE : EdgesIn U b := by rw [hb]; exact edgesIn_run L D hU
  by_cases hne : f1 = f2
  · subst hne
    simp only [Buf.lookupTransform, if_true, Res.ok.injEq] at h1 h2
    subst h1 h2
    exact ⟨L.one_comp L.one, L.one_comp L.one⟩
  · obtain ⟨j, i', hj, hi', lj, li⟩ := lookup_ok_frames hne h1
    have : i' = i := by have h1 := hi'.2; rw [hi.2] at h1; injection h1 with h1; exact h1.symm
    subst this
    have hj' : ∃ k, EndsAt b t j r k := by
      rw [lookup_walkAt hw hj hi lj li hne ht] at h1
      cases hwk : b.walkAt transformAccum TAcc.init t j i' with
      | ub => rw [hwk] at h1; cases h1
      | err c => rw [hwk] at h1; cases h1
      | done a ch => exact lookup_ok_ends hw hi.1 he hwk
    obtain ⟨k, ⟨y, hy⟩, hno⟩ := hj'
    obtain ⟨⟨x, hx⟩, _⟩ := he
    have e1 := lookup_value L hw hE ht hj hi hx hy hno h1
    have e2 := lookup_value L hw hE ht hi hj hy hx hno h2
    have ux := hx.inU L hE
    have uy := hy.inU L hE
    rw [e1, e2]
    have mid : ∀ {p q : X}, U p → U q →
        Rigid.comp (Rigid.comp (Rigid.inv p) q) (Rigid.comp (Rigid.inv q) p) = Rigid.one := by
      intro p q up uq
      rw [L.assoc (L.inv up) uq (L.comp (L.inv uq) up), ← L.assoc uq (L.inv uq) up, L.comp_inv uq,
        L.one_comp up, L.inv_comp up]
    exact ⟨mid uy ux, mid ux uy⟩

example : exBuf.lookupTransform ['b'] ['c'] 15 = .ok (tmsg ['b'] ['c'] 15 850) ∧
    exBuf.lookupTransform ['c'] ['b'] 15 = .ok (tmsg ['c'] ['b'] 15 (-850)) ∧
    IsFrame exBuf ['c'] 4 ∧ EndsAt exBuf 15 4 2 2 :=
  ⟨by decide, by decide, ⟨by decide, by decide⟩, ex_root_c⟩

/-- **C16.** When the parent chains of both frames end within the depth limit, a lookup at a nonzero
time succeeds iff the opposite one does. -/
theorem C16_symmetric [Rigid X] {D : Duration} {b : Buf X} (hr : Reachable D b) {f1 f2 : Name}
    {t : Time} (ht : t ≠ 0) {i j r r' : Nat} (hi : IsFrame b f1 i) (hj : IsFrame b f2 j)
    (ri : Rooted b t i r) (rj : Rooted b t j r') :
    (∃ m, b.lookupTransform f1 f2 t = .ok m) ↔ (∃ m, b.lookupTransform f2 f1 t = .ok m) := by
  by_cases hne : f1 = f2
  · subst hne; rfl
  · constructor
    · intro h
      obtain ⟨m, hm⟩ := h
      obtain ⟨_, _, _, _, l1, l2⟩ := lookup_ok_frames hne hm
      rw [lookup_ok_iff hr.wf ht hj hi l2 l1 ri rj]
      exact ((lookup_ok_iff hr.wf ht hi hj l1 l2 rj ri).1 ⟨m, hm⟩).symm
    · intro h
      obtain ⟨m, hm⟩ := h
      obtain ⟨_, _, _, _, l2, l1⟩ := lookup_ok_frames (Ne.symm hne) hm
      rw [lookup_ok_iff hr.wf ht hi hj l1 l2 rj ri]
      exact ((lookup_ok_iff hr.wf ht hj hi l2 l1 ri rj).1 ⟨m, hm⟩).symm

example : Rooted exBuf 15 3 2 ∧ Rooted exBuf 15 4 2 := ⟨⟨2, by decide, ex_root_b⟩, ⟨2, by decide, ex_root_c⟩⟩

/-- **C17.** Over well-formed data, with chains that end within the depth limit: if `a ← b` and
`b ← c` succeed at a nonzero time then `a ← c` succeeds and is their product. -/
theorem C17_compose [Rigid X] {U : X → Prop} (L : RigidLaws U) {D : Duration} {ops : List (Op X)}
    (hU : AllOffered U ops) {b : Buf X} (hb : b = (Buf.init D).run ops) {fa fb fc : Name} {t : Time}
    (ht : t ≠ 0) {i j k ra rb rc : Nat} (hi : IsFrame b fa i) (hj : IsFrame b fb j)
    (hk : IsFrame b fc k) (la : LegalName fa) (lb : LegalName fb) (lc : LegalName fc)
    (ri : Rooted b t i ra) (rj : Rooted b t j rb) (rk : Rooted b t k rc)
    {m1 m2 : Msg X} (h1 : b.lookupTransform fa fb t = .ok m1) (h2 : b.lookupTransform fb fc t = .ok m2) :
    ∃ m3, b.lookupTransform fa fc t = .ok m3 ∧ m3.xf = Rigid.comp m1.xf m2.xf := by
  have hw : WF D b := by rw [hb]; exact WF.run (WF.init D) ops
  have hE : EdgesIn U b := by rw [hb]; exact edgesIn_run L D hU
  have e1 := (lookup_ok_iff hw ht hi hj la lb rj ri).1 ⟨m1, h1⟩
  have e2 := (lookup_ok_iff hw ht hj hk lb lc rk rj).1 ⟨m2, h2⟩
  subst e1 e2
  obtain ⟨m3, h3⟩ := (lookup_ok_iff hw ht hi hk la lc rk ri).2 rfl
  refine ⟨m3, h3, ?_⟩
  obtain ⟨_, _, ⟨x, hx⟩, hno⟩ := ri
  obtain ⟨_, _, ⟨y, hy⟩, _⟩ := rj
  obtain ⟨_, _, ⟨z, hz⟩, _⟩ := rk
  rw [lookup_value L hw hE ht hi hj hy hx hno h1, lookup_value L hw hE ht hj hk hz hy hno h2,
    lookup_value L hw hE ht hi hk hz hx hno h3]
  have ux := hx.inU L hE
  have uy := hy.inU L hE
  have uz := hz.inU L hE
  rw [L.assoc (L.inv ux) uy (L.comp (L.inv uy) uz), ← L.assoc uy (L.inv uy) uz, L.comp_inv uy,
    L.one_comp uz]

example : exBuf.lookupTransform ['w'] ['b'] 15 = .ok (tmsg ['w'] ['b'] 15 152) ∧
    exBuf.lookupTransform ['b'] ['c'] 15 = .ok (tmsg ['b'] ['c'] 15 850) ∧
    exBuf.lookupTransform ['w'] ['c'] 15 = .ok (tmsg ['w'] ['c'] 15 1002) := by decide

/-- **C17.** Connectivity at a fixed nonzero time is an equivalence relation on the known frames whose
chains end within the limit. -/
theorem C17_connectivity_equivalence [Rigid X] {D : Duration} {b : Buf X} (hr : Reachable D b)
    {t : Time} (ht : t ≠ 0) :
    let F := { n : Name // LegalName n ∧ ∃ i r, IsFrame b n i ∧ Rooted b t i r }
    Equivalence (fun n m : F => ∃ r, b.lookupTransform n.1 m.1 t = .ok r) := by
  intro F
  have hw := hr.wf
  constructor
  · rintro ⟨n, ln, i, r, hi, ri⟩
    exact (lookup_ok_iff hw ht hi hi ln ln ri ri).2 rfl
  · rintro ⟨n, ln, i, r, hi, ri⟩ ⟨m, lm, j, r', hj, rj⟩ h
    exact (C16_symmetric hr ht hi hj ri rj).1 h
  · rintro ⟨n, ln, i, r, hi, ri⟩ ⟨m, lm, j, r', hj, rj⟩ ⟨o, lo, k, r'', hk, rk⟩ h1 h2
    have e1 := (lookup_ok_iff hw ht hi hj ln lm rj ri).1 h1
    have e2 := (lookup_ok_iff hw ht hj hk lm lo rk rj).1 h2
    exact (lookup_ok_iff hw ht hi hk ln lo rk ri).2 (e2.trans e1)

/-! ### C18 -/

/-- **C18.** A source whose parent chain never ends and never meets the target gives
LookupException. -/
theorem C18_endless_source [Rigid X] {D : Duration} {b : Buf X} (hr : Reachable D b)
    {target source : Name} {t : Time} (ht : t ≠ 0) {g s : Nat} (hg : IsFrame b target g)
    (hs : IsFrame b source s) (lg : LegalName target) (ls : LegalName source)
    (hloop : Endless b t s) (hmiss : ∀ x n, ¬ Chain b t s g x n) :
    b.lookupTransform target source t = .throw .lookup := by
  have hw := hr.wf
  have hne : target ≠ source := by
    rintro rfl
    have : g = s := by have h1 := hg.2; rw [hs.2] at h1; injection h1 with h1; exact h1.symm
    subst this
    exact hmiss _ _ .refl
  rw [lookup_walkAt hw hg hs lg ls hne ht]
  have h1 := walkSource_spec (t := t) hw (src := s) (tgt := g) maxGraphDepth s TAcc.init [] 0 TAcc.init
    .refl hs.1 rfl (by intro y m hm; omega)
  unfold Buf.walkAt
  generalize b.walkSource transformAccum t g maxGraphDepth s TAcc.init [] = w at *
  cases w with
  | ub => exact absurd h1 id
  | tooDeep => rfl
  | early a ch => obtain ⟨n, h2, _⟩ := h1; exact absurd h2 (hmiss _ _)
  | exit top ex a ch =>
    obtain ⟨n, h2, _, hno, _⟩ := h1
    obtain ⟨c, x, hc⟩ := hloop (n + 1)
    have : EndsAt b t s top n := ⟨⟨_, h2⟩, hno⟩
    have := this.le hc
    omega

/-- **C18.** A target whose parent chain never ends, with a source whose chain ends within the limit,
gives LookupException. -/
theorem C18_endless_target [Rigid X] {D : Duration} {b : Buf X} (hr : Reachable D b)
    {target source : Name} {t : Time} (ht : t ≠ 0) {g s r : Nat} (hg : IsFrame b target g)
    (hs : IsFrame b source s) (lg : LegalName target) (ls : LegalName source)
    (hroot : Rooted b t s r) (hloop : Endless b t g) :
    b.lookupTransform target source t = .throw .lookup := by
  have hw := hr.wf
  obtain ⟨n, hn, es⟩ := hroot
  have hnever : ∀ r m, ¬ EndsAt b t g r m := by
    intro r m e
    obtain ⟨c, x, hc⟩ := hloop (m + 1)
    have := e.le hc
    omega
  have hne : target ≠ source := by
    rintro rfl
    have : g = s := by have h1 := hg.2; rw [hs.2] at h1; injection h1 with h1; exact h1.symm
    subst this
    exact hnever _ _ es
  rw [lookup_walkAt hw hg hs lg ls hne ht]
  have hsp := walkAt_spec (t := t) hw (tgt := g) hs.1 TAcc.init rfl rfl
  generalize b.walkAt transformAccum TAcc.init t g s = w at *
  match w, hsp with
  | .ub, hsp => exact absurd hsp id
  | .err .noError, hsp => exact absurd hsp id
  | .err .lookup, _ => rfl
  | .err .connectivity, hsp => obtain ⟨_, _, _, _, _, e, _⟩ := hsp; exact absurd e (hnever _ _)
  | .err .extrapolation, hsp => obtain ⟨_, _, _, _, _, e, _⟩ := hsp; exact absurd e (hnever _ _)
  | .done a ch, hsp =>
    exfalso
    obtain ⟨_, ⟨k, _, hc⟩ | ⟨k, y, _, hc, _⟩ | ⟨q, x, y, k, l, _, _, hx, hy, hno, _⟩⟩ := hsp
    · exact hnever _ _ (es.of_chain hc)
    · exact hnever _ _ (EndsAt.cons hc es)
    · exact hnever _ _ ⟨⟨_, hy⟩, hno⟩

/-- The hypotheses of both theorems hold in a buffer with a loop. -/
example : Endless loopBuf 10 1 ∧ (∀ x n, ¬ Chain loopBuf 10 1 3 x n) ∧ Rooted loopBuf 10 3 4 ∧
    loopBuf.lookupTransform ['a'] ['q'] 10 = .throw .lookup ∧
    loopBuf.lookupTransform ['q'] ['a'] 10 = .throw .lookup := by
  refine ⟨fun n => by obtain ⟨c, x, h, _⟩ := loop_chain n; exact ⟨c, x, h⟩, ?_,
    ⟨1, by decide, ⟨_, .snoc .refl loop_edges.2.2.1⟩, loop_edges.2.2.2⟩, ?_, ?_⟩
  · intro x n h
    obtain ⟨c, x', h', hc⟩ := loop_chain n
    have := (h.det h').1
    omega
  · refine C18_endless_source loopBuf_reachable (by decide) (g := 3) (s := 1) ⟨by decide, by decide⟩
      ⟨by decide, by decide⟩ ⟨by decide, by decide⟩ ⟨by decide, by decide⟩
      (fun n => by obtain ⟨c, x, h, _⟩ := loop_chain n; exact ⟨c, x, h⟩) ?_
    intro x n h
    obtain ⟨c, x', h', hc⟩ := loop_chain n
    have := (h.det h').1
    omega
  · exact C18_endless_target loopBuf_reachable (by decide) (g := 1) (s := 3) (r := 4)
      ⟨by decide, by decide⟩ ⟨by decide, by decide⟩ ⟨by decide, by decide⟩ ⟨by decide, by decide⟩
      ⟨1, by decide, ⟨_, .snoc .refl loop_edges.2.2.1⟩, loop_edges.2.2.2⟩
      (fun n => by obtain ⟨c, x, h, _⟩ := loop_chain n; exact ⟨c, x, h⟩)

/-! ### C19 -/

/-- **C19.** For known frames with legal names and chains that end within the limit, at a nonzero
time: the lookup succeeds iff the chains end at the same frame; otherwise it reports a connectivity
error iff neither end has a cache, and an extrapolation error iff some end has one. -/
theorem C19_failure_class [Rigid X] {D : Duration} {b : Buf X} (hr : Reachable D b)
    {target source : Name} {t : Time} (ht : t ≠ 0) (hne : target ≠ source) {g s r r' : Nat}
    (hg : IsFrame b target g) (hs : IsFrame b source s) (lg : LegalName target)
    (ls : LegalName source) (rs : Rooted b t s r) (rg : Rooted b t g r') :
    ((∃ m, b.lookupTransform target source t = .ok m) ↔ r = r') ∧
    (b.lookupTransform target source t = .throw .connectivity ↔
      r ≠ r' ∧ b.getFrame r = none ∧ b.getFrame r' = none) ∧
    (b.lookupTransform target source t = .throw .extrapolation ↔
      r ≠ r' ∧ (b.getFrame r ≠ none ∨ b.getFrame r' ≠ none)) := by
  have hw := hr.wf
  obtain ⟨n, hn, es⟩ := rs
  obtain ⟨k, hk, eg⟩ := rg
  rw [lookup_walkAt hw hg hs lg ls hne ht]
  rcases walkAt_total hw hs.1 es eg hn hk with ⟨h1, a, ch, h2⟩ | ⟨h1, h3, h4, h2⟩ | ⟨h1, h3, h2⟩ <;>
    rw [h2]
  · simp [lookupOfWalk, h1]
  · simp [lookupOfWalk, h1, h3, h4, Buf.codeExc]
  · refine ⟨by simp [lookupOfWalk, h1], ?_, ?_⟩
    · simp only [lookupOfWalk, Buf.codeExc, Res.throw.injEq, reduceCtorEq, ne_eq, false_iff]
      rintro ⟨_, h5, h6⟩
      rw [h5, h6] at h3; simp at h3
    · simp only [lookupOfWalk, Buf.codeExc, Res.throw.injEq, true_iff]
      refine ⟨h1, ?_⟩
      rcases h3 with h | h
      · left; intro h'; rw [h'] at h; cases h
      · right; intro h'; rw [h'] at h; cases h

/-- Separate roots at 15: connectivity; no data for `a` at 5: extrapolation. -/
example : exBuf.lookupTransform ['y'] ['c'] 15 = .throw .connectivity ∧
    exBuf.lookupTransform ['w'] ['c'] 5 = .throw .extrapolation ∧
    Rooted exBuf 15 4 2 ∧ Rooted exBuf 15 5 6 :=
  ⟨by decide, by decide, ⟨2, by decide, ex_root_c⟩,
    ⟨1, by decide, ⟨_, .snoc .refl ⟨by decide, _, _, rfl, rfl, rfl, rfl⟩⟩, no_parent_of_no_cache rfl⟩⟩

/-! ### C21, C22 -/

/-- **C21.** A lookup of a frame relative to itself is the identity, for every string (known or not),
stamped with the time; for time 0 with the newest stamp of the frame if it has a cache. -/
theorem C21_same_frame [Rigid X] (b : Buf X) (f : Name) (t : Time) :
    ∃ m, b.lookupTransform f f t = .ok m ∧ m.xf = Rigid.one ∧ m.parent = f ∧ m.child = f ∧
      (t ≠ 0 → m.stamp = t) ∧
      (t = 0 → ∀ i c, IsFrame b f i → b.getFrame i = some c → m.stamp = c.latestStamp) ∧
      (t = 0 → ∀ i, IsFrame b f i → b.getFrame i = none → m.stamp = 0) := by
  refine ⟨_, by simp only [Buf.lookupTransform, if_true]; rfl, rfl, rfl, rfl, ?_, ?_, ?_⟩
  · intro h; simp [h]
  · intro h i c hi hc
    simp only [h, if_true]
    rw [lookupFrameNumber_isFrame hi, hc]
  · intro h i hi hc
    simp only [h, if_true]
    rw [lookupFrameNumber_isFrame hi, hc]

example : exBuf.lookupTransform ['b'] ['b'] 0 = .ok (tmsg ['b'] ['b'] 18 0) ∧
    exBuf.lookupTransform ['?'] ['?'] 7 = .ok (tmsg ['?'] ['?'] 7 0) := by decide

/-- **C22.** For different names: an empty name or a name with a leading slash gives
InvalidArgumentException, an unknown name LookupException, checked target first; otherwise the result
is a transform or one of the three exceptions of the walk.  In no case is the behaviour undefined or
another exception thrown. -/
theorem C22_bad_names [Rigid X] {D : Duration} {b : Buf X} (hr : Reachable D b) {target source : Name}
    (hne : target ≠ source) (t : Time) :
    (¬ LegalName target → b.lookupTransform target source t = .throw .invalidArgument) ∧
    (LegalName target → (¬ ∃ i, IsFrame b target i) →
      b.lookupTransform target source t = .throw .lookup) ∧
    (LegalName target → (∃ i, IsFrame b target i) → ¬ LegalName source →
      b.lookupTransform target source t = .throw .invalidArgument) ∧
    (LegalName target → (∃ i, IsFrame b target i) → LegalName source → (¬ ∃ i, IsFrame b source i) →
      b.lookupTransform target source t = .throw .lookup) ∧
    (LegalName target → (∃ i, IsFrame b target i) → LegalName source → (∃ i, IsFrame b source i) →
      (∃ m, b.lookupTransform target source t = .ok m) ∨
      b.lookupTransform target source t = .throw .lookup ∨
      b.lookupTransform target source t = .throw .connectivity ∨
      b.lookupTransform target source t = .throw .extrapolation) := by
  have hw := hr.wf
  have hunk : ∀ n, (¬ ∃ i, IsFrame b n i) → b.lookupFrameNumber n = 0 := by
    intro n h
    exact Classical.byContradiction fun h0 => h ⟨_, isFrame_of_lookup h0⟩
  refine ⟨?_, ?_, ?_, ?_, ?_⟩
  · intro h
    rcases validate_cases b target with ⟨l, _⟩ | ⟨_, e⟩ | ⟨l, _⟩
    · exact absurd l h
    · unfold Buf.lookupTransform; rw [if_neg hne, e]
    · exact absurd l h
  · intro l h
    rcases validate_cases b target with ⟨_, i, hi, _⟩ | ⟨h', e⟩ | ⟨_, _, e⟩
    · exact absurd ⟨i, hi⟩ h
    · exact absurd l h'
    · unfold Buf.lookupTransform; rw [if_neg hne, e]
  · rintro l ⟨i, hi⟩ h
    rcases validate_cases b source with ⟨l, _⟩ | ⟨_, e⟩ | ⟨l, _⟩
    · exact absurd l h
    · unfold Buf.lookupTransform; rw [if_neg hne, validate_legal hi l, e]
    · exact absurd l h
  · rintro l ⟨i, hi⟩ l' h
    rcases validate_cases b source with ⟨_, j, hj, _⟩ | ⟨h', e⟩ | ⟨_, _, e⟩
    · exact absurd ⟨j, hj⟩ h
    · exact absurd l' h'
    · unfold Buf.lookupTransform; rw [if_neg hne, validate_legal hi l, e]
  · rintro l ⟨i, hi⟩ l' ⟨j, hj⟩
    rw [lookup_eq hi hj l l' hne]
    have h1 := walk_ne_ub hw (t := t) (tgt := i) hj.1
    have h2 := fun c => walk_err hw (t := t) (tgt := i) hj.1 (c := c)
    generalize b.walk transformAccum TAcc.init t i j = w at *
    match w, h1, h2 with
    | .ub, h1, _ => exact absurd rfl h1
    | .err .noError, _, h2 => exact absurd rfl (h2 _ rfl)
    | .err .lookup, _, _ => exact Or.inr (Or.inl rfl)
    | .err .connectivity, _, _ => exact Or.inr (Or.inr (Or.inl rfl))
    | .err .extrapolation, _, _ => exact Or.inr (Or.inr (Or.inr rfl))
    | .done a ch, _, _ => exact Or.inl ⟨_, rfl⟩

example : exBuf.lookupTransform [] ['b'] 15 = .throw .invalidArgument ∧
    exBuf.lookupTransform ['b'] ['/', 'c'] 15 = .throw .invalidArgument ∧
    exBuf.lookupTransform ['?'] ['/', 'c'] 15 = .throw .lookup := by decide

end Tf2
