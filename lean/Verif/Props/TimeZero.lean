import Verif.Props.Newest
import Verif.Props.Lookup
import Verif.Props.Latest

/-!
# C15, C16, C17, C20 for every time asked for, zero included

The answer carries the time it is for (`stamp`): the time asked for, or the latest common time if that was zero, which is zero if only
static transforms are on the way.
-/
namespace Tf2

variable {X : Type} [Rigid X]

/-- What a successful lookup did. -/
theorem lookup_walked {D : Duration} {b : Buf X} (hw : WF D b) {target source : Name} (hne : target ≠ source)
    {t : Time} {m : Msg X} (h : b.lookupTransform target source t = .ok m) :
    ∃ g s a ch, IsFrame b target g ∧ IsFrame b source s ∧ m.parent = target ∧ m.child = source ∧
      b.walkAt transformAccum TAcc.init m.stamp g s = .done a ch ∧ m.xf = a.result ∧ (t ≠ 0 → m.stamp = t) := by
  obtain ⟨g, s, hg, hs, lg, ls⟩ := lookup_ok_frames hne h
  have hsg : s ≠ g := fun e => hne (hw.inj hg.2 (e ▸ hs.2))
  rw [lookup_eq hg hs lg ls hne] at h
  have fin : ∀ u, lookupOfWalk target source (b.walkAt transformAccum TAcc.init u g s) = .ok m →
      m.stamp = u ∧ ∃ a ch, b.walkAt transformAccum TAcc.init m.stamp g s = .done a ch ∧ m.xf = a.result ∧ m.parent = target ∧
        m.child = source := by
    intro u hu
    have hsp := walkAt_spec (t := u) hw (tgt := g) hs.1 TAcc.init rfl rfl
    cases h3 : b.walkAt transformAccum TAcc.init u g s with
    | ub => rw [h3] at hu; cases hu
    | err c => rw [h3] at hu; cases hu
    | done a ch =>
      rw [h3] at hu hsp
      have hm : m.stamp = u := by cases hu; exact hsp.1
      refine ⟨hm, a, ch, by rw [hm]; exact h3, ?_, ?_, ?_⟩ <;> cases hu <;> rfl
  unfold Buf.walk at h
  rw [if_neg hsg] at h
  split at h
  · rename_i h0
    cases h4 : b.latestCommonTime g s with
    | ub => rw [h4] at h; cases h
    | err c => rw [h4] at h; cases h
    | ok u =>
      rw [h4] at h
      obtain ⟨_, a, ch, h5, h6, h7, h8⟩ := fin u h
      exact ⟨g, s, a, ch, hg, hs, h7, h8, h5, h6, fun h => absurd h0 h⟩
  · obtain ⟨e, a, ch, h5, h6, h7, h8⟩ := fin t h
    exact ⟨g, s, a, ch, hg, hs, h7, h8, h5, h6, fun _ => e⟩

/-- **C15, any time.** A successful lookup, whatever the time asked for: the transforms held for the time it is stamped with lead from
the frames to a common one, and the answer is their composition. -/
theorem C15_stamp {D : Duration} {b : Buf X} (hr : Reachable D b) {target source : Name} {t : Time} (hne : target ≠ source) {m : Msg X}
    (h : b.lookupTransform target source t = .ok m) :
    ∃ g s, IsFrame b target g ∧ IsFrame b source s ∧ m.parent = target ∧ m.child = source ∧ (t ≠ 0 → m.stamp = t) ∧
      ((∃ n, n ≤ 1000 ∧ Chain b m.stamp s g m.xf n) ∨
       (∃ n y, n ≤ 1000 ∧ Chain b m.stamp g s y n ∧ m.xf = Rigid.inv y) ∨
       (∃ c x y n k, n ≤ 1000 ∧ k ≤ 1000 ∧ Chain b m.stamp s c x n ∧ Chain b m.stamp g c y k ∧
          m.xf = Rigid.comp (Rigid.inv y) x)) := by
  have hw := hr.wf
  obtain ⟨g, s, a, ch, hg, hs, hp, hc, hwk, hxf, hst⟩ := lookup_walked hw hne h
  refine ⟨g, s, hg, hs, hp, hc, hst, ?_⟩
  have hsp := walkAt_spec (t := m.stamp) hw (tgt := g) hs.1 TAcc.init rfl rfl
  rw [hwk] at hsp
  rw [hxf]
  rcases hsp.2 with h2 | h2 | ⟨c, x, y, n, k, h3, h4, h5, h6, _, h7⟩
  · exact Or.inl h2
  · exact Or.inr (Or.inl h2)
  · exact Or.inr (Or.inr ⟨c, x, y, n, k, h3, h4, h5, h6, h7⟩)

/-- At stamp 18 the source `c` still has its way to the root. -/
theorem ex_root_c18 : EndsAt exBuf 18 4 2 2 :=
  ⟨⟨_, .snoc (.snoc .refl (⟨by decide, _, _, rfl, rfl, rfl, rfl⟩ : ParentAt exBuf 18 4 1 (1000 : Int)))
    (⟨by decide, _, _, rfl, rfl, rfl, rfl⟩ : ParentAt exBuf 18 1 2 (2 : Int))⟩, no_parent_of_no_cache rfl⟩

/-- Not vacuous: asked for time 0, one lookup is stamped 18, another, through a static transform only, 0. -/
example : exBuf.lookupTransform ['c'] ['b'] 0 = .ok (tmsg ['c'] ['b'] 18 (200 - 1000)) ∧
    exBuf.lookupTransform ['a'] ['c'] 0 = .ok (tmsg ['a'] ['c'] 0 1000) := by decide

/-- The value of an answer, by the ways to the root at the time it is stamped with. -/
theorem answer_value {U : X → Prop} (L : RigidLaws U) {D : Duration} {b : Buf X} (hw : WF D b) (hE : EdgesIn U b)
    {target source : Name} {t : Time} {m : Msg X} (h : b.lookupTransform target source t = .ok m) {s r l : Nat}
    (hs : IsFrame b source s) (he : EndsAt b m.stamp s r l) {x : X} {n : Nat} (hx : Chain b m.stamp s r x n) (hg0 : ∃ g, IsFrame b target g) :
    ∃ g y k, IsFrame b target g ∧ EndsAt b m.stamp g r k ∧ Chain b m.stamp g r y k ∧ m.xf = Rigid.comp (Rigid.inv y) x := by
  by_cases hne : target = source
  · subst hne
    have hn := he.pos_unique (Classical.choose_spec he.1) hx
    subst hn
    refine ⟨s, x, l, hs, he, hx, ?_⟩
    simp only [Buf.lookupTransform, if_true, Res.ok.injEq] at h
    rw [L.inv_comp (hx.inU L hE), ← h]
  · obtain ⟨g, s', a, ch, hg, hs', _, _, hwk, hxf, _⟩ := lookup_walked hw hne h
    have : s' = s := by have h1 := hs'.2; rw [hs.2] at h1; injection h1 with h1; exact h1.symm
    subst this
    obtain ⟨k, hk⟩ := lookup_ok_ends hw hs.1 he hwk
    obtain ⟨y, hy⟩ := hk.1
    refine ⟨g, y, k, hg, hk, hy, ?_⟩
    rw [hxf]
    exact (walkAt_value L hE hw hs.1 he hk hx hy hwk).2

/-- **C16, any time.** Two answers in opposite directions that are stamped with the same time are inverse to each other, whatever the times
asked for. -/
theorem C16_same_stamp {U : X → Prop} (L : RigidLaws U) {D : Duration} {ops : List (Op X)}
    (hU : AllOffered U ops) {b : Buf X} (hb : b = (Buf.init D).run ops) {f1 f2 : Name} {t t' : Time}
    {m1 m2 : Msg X} (h1 : b.lookupTransform f1 f2 t = .ok m1) (h2 : b.lookupTransform f2 f1 t' = .ok m2) (hst : m1.stamp = m2.stamp)
    {i r l : Nat} (hi : IsFrame b f2 i) (he : EndsAt b m1.stamp i r l) :
    Rigid.comp m1.xf m2.xf = Rigid.one ∧ Rigid.comp m2.xf m1.xf = Rigid.one := by
  have hw : WF D b := by rw [hb]; exact WF.run (WF.init D) ops
  have hE : EdgesIn U b := by rw [hb]; exact edgesIn_run L D hU
  obtain ⟨x, hx⟩ := he.1
  by_cases hne : f1 = f2
  · subst hne
    simp only [Buf.lookupTransform, if_true, Res.ok.injEq] at h1 h2
    subst h1 h2
    exact ⟨L.one_comp L.one, L.one_comp L.one⟩
  · obtain ⟨j0, _, hj0, _, _, _⟩ := lookup_ok_frames hne h1
    obtain ⟨j, y, k, hj, hek, hy, e1⟩ := answer_value L hw hE h1 hi he hx ⟨_, hj0⟩
    rw [hst] at he hx hek hy
    obtain ⟨i', x', l', hi', he', hx', e2⟩ := answer_value L hw hE h2 hj hek hy ⟨_, hi⟩
    have : i' = i := by have h1 := hi'.2; rw [hi.2] at h1; injection h1 with h1; exact h1.symm
    subst this
    have hl := he.pos_unique hx hx'
    subst hl
    obtain ⟨_, rfl⟩ := hx.det hx'
    have ux := hx.inU L hE
    have uy := hy.inU L hE
    rw [e1, e2]
    have mid : ∀ {p q : X}, U p → U q →
        Rigid.comp (Rigid.comp (Rigid.inv p) q) (Rigid.comp (Rigid.inv q) p) = Rigid.one := by
      intro p q up uq
      rw [L.assoc (L.inv up) uq (L.comp (L.inv uq) up), ← L.assoc uq (L.inv uq) up, L.comp_inv uq,
        L.one_comp up, L.inv_comp up]
    exact ⟨mid uy ux, mid ux uy⟩

/-- Not vacuous: the same answer for time 0 in one direction and for time 18 in the other. -/
example : exBuf.lookupTransform ['b'] ['c'] 0 = .ok (tmsg ['b'] ['c'] 18 800) ∧
    exBuf.lookupTransform ['c'] ['b'] 18 = .ok (tmsg ['c'] ['b'] 18 (-800)) ∧ IsFrame exBuf ['c'] 4 ∧ EndsAt exBuf 18 4 2 2 :=
  ⟨by decide, by decide, ⟨by decide, by decide⟩, ex_root_c18⟩

theorem MinNonzeroOf.unique {l l' : List Time} {t t' : Time} (hl : ∀ x, x ∈ l ↔ x ∈ l') (h : MinNonzeroOf l t)
    (h' : MinNonzeroOf l' t') : t = t' := by
  rcases h with ⟨h0, h1⟩ | ⟨h0, h1, h2⟩ <;> rcases h' with ⟨k0, k1⟩ | ⟨k0, k1, k2⟩
  · rw [h0, k0]
  · exact absurd (h1 _ ((hl _).2 k1)) k0
  · exact absurd (k1 _ ((hl _).1 h1)) h0
  · exact Nat.le_antisymm (h2 _ ((hl _).2 k1) k0) (k2 _ ((hl _).1 h1) h0)

/-- **C20, both directions.** At time 0, the lookups in the two directions between frames of one tree are stamped with the same time. -/
theorem C20_both_ways {U : X → Prop} (L : RigidLaws U) {D : Duration} {ops : List (Op X)}
    (hU : AllOffered U ops) {b : Buf X} (hb : b = (Buf.init D).run ops) {f1 f2 : Name} {i j r : Nat} (hi : IsFrame b f1 i)
    (hj : IsFrame b f2 j) (hne : f1 ≠ f2) (ri : NewestRoot b i r) (rj : NewestRoot b j r)
    (hmax : ∀ f l e, f = i ∨ f = j → NewestPath b f r l → e ∈ l → e.1 < TIME_MAX) {m1 m2 : Msg X}
    (h1 : b.lookupTransform f1 f2 0 = .ok m1) (h2 : b.lookupTransform f2 f1 0 = .ok m2) : m1.stamp = m2.stamp := by
  obtain ⟨q, hq⟩ := C20_lowest_exists rj ri
  obtain ⟨⟨Lj, hLj⟩, ⟨Li, hLi⟩, hlow⟩ := hq
  obtain ⟨⟨Ri, hRi, _⟩, _⟩ := id ri
  obtain ⟨⟨Rj, hRj, _⟩, _⟩ := id rj
  obtain ⟨Q, hQ⟩ := hlow r ⟨_, hRj⟩ ⟨_, hRi⟩
  have mj : ∀ e ∈ Lj, e.1 < TIME_MAX := fun e he => hmax j (Lj ++ Q) e (Or.inr rfl) (hLj.append hQ) (List.mem_append_left _ he)
  have mi : ∀ e ∈ Li, e.1 < TIME_MAX := fun e he => hmax i (Li ++ Q) e (Or.inl rfl) (hLi.append hQ) (List.mem_append_left _ he)
  obtain ⟨_, _, _, _, l1, l2⟩ := lookup_ok_frames hne h1
  obtain ⟨t, ht, hs, _⟩ := C20_common_time L hU hb hi hj l1 l2 hne rj ri ⟨⟨_, hLj⟩, ⟨_, hLi⟩, hlow⟩ hLj hLi
    (fun e he => (List.mem_append.1 he).elim (mj e) (mi e))
  obtain ⟨t', ht', hs', _⟩ := C20_common_time L hU hb hj hi l2 l1 (Ne.symm hne) ri rj
    ⟨⟨_, hLi⟩, ⟨_, hLj⟩, fun f a c => hlow f c a⟩ hLi hLj (fun e he => (List.mem_append.1 he).elim (mi e) (mj e))
  rw [hs m1 h1, hs' m2 h2]
  exact ht.unique (by intro x; simp only [List.map_append, List.mem_append]; exact or_comm) ht'

/-- **C16, time zero.** The lookups in the two directions at time 0 between frames of one tree are inverse to each other. -/
theorem C16_time_zero {U : X → Prop} (L : RigidLaws U) {D : Duration} {ops : List (Op X)}
    (hU : AllOffered U ops) {b : Buf X} (hb : b = (Buf.init D).run ops) {f1 f2 : Name} {i j r : Nat} (hi : IsFrame b f1 i)
    (hj : IsFrame b f2 j) (hne : f1 ≠ f2) (ri : NewestRoot b i r) (rj : NewestRoot b j r)
    (hmax : ∀ f l e, f = i ∨ f = j → NewestPath b f r l → e ∈ l → e.1 < TIME_MAX) {m1 m2 : Msg X}
    (h1 : b.lookupTransform f1 f2 0 = .ok m1) (h2 : b.lookupTransform f2 f1 0 = .ok m2) {r' l : Nat} (he : EndsAt b m1.stamp j r' l) :
    m1.stamp = m2.stamp ∧ Rigid.comp m1.xf m2.xf = Rigid.one ∧ Rigid.comp m2.xf m1.xf = Rigid.one := by
  have hst := C20_both_ways L hU hb hi hj hne ri rj hmax h1 h2
  exact ⟨hst, C16_same_stamp L hU hb h1 h2 hst hj he⟩

/-- Not vacuous: `b` and `c` of the example at time 0, both stamped 18. -/
example : exBuf.lookupTransform ['b'] ['c'] 0 = .ok (tmsg ['b'] ['c'] 18 800) ∧
    exBuf.lookupTransform ['c'] ['b'] 0 = .ok (tmsg ['c'] ['b'] 18 (-800)) ∧ NewestRoot exBuf 3 2 ∧ NewestRoot exBuf 4 2 ∧
    (∀ f l e, f = 3 ∨ f = 4 → NewestPath exBuf f 2 l → e ∈ l → e.1 < TIME_MAX) ∧ EndsAt exBuf 18 4 2 2 := by
  obtain ⟨h1, h2, h3, h4⟩ := ex_newest
  have r3 : NewestPath exBuf 3 2 [(18, 1), (20, 2)] := .cons h1 (.cons h3 (.nil _))
  have r4 : NewestPath exBuf 4 2 [(0, 1), (20, 2)] := .cons h2 (.cons h3 (.nil _))
  refine ⟨by decide, by decide, ⟨⟨_, r3, by decide⟩, h4⟩, ⟨⟨_, r4, by decide⟩, h4⟩, ?_, ex_root_c18⟩
  intro f l e hf hl he
  rcases hf with rfl | rfl
  · rw [hl.unique h4 r3] at he
    rcases List.mem_cons.1 he with rfl | he
    · decide
    · rw [List.mem_singleton.1 he]; decide
  · rw [hl.unique h4 r4] at he
    rcases List.mem_cons.1 he with rfl | he
    · decide
    · rw [List.mem_singleton.1 he]; decide

/-- **C17, any time.** Three answers that are stamped with the same time compose, whatever the times asked for. -/
theorem C17_same_stamp {U : X → Prop} (L : RigidLaws U) {D : Duration} {ops : List (Op X)}
    (hU : AllOffered U ops) {b : Buf X} (hb : b = (Buf.init D).run ops) {fa fb fc : Name} {t1 t2 t3 : Time} {m1 m2 m3 : Msg X}
    (h1 : b.lookupTransform fa fb t1 = .ok m1) (h2 : b.lookupTransform fb fc t2 = .ok m2) (h3 : b.lookupTransform fa fc t3 = .ok m3)
    (s1 : m1.stamp = m3.stamp) (s2 : m2.stamp = m3.stamp) {i k : Nat} (hi : IsFrame b fa i) (hk : IsFrame b fc k) {r l : Nat}
    (he : EndsAt b m3.stamp k r l) (hb' : ∃ j, IsFrame b fb j) : m3.xf = Rigid.comp m1.xf m2.xf := by
  have hw : WF D b := by rw [hb]; exact WF.run (WF.init D) ops
  have hE : EdgesIn U b := by rw [hb]; exact edgesIn_run L D hU
  obtain ⟨z, hz⟩ := he.1
  obtain ⟨i', x, n, hi', hei, hx, e3⟩ := answer_value L hw hE h3 hk he hz ⟨_, hi⟩
  rw [← s2] at he hz
  obtain ⟨j, y, n2, hj, hej, hy, e2⟩ := answer_value L hw hE h2 hk he hz hb'
  rw [s2, ← s1] at hej hy
  obtain ⟨i2, x2, n3, hi2, hei2, hx2, e1⟩ := answer_value L hw hE h1 hj hej hy ⟨_, hi⟩
  have : i2 = i' := by have h1 := hi2.2; rw [hi'.2] at h1; injection h1 with h1; exact h1.symm
  subst this
  rw [s1] at hx2
  have hl := hei.pos_unique hx hx2
  subst hl
  obtain ⟨_, rfl⟩ := hx.det hx2
  have ux := hx.inU L hE
  have uy := hy.inU L hE
  have uz := hz.inU L hE
  rw [e1, e2, e3]
  rw [L.assoc (L.inv ux) uy (L.comp (L.inv uy) uz), ← L.assoc uy (L.inv uy) uz, L.comp_inv uy,
    L.one_comp uz]

/-- Not vacuous: time 0 and time 18 mixed. -/
example : exBuf.lookupTransform ['w'] ['b'] 18 = .ok (tmsg ['w'] ['b'] 18 202) ∧
    exBuf.lookupTransform ['b'] ['c'] 0 = .ok (tmsg ['b'] ['c'] 18 800) ∧
    exBuf.lookupTransform ['w'] ['c'] 18 = .ok (tmsg ['w'] ['c'] 18 1002) ∧ IsFrame exBuf ['w'] 2 ∧ IsFrame exBuf ['b'] 3 ∧
    IsFrame exBuf ['c'] 4 ∧ EndsAt exBuf 18 4 2 2 :=
  ⟨by decide, by decide, by decide, ⟨by decide, by decide⟩, ⟨by decide, by decide⟩, ⟨by decide, by decide⟩, ex_root_c18⟩

/-- **C17, time zero (finding).** Lookups at time 0 do not compose: each is stamped with its own latest common time, and `w ← a`, newest 11,
followed by `a ← b`, 100, is not `w ← b`, 101, which is for the older time 10. -/
theorem C17_time_zero_finding :
    ∃ b : Buf Int, Reachable 100 b ∧ ∃ m1 m2 m3, b.lookupTransform ['w'] ['a'] 0 = .ok m1 ∧ b.lookupTransform ['a'] ['b'] 0 = .ok m2 ∧
      b.lookupTransform ['w'] ['b'] 0 = .ok m3 ∧ m3.xf ≠ Rigid.comp m1.xf m2.xf ∧ m1.stamp ≠ m3.stamp :=
  ⟨(Buf.init 100).run [put ['w'] ['a'] 10 1, put ['w'] ['a'] 20 11, put ['a'] ['b'] 10 100], ⟨_, rfl⟩,
    tmsg ['w'] ['a'] 20 11, tmsg ['a'] ['b'] 10 100, tmsg ['w'] ['b'] 10 101, by decide, by decide, by decide, by decide, by decide⟩

end Tf2
