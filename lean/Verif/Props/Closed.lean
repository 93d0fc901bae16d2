import Verif.Spec.Closed
import Verif.Props.Pose

/-!
# C55: families of transforms that lookups cannot leave
-/
namespace Tf2

section
variable {X : Type} [Rigid X] {U : X → Prop}

theorem ClosedFamily.dynGetData (L : ClosedFamily U) {D : Duration} {st : List (Sample X)}
    (hr : ReachableCache D st) (h : ∀ s ∈ st, U s.xf) {t : Time} {s : Sample X}
    (hs : Tf2.dynGetData st t = .ok s) : U s.xf := by
  unfold Tf2.dynGetData at hs
  rcases findClosest_cases hr.sorted t with ⟨_, e⟩ | ⟨f, r, e0, _, e⟩ | ⟨_, s', hs', _, e⟩ |
    ⟨_, o, n, hadj, h1, h2, e⟩ | ⟨_, _, e⟩ <;> rw [e] at hs
  · cases hs
  · injection hs with hs; subst hs; exact h _ (by simp [e0])
  · injection hs with hs; subst hs; exact h _ hs'
  · simp only at hs
    split at hs
    · injection hs with hs
      have hlt := hadj.2.2.1
      have : n.stamp ≠ o.stamp := by omega
      rw [← hs]
      simp only [interpolate, this, if_false]
      exact L.interp (h _ hadj.1) (h _ hadj.2.1) (by omega) (by omega) (by omega)
    · injection hs with hs; subst hs; exact h _ hadj.1
  · cases hs

theorem ClosedFamily.edges (L : ClosedFamily U) {D : Duration} {b : Buf X}
    (hw : WF D b) (h : StoredIn U b) : EdgesIn U b := by
  intro f c hc t s hs
  have h1 := h f c hc
  have h2 := hw.caches f c hc
  cases c with
  | dyn D' st => exact L.dynGetData h2.2.1 h1 hs
  | stat o =>
    cases o with
    | none => exact absurd h2 (by simp [CacheOK])
    | some s' =>
      simp only [Cache.getData, GetRes.ok.injEq] at hs
      subst hs
      exact h1 s' rfl

theorem ClosedFamily.chain (L : ClosedFamily U) {b : Buf X} (hU : EdgesIn U b) {t : Time} {a c : Nat} {x : X} {n : Nat}
    (h : Chain b t a c x n) : U x := by
  induction h with
  | refl => exact L.one
  | snoc _ h2 ih => exact L.comp (h2.inU hU) ih

/-- **C55 (any arithmetic).** Whatever family of transforms contains the identity and is closed under the
four operations of the library - no algebraic laws are needed - a lookup in a buffer that was only
offered members of the family returns a member of it: for all histories, frames and times, also time 0,
interpolated or not. -/
theorem C55_closed (L : ClosedFamily U) {D : Duration} {ops : List (Op X)}
    (hU : AllOffered U ops) {b : Buf X} (hb : b = (Buf.init D).run ops) {target source : Name} {t : Time}
    {m : Msg X} (h : b.lookupTransform target source t = .ok m) : U m.xf := by
  have hw : WF D b := by rw [hb]; exact WF.run (WF.init D) ops
  have hE : EdgesIn U b := by
    rw [hb]; exact L.edges (WF.run (WF.init D) ops) (StoredIn.run ops (WF.init D) (StoredIn.init U D) hU)
  by_cases hne : target = source
  · subst hne
    simp only [Buf.lookupTransform, if_true, Res.ok.injEq] at h
    subst h
    exact L.one
  · obtain ⟨g, s, hg, hs, lg, ls⟩ := lookup_ok_frames hne h
    have hgs : s ≠ g := fun e => hne (hw.inj hg.2 (e ▸ hs.2))
    rw [lookup_eq hg hs lg ls hne] at h
    have key : ∀ t' a ch, b.walkAt transformAccum TAcc.init t' g s = .done a ch → U a.result := by
      intro t' a ch hd
      have hsp := walkAt_spec (t := t') hw (tgt := g) hs.1 TAcc.init rfl rfl
      rw [hd] at hsp
      obtain ⟨_, h2⟩ := hsp
      rcases h2 with ⟨n, _, hc⟩ | ⟨n, y, _, hc, e⟩ | ⟨c, x, y, n, k, _, _, hx, hy, _, e⟩
      · exact L.chain hE hc
      · rw [e]; exact L.inv (L.chain hE hc)
      · rw [e]; exact L.comp (L.inv (L.chain hE hy)) (L.chain hE hx)
    unfold Buf.walk at h
    rw [if_neg hgs] at h
    have fin : ∀ t', lookupOfWalk target source (b.walkAt transformAccum TAcc.init t' g s) = .ok m → U m.xf := by
      intro t' h
      cases hd : b.walkAt transformAccum TAcc.init t' g s with
      | ub => rw [hd] at h; cases h
      | err c => rw [hd] at h; cases h
      | done a ch =>
        rw [hd] at h
        simp only [lookupOfWalk, Res.ok.injEq] at h
        subst h
        exact key t' a ch hd
    by_cases ht : t = 0
    · rw [if_pos ht] at h
      cases hl : b.latestCommonTime g s with
      | ub => rw [hl] at h; cases h
      | err c => rw [hl] at h; cases h
      | ok t' => rw [hl] at h; exact fin t' h
    · rw [if_neg ht] at h
      exact fin t h

/-- **C55 (any arithmetic), fixed-frame version.** -/
theorem C55_closed_fixed (L : ClosedFamily U) {D : Duration} {ops : List (Op X)}
    (hU : AllOffered U ops) {b : Buf X} (hb : b = (Buf.init D).run ops) {target source fixed : Name} {tt st : Time}
    {m : Msg X} (h : b.lookupTransform5 target tt source st fixed = .ok m) : U m.xf := by
  unfold Buf.lookupTransform5 at h
  cases h1 : b.validateFrameId target with
  | ub => rw [h1] at h; cases h
  | throw e => rw [h1] at h; cases h
  | ok _ =>
    rw [h1] at h
    cases h2 : b.validateFrameId source with
    | ub => rw [h2] at h; cases h
    | throw e => rw [h2] at h; cases h
    | ok _ =>
      rw [h2] at h
      cases h3 : b.validateFrameId fixed with
      | ub => rw [h3] at h; cases h
      | throw e => rw [h3] at h; cases h
      | ok _ =>
        rw [h3] at h
        cases h4 : b.lookupTransform fixed source st with
        | ub => rw [h4] at h; cases h
        | throw e => rw [h4] at h; cases h
        | ok m2 =>
          rw [h4] at h
          cases h5 : b.lookupTransform target fixed tt with
          | ub => rw [h5] at h; cases h
          | throw e => rw [h5] at h; cases h
          | ok m1 =>
            rw [h5] at h
            simp only [Res.ok.injEq] at h
            subst h
            exact L.mulMsg (C55_closed L hU hb h5) (C55_closed L hU hb h4)

end

/-! ### Unit quaternions -/

theorem unit_closed : ClosedFamily (fun p : Pose => p.rot.Unit) where
  one := pose_laws.one
  comp := pose_laws.comp
  inv := pose_laws.inv
  interp := pose_laws.interp
  mulMsg := by
    intro a b ha hb
    rcases (Pose.mulMsg_eq ha hb).2 with e | e
    · show (Pose.mulMsg a b).rot.Unit
      rw [e]; exact ha.mul hb
    · show (Pose.mulMsg a b).rot.Unit
      rw [e]; exact (ha.mul hb).neg

/-- **C55, rotations.** Unit quaternions in, unit quaternions out: every lookup, simple or through a fixed
frame. -/
theorem C55_unit {D : Duration} {ops : List (Op Pose)} (hU : AllOffered (fun p : Pose => p.rot.Unit) ops)
    {b : Buf Pose} (hb : b = (Buf.init D).run ops) {m : Msg Pose} :
    (∀ target source t, b.lookupTransform target source t = .ok m →
      m.xf.rot.x ^ 2 + m.xf.rot.y ^ 2 + m.xf.rot.z ^ 2 + m.xf.rot.w ^ 2 = 1) ∧
    (∀ target tt source st fixed, b.lookupTransform5 target tt source st fixed = .ok m →
      m.xf.rot.x ^ 2 + m.xf.rot.y ^ 2 + m.xf.rot.z ^ 2 + m.xf.rot.w ^ 2 = 1) :=
  ⟨fun _ _ _ h => C55_closed unit_closed hU hb h, fun _ _ _ _ _ h => C55_closed_fixed unit_closed hU hb h⟩

/-! ### Motions of the plane -/

theorem Quat.slerp_linear (a q : Quat ℝ) (t : ℝ) : ∃ c d : ℝ, a.slerp q t =
    ⟨c * a.x + d * q.x, c * a.y + d * q.y, c * a.z + d * q.z, c * a.w + d * q.w⟩ := by
  unfold Quat.slerp
  dsimp only
  split
  · split
    · refine ⟨Real.sin ((1 - t) * (a.angleShortestPath q / 2)) * (1 / Real.sin (a.angleShortestPath q / 2)),
        - (Real.sin (t * (a.angleShortestPath q / 2)) * (1 / Real.sin (a.angleShortestPath q / 2))), ?_⟩
      ext <;> dsimp only <;> ring
    · refine ⟨Real.sin ((1 - t) * (a.angleShortestPath q / 2)) * (1 / Real.sin (a.angleShortestPath q / 2)),
        Real.sin (t * (a.angleShortestPath q / 2)) * (1 / Real.sin (a.angleShortestPath q / 2)), ?_⟩
      ext <;> dsimp only <;> ring
  · exact ⟨1, 0, by ext <;> simp⟩

theorem planar_comp {a b : Pose} (ha : a.Planar) (hb : b.Planar) : (a.comp b).Planar := by
  obtain ⟨u1, x1, y1, z1⟩ := ha
  obtain ⟨u2, x2, y2, z2⟩ := hb
  refine ⟨u1.mul u2, ?_, ?_, ?_⟩ <;>
    simp [Pose.comp, Quat.mul, Quat.rotate, Quat.mulVec, Quat.inverse, Vec3.add, x1, y1, z1, x2, y2, z2]

theorem planar_closed : ClosedFamily Pose.Planar where
  one := by
    refine ⟨?_, rfl, rfl, rfl⟩
    exact pose_laws.one
  comp := planar_comp
  inv := by
    rintro a ⟨u, x, y, z⟩
    refine ⟨pose_laws.inv u, ?_, ?_, ?_⟩
    · show -a.rot.x = 0; simp [x]
    · show -a.rot.y = 0; simp [y]
    · show (a.rot.inverse.rotate a.trans.neg).z = 0
      simp [Quat.mul, Quat.rotate, Quat.mulVec, Quat.inverse, Vec3.neg, x, y, z]
  interp := by
    rintro a b n d ⟨u1, x1, y1, z1⟩ ⟨u2, x2, y2, z2⟩ h1 h2 h3
    refine ⟨pose_laws.interp u1 u2 h1 h2 h3, ?_, ?_, ?_⟩
    · show (a.rot.slerp b.rot _).x = 0
      obtain ⟨c, d, e⟩ := Quat.slerp_linear a.rot b.rot ((n : ℝ) / d)
      rw [e]; simp [x1, x2]
    · show (a.rot.slerp b.rot _).y = 0
      obtain ⟨c, d, e⟩ := Quat.slerp_linear a.rot b.rot ((n : ℝ) / d)
      rw [e]; simp [y1, y2]
    · show (Vec3.interpolate3 a.trans b.trans _).z = 0
      simp [Vec3.interpolate3, z1, z2]
  mulMsg := by
    intro a b ha hb
    have h := planar_comp ha hb
    obtain ⟨e1, e2⟩ := Pose.mulMsg_eq ha.1 hb.1
    refine ⟨unit_closed.mulMsg ha.1 hb.1, ?_, ?_, ?_⟩
    · show (Pose.mulMsg a b).rot.x = 0
      rcases e2 with e | e <;> rw [e]
      · exact h.2.1
      · show -(a.comp b).rot.x = 0
        rw [h.2.1, neg_zero]
    · show (Pose.mulMsg a b).rot.y = 0
      rcases e2 with e | e <;> rw [e]
      · exact h.2.2.1
      · show -(a.comp b).rot.y = 0
        rw [h.2.2.1, neg_zero]
    · show (Pose.mulMsg a b).trans.z = 0
      rw [e1]; exact h.2.2.2

/-- **C55, planar robots.** If every transform offered is a motion of the plane, so is every answer: no lookup
tilts or lifts anything, also between samples, at time 0 and through fixed frames. -/
theorem C55_planar {D : Duration} {ops : List (Op Pose)} (hU : AllOffered Pose.Planar ops)
    {b : Buf Pose} (hb : b = (Buf.init D).run ops) {m : Msg Pose} :
    (∀ target source t, b.lookupTransform target source t = .ok m →
      m.xf.rot.x = 0 ∧ m.xf.rot.y = 0 ∧ m.xf.trans.z = 0) ∧
    (∀ target tt source st fixed, b.lookupTransform5 target tt source st fixed = .ok m →
      m.xf.rot.x = 0 ∧ m.xf.rot.y = 0 ∧ m.xf.trans.z = 0) :=
  ⟨fun _ _ _ h => (C55_closed planar_closed hU hb h).2, fun _ _ _ _ _ h => (C55_closed_fixed planar_closed hU hb h).2⟩

/-- Two planar edges, and lookups through both. -/
example : let x : Pose := ⟨⟨0, 0, 3/5, 4/5⟩, ⟨1, 2, 0⟩⟩
    let y : Pose := ⟨⟨0, 0, 4/5, 3/5⟩, ⟨0, 1, 0⟩⟩
    (∃ ops, AllOffered Pose.Planar ops ∧ twoEdges x y = (Buf.init 10).run ops) ∧
    (∃ m, (twoEdges x y).lookupTransform ['a'] ['b'] 1 = .ok m) ∧
    (∃ m, (twoEdges x y).lookupTransform5 ['a'] 1 ['c'] 1 ['b'] = .ok m) := by
  intro x y
  have hx : Rigid.normOK x = true := by
    show Pose.normOK x = true
    simp only [Pose.normOK, x, decide_eq_true_eq]; norm_num
  have hy : Rigid.normOK y = true := by
    show Pose.normOK y = true
    simp only [Pose.normOK, y, decide_eq_true_eq]; norm_num
  obtain ⟨_, h2, h3, h4⟩ := twoEdges_lookups (x := x) (y := y) rfl hx rfl hy
  refine ⟨⟨_, ?_, rfl⟩, ⟨_, h2⟩, ⟨_, h4⟩⟩
  intro m a s hm
  simp only [List.mem_cons, Op.set.injEq, List.not_mem_nil, or_false] at hm
  rcases hm with ⟨rfl, _, _⟩ | ⟨rfl, _, _⟩
  · refine ⟨?_, rfl, rfl, rfl⟩
    show x.rot.Unit; unfold Quat.Unit; simp only [x]; norm_num
  · refine ⟨?_, rfl, rfl, rfl⟩
    show y.rot.Unit; unfold Quat.Unit; simp only [y]; norm_num

end Tf2
