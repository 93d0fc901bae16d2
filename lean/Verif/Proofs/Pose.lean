import Verif.Model.Pose
import Verif.Proofs.GetRotation
import Verif.Proofs.Slerp
import Verif.Proofs.LookupOk

/-! # Quaternion and translation pairs satisfy the laws of rigid motions -/
namespace Tf2

theorem Vec3.add_assoc' (a b c : Vec3 ℝ) : (a.add b).add c = a.add (b.add c) := by
  ext <;> simp [Vec3.add] <;> ring

/-- Interpolation with ratio zero is the older quaternion, for all quaternions. -/
theorem Quat.slerp_zero_any (a q : Quat ℝ) : a.slerp q 0 = a := by
  unfold Quat.slerp
  by_cases h : a.angleShortestPath q / 2 = 0
  · simp [h]
  · have hs : Real.sin (a.angleShortestPath q / 2) ≠ 0 := by
      have key : ∀ c : ℝ, 0 ≤ c → a.angleShortestPath q = tf2Acos c * 2 →
          Real.sin (a.angleShortestPath q / 2) ≠ 0 := by
        intro c hc e
        have e2 : a.angleShortestPath q / 2 = Real.arccos c := by rw [e, tf2Acos_eq]; ring
        rw [e2] at h ⊢
        exact (Quat.sin_pos_of_ne hc h).ne'
      have hr := Real.sqrt_nonneg (a.length2 * q.length2)
      by_cases hd : a.dot q < 0
      · refine key (a.dot q.neg / Real.sqrt (a.length2 * q.length2)) ?_ ?_
        · rw [Quat.dot_neg]; exact div_nonneg (by linarith) hr
        · unfold Quat.angleShortestPath; simp [hd]
      · refine key (a.dot q / Real.sqrt (a.length2 * q.length2)) ?_ ?_
        · exact div_nonneg (not_lt.1 hd) hr
        · unfold Quat.angleShortestPath; simp [hd]
    simp only [ne_eq, h, not_false_eq_true, if_true, zero_mul, Real.sin_zero, mul_zero, add_zero, sub_zero,
      one_mul, ite_self]
    ext <;> field_simp

theorem Vec3.interpolate3_zero (a b : Vec3 ℝ) : Vec3.interpolate3 a b 0 = a := by
  ext <;> simp [Vec3.interpolate3]

theorem Pose.interp_zero (a b : Pose) (d : Int) : Rigid.interp a b 0 d = a := by
  show Pose.interp a b 0 d = a
  ext1 <;> simp [Pose.interp, Quat.slerp_zero_any, Vec3.interpolate3_zero]

namespace Pose

theorem comp_assoc (a b c : Pose) : comp (comp a b) c = comp a (comp b c) := by
  ext1
  · exact Quat.mul_assoc _ _ _
  · simp only [comp, Quat.rotate_mul, Quat.rotate_add, Vec3.add_assoc']

theorem one_comp (a : Pose) : comp one a = a := by
  ext1
  · exact Quat.identity_mul _
  · simp only [comp, one, Quat.rotate_identity]
    ext <;> simp [Vec3.add, Vec3.zero]

theorem comp_one (a : Pose) : comp a one = a := by
  ext1
  · exact Quat.mul_identity _
  · simp only [comp, one, Quat.rotate_zero]
    ext <;> simp [Vec3.add, Vec3.zero]

theorem inv_comp {a : Pose} (h : a.rot.Unit) : comp (inv a) a = one := by
  ext1
  · exact Quat.inverse_mul h
  · simp only [comp, inv, one, Quat.rotate_neg]
    ext <;> simp [Vec3.add, Vec3.neg, Vec3.zero]

theorem comp_inv {a : Pose} (h : a.rot.Unit) : comp a (inv a) = one := by
  ext1
  · exact Quat.mul_inverse h
  · simp only [comp, inv, one, ← Quat.rotate_mul, Quat.mul_inverse h, Quat.rotate_identity]
    ext <;> simp [Vec3.add, Vec3.neg, Vec3.zero]

end Pose

/-- Quaternion + translation pairs with unit quaternions satisfy the laws of rigid motions that the
buffer theorems assume. -/
theorem pose_laws : RigidLaws (fun p : Pose => p.rot.Unit) where
  one := Quat.unit_identity
  comp := fun ha hb => ha.mul hb
  inv := fun ha => ha.inverse
  interp := fun ha hb _ _ _ => Quat.slerp_unit ha hb _
  assoc := fun _ _ _ => Pose.comp_assoc _ _ _
  one_comp := fun _ => Pose.one_comp _
  comp_one := fun _ => Pose.comp_one _
  inv_comp := fun h => Pose.inv_comp h
  comp_inv := fun h => Pose.comp_inv h

/-- Lookups over well-formed data give well-formed results, at every time including zero. -/
theorem lookup_inU {X : Type} [Rigid X] {U : X → Prop} (L : RigidLaws U) {D : Duration} {ops : List (Op X)}
    (hU : AllOffered U ops) {b : Buf X} (hb : b = (Buf.init D).run ops) {target source : Name} {t : Time}
    {m : Msg X} (h : b.lookupTransform target source t = .ok m) : U m.xf := by
  have hw : WF D b := by rw [hb]; exact WF.run (WF.init D) ops
  have hE : EdgesIn U b := by rw [hb]; exact edgesIn_run L D hU
  by_cases hne : target = source
  · subst hne
    simp only [Buf.lookupTransform, if_true, Res.ok.injEq] at h
    subst h
    exact L.one
  · obtain ⟨g, s, hg, hs, lg, ls⟩ := lookup_ok_frames hne h
    have hgs : s ≠ g := fun e => hne (hw.inj hg.2 (e ▸ hs.2))
    rw [lookup_eq hg hs lg ls hne] at h
    have key : ∀ t' a ch, b.walkAt transformAccum TAcc.init t' g s = .done a ch → U a.result := by
      intro t' a ch hd
      have hsp := walkAt_spec (t := t') hw (tgt := g) hs.1 TAcc.init rfl rfl
      rw [hd] at hsp
      obtain ⟨_, h2⟩ := hsp
      rcases h2 with ⟨n, _, hc⟩ | ⟨n, y, _, hc, e⟩ | ⟨c, x, y, n, k, _, _, hx, hy, _, e⟩
      · exact hc.inU L hE
      · rw [e]; exact L.inv (hc.inU L hE)
      · rw [e]; exact L.comp (L.inv (hy.inU L hE)) (hx.inU L hE)
    unfold Buf.walk at h
    rw [if_neg hgs] at h
    have fin : ∀ t', lookupOfWalk target source (b.walkAt transformAccum TAcc.init t' g s) = .ok m → U m.xf := by
      intro t' h
      cases hd : b.walkAt transformAccum TAcc.init t' g s with
      | ub => rw [hd] at h; cases h
      | err c => rw [hd] at h; cases h
      | done a ch =>
        rw [hd] at h
        simp only [lookupOfWalk, Res.ok.injEq] at h
        subst h
        exact key t' a ch hd
    by_cases ht : t = 0
    · rw [if_pos ht] at h
      cases hl : b.latestCommonTime g s with
      | ub => rw [hl] at h; cases h
      | err c => rw [hl] at h; cases h
      | ok t' => rw [hl] at h; exact fin t' h
    · rw [if_neg ht] at h
      exact fin t h

/-! ### Two concrete buffers over any kind of transform -/

/-- Transform message with one-letter frame names. -/
def edgeMsg {X} (p c : Char) (t : Time) (x : X) : Msg X := ⟨[p], [c], t, x⟩

/-- A buffer that has received one transform `b → a`, stamp 1. -/
def oneEdge {X : Type} [Rigid X] (x : X) : Buf X := (Buf.init 10).run [.set (edgeMsg 'a' 'b' 1 x) [] true]
/-- … and a second one, `c → b`. -/
def twoEdges {X : Type} [Rigid X] (x y : X) : Buf X :=
  (Buf.init 10).run [.set (edgeMsg 'a' 'b' 1 x) [] true, .set (edgeMsg 'b' 'c' 1 y) [] true]

theorem edge_valid {X : Type} [Rigid X] {x : X} (h1 : Rigid.hasNaN x = false) (h2 : Rigid.normOK x = true)
   {p c : Char} (hp : p ≠ c) (hp' : p ≠ '/') (hc : c ≠ '/') (t : Time) : 
   Buf.msgValid (Buf.stripMsg (edgeMsg p c t x)) = true := by
  simp [Buf.msgValid, Buf.stripMsg, edgeMsg, stripSlash, hp', hc, h1, h2, Ne.symm hp]

theorem oneEdge_lookups {X : Type} [Rigid X] {x : X} (h1 : Rigid.hasNaN x = false)
    (h2 : Rigid.normOK x = true) :
    ((Buf.init 10).setTransform (edgeMsg 'a' 'b' 1 x) [] true).2 = .accepted ∧
    (oneEdge x).lookupTransform ['a'] ['b'] 1 = .ok (edgeMsg 'a' 'b' 1 (Rigid.comp (Rigid.inv Rigid.one) (Rigid.comp x Rigid.one))) ∧
    (oneEdge x).lookupTransform ['b'] ['a'] 1 =
      .ok (edgeMsg 'b' 'a' 1 (Rigid.comp (Rigid.inv (Rigid.comp x Rigid.one)) Rigid.one)) := by
  have hv := edge_valid h1 h2 (p := 'a') (c := 'b') (by decide) (by decide) (by decide) 1
  have e1 : (Buf.init 10).setTransform (edgeMsg 'a' 'b' 1 x) [] true =
    ({ cacheTime := 10, frameIDs := fun n => if n = ['a'] then some 2 else if n = ['b'] then some 1 else if n = noParentName then some 0 else none
       frameIDsReverse := [noParentName, ['b'], ['a']]
       frames := [none, some (.stat (some ⟨1, 2, 1, x⟩)), none]
       authority := fun i => if i = 1 then some [] else none }, .accepted) := by
    unfold Buf.setTransform
    simp only [hv, if_true]
    rfl
  unfold oneEdge Buf.run
  simp only [List.foldl, Buf.step, e1]
  refine ⟨trivial, ?_, ?_⟩
  · rfl
  · rfl


/-- The buffer after the two messages, written out. -/
theorem twoEdges_eq {X : Type} [Rigid X] {x y : X} (h1 : Rigid.hasNaN x = false)
    (h2 : Rigid.normOK x = true) (h3 : Rigid.hasNaN y = false) (h4 : Rigid.normOK y = true) :
    (twoEdges x y) =
    { cacheTime := 10
      frameIDs := fun n => if n = ['c'] then some 3 else if n = ['a'] then some 2 else if n = ['b'] then some 1
        else if n = noParentName then some 0 else none
      frameIDsReverse := [noParentName, ['b'], ['a'], ['c']]
      frames := [none, some (.stat (some ⟨1, 2, 1, x⟩)), none, some (.stat (some ⟨1, 1, 3, y⟩))]
      authority := fun i => if i = 3 then some [] else if i = 1 then some [] else none } := by
  have hv := edge_valid h1 h2 (p := 'a') (c := 'b') (by decide) (by decide) (by decide) 1
  have hv2 := edge_valid h3 h4 (p := 'b') (c := 'c') (by decide) (by decide) (by decide) 1
  have e1 : (Buf.init 10).setTransform (edgeMsg 'a' 'b' 1 x) [] true =
    ({ cacheTime := 10
       frameIDs := fun n => if n = ['a'] then some 2 else if n = ['b'] then some 1
        else if n = noParentName then some 0 else none
       frameIDsReverse := [noParentName, ['b'], ['a']]
       frames := [none, some (.stat (some ⟨1, 2, 1, x⟩)), none]
       authority := fun i => if i = 1 then some [] else none }, .accepted) := by
    unfold Buf.setTransform
    simp only [hv, if_true]
    rfl
  unfold twoEdges Buf.run
  simp only [List.foldl, Buf.step, e1]
  unfold Buf.setTransform
  simp only [hv2, if_true]
  rfl

theorem twoEdges_lookups {X : Type} [Rigid X] {x y : X} (h1 : Rigid.hasNaN x = false)
    (h2 : Rigid.normOK x = true) (h3 : Rigid.hasNaN y = false) (h4 : Rigid.normOK y = true) :
    (twoEdges x y).lookupTransform ['a'] ['c'] 1 =
      .ok (edgeMsg 'a' 'c' 1 (Rigid.comp (Rigid.inv Rigid.one) (Rigid.comp x (Rigid.comp y Rigid.one)))) ∧
    (twoEdges x y).lookupTransform ['a'] ['b'] 1 = .ok (edgeMsg 'a' 'b' 1 (Rigid.comp (Rigid.inv Rigid.one) (Rigid.comp x Rigid.one))) ∧
    (twoEdges x y).lookupTransform ['b'] ['c'] 1 = .ok (edgeMsg 'b' 'c' 1 (Rigid.comp y Rigid.one)) ∧
    (twoEdges x y).lookupTransform5 ['a'] 1 ['c'] 1 ['b'] =
      .ok (edgeMsg 'a' 'c' 1 (Rigid.mulMsg
        (Rigid.comp (Rigid.inv Rigid.one) (Rigid.comp x Rigid.one)) (Rigid.comp y Rigid.one))) := by
  rw [twoEdges_eq h1 h2 h3 h4]
  refine ⟨?_, ?_, ?_, ?_⟩
  · rfl
  · rfl
  · rfl
  · rfl

end Tf2
