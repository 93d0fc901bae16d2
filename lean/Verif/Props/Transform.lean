import Verif.Spec.Transform
import Verif.Props.GeoMsgs
import Verif.Props.Pose

/-!
# Properties of `Buffer::transform`: C53
-/
namespace Tf2.Geo

/-- How the in-place `doTransform` acts, and the laws of the action. -/
structure Acts {T : Type} (app : DoTransform T) (val : Pose → T → T) (ok : T → Prop) (same : T → T → Prop) :
    Prop where
  get : ∀ tf m, applied app tf m = ⟨⟨m.header.seq, tf.header.stamp, tf.header.frame⟩, val tf.transform m.data⟩
  comp : ∀ {a b : Pose} {x : T}, a.rot.Unit → b.rot.Unit → ok x → val a (val b x) = val (a.comp b) x
  mulMsg : ∀ {a b : Pose} {x : T}, a.rot.Unit → b.rot.Unit → ok x → val (Pose.mulMsg a b) x = val a (val b x)
  one : ∀ {x : T}, ok x → same (val Pose.one x) x

theorem into_ok {T : Type} {app : DoTransform T} {val : Pose → T → T} {ok : T → Prop} {same : T → T → Prop}
    (h : Acts app val ok same) {b : Buf Pose} {target : Name} {m m' : Stamped T} :
    into b app target m = .ok m' ↔ ∃ l, b.lookupTransform target m.header.frame m.header.stamp = .ok l ∧
      m' = ⟨⟨m.header.seq, l.stamp, l.parent⟩, val l.xf m.data⟩ := by
  have e : into b app target m = match b.lookupTransform target m.header.frame m.header.stamp with
      | .ok l => .ok (applied app (ofLookup l) m)
      | .throw e => .throw e
      | .ub => .ub := rfl
  rw [e]
  cases b.lookupTransform target m.header.frame m.header.stamp with
  | ok l =>
    simp only [Res.ok.injEq]
    rw [h.get]
    constructor
    · intro hh; exact ⟨l, rfl, hh.symm⟩
    · rintro ⟨_, rfl, hh⟩; exact hh.symm
  | throw e => simp
  | ub => simp

theorem lookup_fields {X : Type} [Rigid X] {b : Buf X} {D : Duration} (hr : Reachable D b) {target source : Name}
    {t : Time} (ht : t ≠ 0) {l : Msg X} (h : b.lookupTransform target source t = .ok l) :
    l.parent = target ∧ l.stamp = t := by
  by_cases hne : target = source
  · subst hne
    simp only [Buf.lookupTransform, if_true, if_neg ht, Res.ok.injEq] at h
    subst h; exact ⟨rfl, rfl⟩
  · obtain ⟨_, _, _, _, e1, _, e2, _⟩ := C15_path_composition hr ht hne h
    exact ⟨e1, e2⟩

theorem lookup_parent {X : Type} [Rigid X] {b : Buf X} {target source : Name}
    {t : Time} {l : Msg X} (h : b.lookupTransform target source t = .ok l) : l.parent = target := by
  by_cases hne : target = source
  · subst hne
    simp only [Buf.lookupTransform, if_true, Res.ok.injEq] at h
    subst h; rfl
  · unfold Buf.lookupTransform at h
    rw [if_neg hne] at h
    repeat' split at h
    all_goals first
      | (cases h; done)
      | (cases h; rfl)
      | (simp only [Res.ok.injEq] at h; subst h; rfl)

section
variable {T : Type} {app : DoTransform T} {val : Pose → T → T} {ok : T → Prop} {same : T → T → Prop}

theorem Acts.roundTrip (h : Acts app val ok same) : RoundTrip app ok same := by
  rintro b ⟨D, ops, hU, hb⟩ m m1 target hok ht ⟨ls, i, r, hi, ri⟩ ⟨lt, j, r', hj, rj⟩ h1
  have hreach : Reachable D b := ⟨ops, hb⟩
  obtain ⟨l, hl, rfl⟩ := (into_ok h).1 h1
  obtain ⟨ep, es⟩ := lookup_fields hreach ht hl
  refine ⟨ep, es, ?_⟩
  obtain ⟨l2, hl2⟩ := (C16_symmetric hreach ht hj hi rj ri).1 ⟨l, hl⟩
  obtain ⟨ep2, es2⟩ := lookup_fields hreach ht hl2
  refine ⟨_, (into_ok h).2 ⟨l2, ?_, rfl⟩, ?_, ?_⟩
  · simp only [ep, es]; exact hl2
  · ext1 <;> simp [ep2, es2]
  · obtain ⟨n, _, he⟩ := ri
    have hc := (C16_inverse_pose hU hb ht hi he hl hl2).2
    rw [h.comp (lookup_inU pose_laws hU hb hl2) (lookup_inU pose_laws hU hb hl) hok, hc]
    exact h.one hok

theorem Acts.byWayOf (h : Acts app val ok same) : ByWayOf app ok := by
  rintro b ⟨D, ops, hU, hb⟩ m m1 m2 mid target hok ht ⟨ls, i, r, hi, ri⟩ ⟨lm, j, r', hj, rj⟩ ⟨lt, k, r'', hk, rk⟩ h1 h2
  have hreach : Reachable D b := ⟨ops, hb⟩
  obtain ⟨l, hl, rfl⟩ := (into_ok h).1 h1
  obtain ⟨ep, es⟩ := lookup_fields hreach ht hl
  obtain ⟨l2, hl2, rfl⟩ := (into_ok h).1 h2
  simp only [ep, es] at hl2
  obtain ⟨ep2, es2⟩ := lookup_fields hreach ht hl2
  obtain ⟨l3, hl3, e3⟩ := C17_compose pose_laws hU hb ht hk hj hi lt lm ls rk rj ri hl2 hl
  obtain ⟨ep3, es3⟩ := lookup_fields hreach ht hl3
  refine (into_ok h).2 ⟨l3, hl3, ?_⟩
  rw [h.comp (lookup_inU pose_laws hU hb hl2) (lookup_inU pose_laws hU hb hl) hok]
  have e3' : l3.xf = l2.xf.comp l.xf := e3
  rw [e3', ep2, es2, ep3, es3]

theorem Acts.fixedFrame (h : Acts app val ok same) : FixedFrameRule app ok := by
  rintro b ⟨D, ops, hU, hb⟩ m m' target fixed tt hok h1
  have e : intoVia b app target tt fixed m =
      match b.lookupTransform5 target tt m.header.frame m.header.stamp fixed with
      | .ok l => .ok (applied app (ofLookup l) m)
      | .throw e => .throw e
      | .ub => .ub := rfl
  rw [e] at h1
  cases h5 : b.lookupTransform5 target tt m.header.frame m.header.stamp fixed with
  | ub => rw [h5] at h1; cases h1
  | throw e => rw [h5] at h1; cases h1
  | ok l =>
    rw [h5] at h1
    simp only [Res.ok.injEq] at h1
    rw [h.get] at h1
    unfold Buf.lookupTransform5 at h5
    cases g1 : b.validateFrameId target with
    | ub => rw [g1] at h5; cases h5
    | throw e => rw [g1] at h5; cases h5
    | ok _ =>
    rw [g1] at h5
    cases g2 : b.validateFrameId m.header.frame with
    | ub => rw [g2] at h5; cases h5
    | throw e => rw [g2] at h5; cases h5
    | ok _ =>
    rw [g2] at h5
    cases g3 : b.validateFrameId fixed with
    | ub => rw [g3] at h5; cases h5
    | throw e => rw [g3] at h5; cases h5
    | ok _ =>
    rw [g3] at h5
    cases g4 : b.lookupTransform fixed m.header.frame m.header.stamp with
    | ub => rw [g4] at h5; cases h5
    | throw e => rw [g4] at h5; cases h5
    | ok m1 =>
    rw [g4] at h5
    cases g5 : b.lookupTransform target fixed tt with
    | ub => rw [g5] at h5; cases h5
    | throw e => rw [g5] at h5; cases h5
    | ok m2 =>
    rw [g5] at h5
    simp only [Res.ok.injEq] at h5
    subst h5
    refine ⟨_, (into_ok h).2 ⟨m1, g4, rfl⟩, (into_ok h).2 ⟨m2, ?_, ?_⟩⟩
    · simp only [lookup_parent g4]; exact g5
    · rw [← h1]
      simp only [ofLookup]
      have e2 := lookup_parent g5
      have e3 : (Rigid.mulMsg m2.xf m1.xf : Pose) = Pose.mulMsg m2.xf m1.xf := rfl
      rw [e3, h.mulMsg (lookup_inU pose_laws hU hb g5) (lookup_inU pose_laws hU hb g4) hok, e2]

end

/-! ## the four kinds of data -/

theorem fromMsg_comp {a b : Pose} (ha : a.rot.Unit) (hb : b.rot.Unit) :
    fromMsgT (a.comp b) = (fromMsgT a).mul (fromMsgT b) := Pose.toXform_comp ha hb

theorem fromMsg_mulMsg {a b : Pose} (ha : a.rot.Unit) (hb : b.rot.Unit) :
    fromMsgT (Pose.mulMsg a b) = (fromMsgT a).mul (fromMsgT b) :=
  fromMsg_tfVal (unit_nonzero ha) (unit_nonzero hb)

theorem fromMsg_one : fromMsgT Pose.one = Xform.identity := by
  unfold fromMsgT Xform.ofQuat Xform.identity Pose.one
  rw [Mat3.ofQuat_identity]

theorem mulMsg_tfVal (a b : Pose) : Pose.mulMsg a b = tfVal a b := rfl

/-- The values depend on the transform through its matrix and translation only. -/
theorem tfVal_comp {a b : Pose} (ha : a.rot.Unit) (hb : b.rot.Unit) :
    fromMsgT (a.comp b) = fromMsgT (tfVal a b) := by
  rw [fromMsg_comp ha hb, fromMsg_tfVal (unit_nonzero ha) (unit_nonzero hb)]

def idTf : TfStamped := ⟨⟨0, 0, []⟩, [], Pose.one⟩
theorem idTf_id : IsIdentity idTf := rfl

theorem acts_point : Acts doPointStamped pointVal anyData Eq where
  get tf m := by
    have := (C47_stamped tf).1 m
    exact Stamped.ext (this.2) (by rw [this.1, applied_point])
  comp {a b x} ha hb _ := by
    rw [← pointVal_comp (unit_nonzero ha) (unit_nonzero hb)]
    unfold pointVal; rw [tfVal_comp ha hb]
  mulMsg ha hb _ := pointVal_comp (unit_nonzero ha) (unit_nonzero hb) _
  one {x} _ := by have := (C47_identity idTf idTf_id).1 x; rwa [applied_point] at this

theorem acts_vector : Acts doVectorStamped vectorVal anyData Eq where
  get tf m := by
    have := (C47_stamped tf).2.1 m
    exact Stamped.ext (this.2) (by rw [this.1, applied_vector])
  comp {a b x} ha hb _ := by
    rw [← vectorVal_comp (unit_nonzero ha) (unit_nonzero hb)]
    unfold vectorVal; rw [tfVal_comp ha hb]
  mulMsg ha hb _ := vectorVal_comp (unit_nonzero ha) (unit_nonzero hb) _
  one {x} _ := by have := (C47_identity idTf idTf_id).2.1 x; rwa [applied_vector] at this

theorem acts_wrench : Acts doWrenchStamped wrenchVal anyData Eq where
  get tf m := by
    have := (C47_stamped tf).2.2.2.2.1 m
    exact Stamped.ext (this.2) (by rw [this.1, applied_wrench])
  comp {a b x} ha hb _ := by
    rw [← wrenchVal_comp (unit_nonzero ha) (unit_nonzero hb)]
    have : (a.comp b).trans = (tfVal a b).trans := congrArg Xform.origin (tfVal_comp ha hb)
    unfold wrenchVal vectorVal; rw [tfVal_comp ha hb, this]
  mulMsg ha hb _ := wrenchVal_comp (unit_nonzero ha) (unit_nonzero hb) _
  one {x} _ := by have := (C47_identity idTf idTf_id).2.2.2.1 x; rwa [applied_wrench] at this

theorem acts_pose : Acts doPoseStamped poseVal unitPose samePose where
  get tf m := by
    have := (C47_stamped tf).2.2.2.1 m
    exact Stamped.ext (this.2) (by rw [this.1, applied_pose])
  comp {a b x} ha hb hx := by
    rw [← poseVal_comp (unit_nonzero ha) (unit_nonzero hb) (unit_nonzero hx)]
    unfold poseVal; rw [tfVal_comp ha hb]
  mulMsg ha hb hx := poseVal_comp (unit_nonzero ha) (unit_nonzero hb) (unit_nonzero hx)
  one {x} hx := by
    have := (C47_identity idTf idTf_id).2.2.2.2 x hx
    rwa [applied_pose] at this

/-- **C53, round trip.** -/
theorem C53_round_trip :
    RoundTrip doPointStamped anyData Eq ∧ RoundTrip doVectorStamped anyData Eq ∧
    RoundTrip doWrenchStamped anyData Eq ∧ RoundTrip doPoseStamped unitPose samePose :=
  ⟨acts_point.roundTrip, acts_vector.roundTrip, acts_wrench.roundTrip, acts_pose.roundTrip⟩

/-- **C53, intermediate frames.** -/
theorem C53_by_way_of :
    ByWayOf doPointStamped anyData ∧ ByWayOf doVectorStamped anyData ∧
    ByWayOf doWrenchStamped anyData ∧ ByWayOf doPoseStamped unitPose :=
  ⟨acts_point.byWayOf, acts_vector.byWayOf, acts_wrench.byWayOf, acts_pose.byWayOf⟩

/-- **C53, fixed frame.** -/
theorem C53_fixed_frame :
    FixedFrameRule doPointStamped anyData ∧ FixedFrameRule doVectorStamped anyData ∧
    FixedFrameRule doWrenchStamped anyData ∧ FixedFrameRule doPoseStamped unitPose :=
  ⟨acts_point.fixedFrame, acts_vector.fixedFrame, acts_wrench.fixedFrame, acts_pose.fixedFrame⟩

/-- Three frames in a row with rotations that do not commute: the hypotheses of the three rules are met. -/
example : let x : Pose := ⟨⟨0, 0, 3/5, 4/5⟩, ⟨1, 2, 3⟩⟩
    let y : Pose := ⟨⟨4/5, 0, 0, 3/5⟩, ⟨0, 1, 0⟩⟩
    UnitBuffer (twoEdges x y) ∧ Placed (twoEdges x y) 1 ['a'] ∧ Placed (twoEdges x y) 1 ['b'] ∧
    Placed (twoEdges x y) 1 ['c'] ∧
    (∀ p, ∃ m1 m2 m3, into (twoEdges x y) doPointStamped ['b'] ⟨⟨0, 1, ['c']⟩, p⟩ = .ok m1 ∧
      into (twoEdges x y) doPointStamped ['a'] m1 = .ok m2 ∧
      intoVia (twoEdges x y) doPointStamped ['a'] 1 ['b'] ⟨⟨0, 1, ['c']⟩, p⟩ = .ok m3) := by
  intro x y
  have hx : Rigid.normOK x = true := by
    show Pose.normOK x = true
    simp only [Pose.normOK, x, decide_eq_true_eq]; norm_num
  have hy : Rigid.normOK y = true := by
    show Pose.normOK y = true
    simp only [Pose.normOK, y, decide_eq_true_eq]; norm_num
  have e := twoEdges_eq (x := x) (y := y) rfl hx rfl hy
  obtain ⟨_, h2, h3, h4⟩ := twoEdges_lookups (x := x) (y := y) rfl hx rfl hy
  have hno : ¬ ∃ p e, ParentAt (twoEdges x y) 1 2 p e := by
    rintro ⟨p, w, _, c, s, hc, _⟩
    rw [e] at hc; cases hc
  have pb : ParentAt (twoEdges x y) 1 1 2 x := by
    rw [e]; exact ⟨by decide, _, _, rfl, rfl, rfl, rfl⟩
  have pc : ParentAt (twoEdges x y) 1 3 1 y := by
    rw [e]; exact ⟨by decide, _, _, rfl, rfl, rfl, rfl⟩
  refine ⟨⟨10, _, ?_, rfl⟩, ⟨⟨by decide, by decide⟩, 2, 2, ⟨by decide, by rw [e]; rfl⟩, 0, by decide, ⟨_, .refl⟩, hno⟩,
    ⟨⟨by decide, by decide⟩, 1, 2, ⟨by decide, by rw [e]; rfl⟩, 1, by decide, ⟨_, .snoc .refl pb⟩, hno⟩,
    ⟨⟨by decide, by decide⟩, 3, 2, ⟨by decide, by rw [e]; rfl⟩, 2, by decide, ⟨_, .snoc (.snoc .refl pc) pb⟩, hno⟩, ?_⟩
  · intro m a s hm
    simp only [List.mem_cons, Op.set.injEq, List.not_mem_nil, or_false] at hm
    rcases hm with ⟨rfl, _, _⟩ | ⟨rfl, _, _⟩
    · show x.rot.Unit; unfold Quat.Unit; simp only [x]; norm_num
    · show y.rot.Unit; unfold Quat.Unit; simp only [y]; norm_num
  · intro p
    have h5 : ∀ l, (twoEdges x y).lookupTransform5 ['a'] 1 ['c'] 1 ['b'] = .ok l →
        ∃ m3, intoVia (twoEdges x y) doPointStamped ['a'] 1 ['b'] ⟨⟨0, 1, ['c']⟩, p⟩ = .ok m3 := by
      intro l hl
      refine ⟨applied doPointStamped (ofLookup l) ⟨⟨0, 1, ['c']⟩, p⟩, ?_⟩
      show (match (twoEdges x y).lookupTransform5 ['a'] 1 ['c'] 1 ['b'] with
        | .ok l => Res.ok (applied doPointStamped (ofLookup l) ⟨⟨0, 1, ['c']⟩, p⟩)
        | .throw e => .throw e
        | .ub => .ub) = _
      rw [hl]
    obtain ⟨m3, h5⟩ := h5 _ h4
    exact ⟨_, _, m3, (into_ok acts_point).2 ⟨_, h3, rfl⟩, (into_ok acts_point).2 ⟨_, h2, rfl⟩, h5⟩

/-- **C53, a point of the child frame.** After publishing the pose `q, v` of a frame in its parent, a
point with coordinates `p` in the child has coordinates `q p q* + v` in the parent: the transform stored
for a child maps child coordinates to parent coordinates. -/
theorem C53_convention (x : Pose) (hu : x.rot.Unit) (seq : Nat) (p : Vec3 ℝ) :
    ∃ m, into (oneEdge x) doPointStamped ['a'] ⟨⟨seq, 1, ['b']⟩, p⟩ = .ok m ∧
      m.header = ⟨seq, 1, ['a']⟩ ∧
      m.data.toH = x.rot.toH * p.toH * star x.rot.toH + x.trans.toH := by
  have hx : Rigid.normOK x = true := by
    show Pose.normOK x = true
    simp only [Pose.normOK, decide_eq_true_eq]
    have : x.rot.w * x.rot.w + x.rot.x * x.rot.x + x.rot.y * x.rot.y + x.rot.z * x.rot.z = 1 := by
      have h : x.rot.x ^ 2 + x.rot.y ^ 2 + x.rot.z ^ 2 + x.rot.w ^ 2 = 1 := hu
      linear_combination h
    rw [this]; norm_num
  obtain ⟨_, h2, _⟩ := oneEdge_lookups (x := x) rfl hx
  have e1 : (Rigid.comp x Rigid.one : Pose) = x := Pose.comp_one x
  have e3 : (Rigid.comp (Rigid.inv Rigid.one) x : Pose) = x := by
    have : (Rigid.inv Rigid.one : Pose) = Pose.one := by
      show Pose.inv Pose.one = Pose.one
      simp only [Pose.inv, Pose.one, Quat.inverse, Quat.identity, Vec3.neg, Vec3.zero, Quat.rotate, Quat.mul,
        Quat.mulVec]
      ext <;> simp
    rw [this]; exact Pose.one_comp x
  rw [e1, e3] at h2
  refine ⟨_, (into_ok acts_point).2 ⟨_, h2, rfl⟩, rfl, ?_⟩
  exact pointVal_toH hu p

end Tf2.Geo
