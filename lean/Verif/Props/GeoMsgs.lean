import Verif.Proofs.GeoMsgs

/-!
# Properties of `doTransform` on geometry messages: C47, C48, C52
-/
namespace Tf2.Geo

/-! ## values, through the in-place call -/

theorem self_lawful {T : Type} : (Ref.self : Ref T T).Lawful := fun _ _ => rfl
theorem fst_lawful {T U : Type} : (Ref.fst : Ref (T × U) T).Lawful := fun _ _ => rfl
theorem snd_lawful {T U : Type} : (Ref.snd : Ref (T × U) U).Lawful := fun _ _ => rfl
theorem snd_apart {T U : Type} : (Ref.snd : Ref (T × U) U).Apart (Ref.fst : Ref (T × U) T) := fun _ _ => rfl
theorem fst_apart {T U : Type} : (Ref.fst : Ref (T × U) T).Apart (Ref.snd : Ref (T × U) U) := fun _ _ => rfl

theorem applied_point (tf : TfStamped) (v : Vec3 ℝ) : applied doPoint tf v = pointVal tf.transform v :=
  doPoint_get self_lawful _ _ _
theorem applied_vector (tf : TfStamped) (v : Vec3 ℝ) : applied doVector tf v = vectorVal tf.transform v :=
  doVector_get self_lawful _ _ _
theorem applied_quat (tf : TfStamped) (q : Quat ℝ) : applied doQuat tf q = tf.transform.rot.mul q :=
  doQuat_get self_lawful _ _ _
theorem applied_pose (tf : TfStamped) (p : PoseMsg) : applied doPose tf p = poseVal tf.transform p :=
  doPose_get self_lawful _ _ _
theorem applied_wrench (tf : TfStamped) (w : Wrench) : applied doWrench tf w = wrenchVal tf.transform w :=
  doWrench_get self_lawful (Or.inl rfl) _ _
theorem applied_tf (tf m : TfStamped) : appliedTf tf m =
    ⟨⟨m.header.seq, tf.header.stamp, tf.header.frame⟩, m.child, tfVal tf.transform m.transform⟩ :=
  doTf_get (inp := Ref.fst) fst_lawful (Or.inr snd_apart) (m, tf)
theorem applied_poseCov (tf : TfStamped) (m : Stamped PoseCov) : applied doPoseCovStamped tf m =
    ⟨⟨m.header.seq, tf.header.stamp, tf.header.frame⟩,
      poseVal tf.transform m.data.pose,
      transformCovariance m.data.covariance (fromMsgT tf.transform)⟩ :=
  doPoseCov_get self_lawful (Or.inl rfl) _ _

/-! ## C52: mutation safety -/

/-- **C52, unstamped types.** -/
theorem C52_mutation_safe :
    MutationSafe doPoint replace ∧ MutationSafe doVector replace ∧ MutationSafe doQuat replace ∧
    MutationSafe doPose replace ∧ MutationSafe doWrench replace := by
  refine ⟨?_, ?_, ?_, ?_, ?_⟩
  · intro S inp out hl _ tf s
    exact ⟨by rw [applied_point]; exact doPoint_get hl _ _ _, fun r hr => only_toMsgPoint _ _ r hr s⟩
  · intro S inp out hl _ tf s
    exact ⟨by rw [applied_vector]; exact doVector_get hl _ _ _, fun r hr => only_doVector _ _ _ r hr s⟩
  · intro S inp out hl _ tf s
    exact ⟨by rw [applied_quat]; exact doQuat_get hl _ _ _, fun r hr => hr _ _⟩
  · intro S inp out hl _ tf s
    exact ⟨by rw [applied_pose]; exact doPose_get hl _ _ _, fun r hr => only_toMsgPose _ _ r hr s⟩
  · intro S inp out hl ha tf s
    exact ⟨by rw [applied_wrench]; exact doWrench_get hl ha _ _, fun r hr => only_doWrench _ _ _ r hr s⟩

theorem stamped_safe {T : Type} {g : ∀ {S : Type}, Ref S T → Ref S T → TfStamped → S → S}
    (hg : MutationSafe g replace) :
    MutationSafe (fun inp out tf s => setHeader out.header tf (g inp.data out.data tf s)) keepSeq := by
  intro S inp out hl ha tf s
  have key : ∀ {S : Type} (inp out : Ref S (Stamped T)), out.Lawful → inp.SameOrApart out → ∀ s,
      out.get (setHeader out.header tf (g inp.data out.data tf s)) =
        ⟨⟨(out.get s).header.seq, tf.header.stamp, tf.header.frame⟩, applied g tf (inp.get s).data⟩ ∧
      ∀ {U : Type} (r : Ref S U), r.Apart out → r.get (setHeader out.header tf (g inp.data out.data tf s)) = r.get s := by
    intro S inp out hl ha s
    have had : inp.data.SameOrApart out.data := by
      rcases ha with rfl | ha
      · exact Or.inl rfl
      · right; intro v s; simp only [Ref.data]; rw [ha]
    have ho : OnlyWrites out.data (g inp.data out.data tf) := fun r hr s => (hg inp.data out.data (lawful_data hl) had tf s).2 r hr
    refine ⟨?_, fun r hr => only_stamped tf ho r hr s⟩
    rw [stamped_get hl tf ho, (hg inp.data out.data (lawful_data hl) had tf s).1]
    rfl
  refine ⟨?_, (key inp out hl ha s).2⟩
  rw [(key inp out hl ha s).1]
  exact congrArg (keepSeq (out.get s)) (key Ref.self Ref.self self_lawful (Or.inl rfl) (inp.get s)).1.symm

/-- **C52, stamped types.** -/
theorem C52_mutation_safe_stamped :
    MutationSafe doPointStamped keepSeq ∧ MutationSafe doVectorStamped keepSeq ∧
    MutationSafe doQuatStamped keepSeq ∧ MutationSafe doPoseStamped keepSeq ∧
    MutationSafe doWrenchStamped keepSeq ∧ MutationSafe doPoseCovStamped keepSeq := by
  obtain ⟨h1, h2, h3, h4, h5⟩ := C52_mutation_safe
  refine ⟨stamped_safe h1, stamped_safe h2, stamped_safe h3, stamped_safe h4, stamped_safe h5, ?_⟩
  intro S inp out hl ha tf s
  exact ⟨by rw [applied_poseCov, doPoseCov_get hl ha]; rfl, fun r hr => only_doPoseCov _ _ _ r hr s⟩

/-- **C52, transforms.** The applied transform has the type of the data: it too may be the output object.
The output keeps its own sequence number and child frame. -/
theorem C52_mutation_safe_transform {S : Type} (inp out tf : Ref S TfStamped) (hl : out.Lawful)
    (_hi : inp.SameOrApart out) (ht : tf.SameOrApart out) (s : S) :
    out.get (doTf inp out tf s) =
      { appliedTf (tf.get s) (inp.get s) with
        child := (out.get s).child
        header := { (appliedTf (tf.get s) (inp.get s)).header with seq := (out.get s).header.seq } } ∧
    ∀ {U : Type} (r : Ref S U), r.Apart out → r.get (doTf inp out tf s) = r.get s :=
  ⟨by rw [doTf_get hl ht, applied_tf], fun r hr => only_doTf _ _ _ r hr s⟩

/-- The hypotheses hold for the two objects of a pair and for one object used twice. -/
example : (Ref.fst : Ref (Vec3 ℝ × Vec3 ℝ) (Vec3 ℝ)).Lawful ∧
    (Ref.snd : Ref (Vec3 ℝ × Vec3 ℝ) (Vec3 ℝ)).SameOrApart Ref.fst ∧
    (Ref.fst : Ref (Vec3 ℝ × Vec3 ℝ) (Vec3 ℝ)).SameOrApart Ref.fst :=
  ⟨fst_lawful, Or.inr snd_apart, Or.inl rfl⟩

/-! ## C47: meaning -/

/-- **C47, points and vectors.** A point undergoes the rigid motion `v ↦ q v q* + t`; a free vector only
the rotation, whatever the translation. -/
theorem C47_point_vector (tf : TfStamped) (hu : tf.transform.rot.Unit) (v : Vec3 ℝ) :
    (applied doPoint tf v).toH = tf.transform.rot.toH * v.toH * star tf.transform.rot.toH + tf.transform.trans.toH ∧
    (applied doVector tf v).toH = tf.transform.rot.toH * v.toH * star tf.transform.rot.toH := by
  rw [applied_point, applied_vector]
  exact ⟨pointVal_toH hu v, vectorVal_toH hu v⟩

/-- **C47, orientations.** -/
theorem C47_quaternion (tf : TfStamped) (q : Quat ℝ) :
    (applied doQuat tf q).toH = tf.transform.rot.toH * q.toH := by
  rw [applied_quat, Quat.toH_mul]

theorem poseVal_orientation {t : Pose} {q : Quat ℝ} {v : Vec3 ℝ} (ht : t.rot.Unit) (hq : q.Unit) :
    ((fromMsgT t).mul (Xform.ofQuat q v)).getRotation.toH = t.rot.toH * q.toH ∨
    ((fromMsgT t).mul (Xform.ofQuat q v)).getRotation.toH = -(t.rot.toH * q.toH) := by
  have e : ((fromMsgT t).mul (Xform.ofQuat q v)).getRotation = (Mat3.ofQuat (t.rot.mul q)).getRotation := by
    rw [Mat3.ofQuat_mul _ _ ht.ne hq.ne]; rfl
  rw [e]
  rcases Mat3.getRotation_ofQuat (ht.mul hq) with h | h <;> rw [h]
  · left; rw [Quat.toH_mul]
  · right; rw [Quat.toH_neg, Quat.toH_mul]

/-- **C47, poses.** The position moves as a point does; the orientation is the product of the rotations
(one of the two quaternions of it), and always a unit quaternion, even when the inputs are not. -/
theorem C47_pose (tf : TfStamped) (p : PoseMsg) (ht : NonZero tf.transform) (hp : p.orientation ≠ ⟨0, 0, 0, 0⟩) :
    (applied doPose tf p).position = applied doPoint tf p.position ∧
    (applied doPose tf p).orientation.Unit ∧
    (tf.transform.rot.Unit → p.orientation.Unit →
      (applied doPose tf p).orientation.toH = tf.transform.rot.toH * p.orientation.toH ∨
      (applied doPose tf p).orientation.toH = -(tf.transform.rot.toH * p.orientation.toH)) := by
  rw [applied_pose, applied_point]
  exact ⟨rfl, (Mat3.getRotation_spec (mul_isRotation (fromMsgT_rot ht)
    (Mat3.ofQuat_isRotation _ (Quat.length2_ne_zero hp)))).1, fun h1 h2 => poseVal_orientation h1 h2⟩

/-- **C47, transforms.** Transforming a transform composes the two motions; header stamp and frame are
those of the applied transform, the child frame is kept. -/
theorem C47_transform (tf m : TfStamped) (ht : NonZero tf.transform) (hm : NonZero m.transform) :
    (appliedTf tf m).header.stamp = tf.header.stamp ∧ (appliedTf tf m).header.frame = tf.header.frame ∧
    (appliedTf tf m).child = m.child ∧ (appliedTf tf m).transform.rot.Unit ∧
    (∀ v, applied doPoint (appliedTf tf m) v = applied doPoint tf (applied doPoint m v)) := by
  rw [applied_tf]
  refine ⟨rfl, rfl, rfl, (Mat3.getRotation_spec (mul_isRotation (fromMsgT_rot ht) (fromMsgT_rot hm))).1, fun v => ?_⟩
  simp only [applied_point]
  exact pointVal_comp ht hm v

/-- **C47, wrenches.** The force of magnitude `f` acting at the point `p` (moment `p × f`) becomes the
transformed force acting at the transformed point; a pure couple is rotated; and the operation is
additive, so that these two cases determine it. -/
theorem C47_wrench (tf : TfStamped) (ht : NonZero tf.transform) :
    (∀ p f : Vec3 ℝ, applied doWrench tf ⟨f, p.cross f⟩ =
      ⟨applied doVector tf f, (applied doPoint tf p).cross (applied doVector tf f)⟩) ∧
    (∀ τ : Vec3 ℝ, applied doWrench tf ⟨Vec3.zero, τ⟩ = ⟨Vec3.zero, applied doVector tf τ⟩) ∧
    (∀ a b : Wrench, applied doWrench tf ⟨a.force.add b.force, a.torque.add b.torque⟩ =
      ⟨(applied doWrench tf a).force.add (applied doWrench tf b).force,
       (applied doWrench tf a).torque.add (applied doWrench tf b).torque⟩) := by
  simp only [applied_wrench, applied_vector, applied_point]
  have hz : vectorVal tf.transform Vec3.zero = Vec3.zero := by
    ext <;> simp [vectorVal, Mat3.mulVec, Vec3.dot, Vec3.zero]
  have hadd : ∀ a b : Vec3 ℝ, vectorVal tf.transform (a.add b) =
      (vectorVal tf.transform a).add (vectorVal tf.transform b) := by
    intro a b; ext <;> simp [vectorVal, Mat3.mulVec, Vec3.dot, Vec3.add] <;> ring
  refine ⟨fun p f => ?_, fun τ => ?_, fun a b => ?_⟩
  · have hc : (vectorVal tf.transform p).cross (vectorVal tf.transform f) = vectorVal tf.transform (p.cross f) :=
      cross_rot (fromMsgT_rot ht) p f
    have hp : pointVal tf.transform p = (vectorVal tf.transform p).add tf.transform.trans := rfl
    unfold wrenchVal
    simp only [hp, ← hc]
    ext <;> simp [Vec3.add, Vec3.cross] <;> ring
  · unfold wrenchVal
    simp only [hz]
    ext <;> simp [Vec3.add, Vec3.cross, Vec3.zero]
  · unfold wrenchVal
    simp only [hadd]
    ext <;> simp [Vec3.add, Vec3.cross] <;> ring

theorem applied_stamped {T : Type} {g : ∀ {S : Type}, Ref S T → Ref S T → TfStamped → S → S}
    (hg : MutationSafe g replace) (tf : TfStamped) (m : Stamped T) :
    applied (fun inp out tf s => setHeader out.header tf (g inp.data out.data tf s)) tf m =
      ⟨⟨m.header.seq, tf.header.stamp, tf.header.frame⟩, applied g tf m.data⟩ := by
  have e := stamped_get (o := Ref.self) self_lawful tf
    (f := g Ref.self.data Ref.self.data tf)
    (fun r hr s => (hg Ref.self.data Ref.self.data (lawful_data self_lawful) (Or.inl rfl) tf s).2 r hr) m
  rw [(hg Ref.self.data Ref.self.data (lawful_data self_lawful) (Or.inl rfl) tf m).1] at e
  exact e

/-- **C47, stamped types.** The datum is transformed as the unstamped one; the output's stamp and frame are
those of the transform's header. -/
theorem C47_stamped (tf : TfStamped) :
    (∀ m, (applied doPointStamped tf m).data = applied doPoint tf m.data ∧
      (applied doPointStamped tf m).header = ⟨m.header.seq, tf.header.stamp, tf.header.frame⟩) ∧
    (∀ m, (applied doVectorStamped tf m).data = applied doVector tf m.data ∧
      (applied doVectorStamped tf m).header = ⟨m.header.seq, tf.header.stamp, tf.header.frame⟩) ∧
    (∀ m, (applied doQuatStamped tf m).data = applied doQuat tf m.data ∧
      (applied doQuatStamped tf m).header = ⟨m.header.seq, tf.header.stamp, tf.header.frame⟩) ∧
    (∀ m, (applied doPoseStamped tf m).data = applied doPose tf m.data ∧
      (applied doPoseStamped tf m).header = ⟨m.header.seq, tf.header.stamp, tf.header.frame⟩) ∧
    (∀ m, (applied doWrenchStamped tf m).data = applied doWrench tf m.data ∧
      (applied doWrenchStamped tf m).header = ⟨m.header.seq, tf.header.stamp, tf.header.frame⟩) ∧
    (∀ m, (applied doPoseCovStamped tf m).data.pose = applied doPose tf m.data.pose ∧
      (applied doPoseCovStamped tf m).header = ⟨m.header.seq, tf.header.stamp, tf.header.frame⟩) := by
  obtain ⟨h1, h2, h3, h4, h5⟩ := C52_mutation_safe
  have k : ∀ {T : Type} {g : ∀ {S : Type}, Ref S T → Ref S T → TfStamped → S → S} (hg : MutationSafe g replace)
      (m : Stamped T),
      (applied (fun inp out tf s => setHeader out.header tf (g inp.data out.data tf s)) tf m).data = applied g tf m.data ∧
      (applied (fun inp out tf s => setHeader out.header tf (g inp.data out.data tf s)) tf m).header =
        ⟨m.header.seq, tf.header.stamp, tf.header.frame⟩ := by
    intro T g hg m; rw [applied_stamped hg]; exact ⟨rfl, rfl⟩
  refine ⟨k h1, k h2, k h3, k h4, k h5, fun m => ?_⟩
  rw [applied_poseCov, applied_pose]; exact ⟨rfl, rfl⟩

/-- **C47, composition.** Applying `T₁` and then `T₂` is applying the transform that results from
transforming `T₁` by `T₂`; for quaternions up to the sign, which does not change the rotation. -/
theorem C47_compose (t1 t2 : TfStamped) (h1 : NonZero t1.transform) (h2 : NonZero t2.transform) :
    (∀ v, applied doPoint t2 (applied doPoint t1 v) = applied doPoint (appliedTf t2 t1) v) ∧
    (∀ v, applied doVector t2 (applied doVector t1 v) = applied doVector (appliedTf t2 t1) v) ∧
    (∀ p : PoseMsg, p.orientation ≠ ⟨0, 0, 0, 0⟩ →
      applied doPose t2 (applied doPose t1 p) = applied doPose (appliedTf t2 t1) p) ∧
    (∀ w, applied doWrench t2 (applied doWrench t1 w) = applied doWrench (appliedTf t2 t1) w) ∧
    (∀ m : TfStamped, NonZero m.transform → appliedTf t2 (appliedTf t1 m) = appliedTf (appliedTf t2 t1) m) ∧
    (t1.transform.rot.Unit → t2.transform.rot.Unit → ∀ q,
      applied doQuat (appliedTf t2 t1) q = applied doQuat t2 (applied doQuat t1 q) ∨
      applied doQuat (appliedTf t2 t1) q = (applied doQuat t2 (applied doQuat t1 q)).neg) := by
  simp only [applied_point, applied_vector, applied_pose, applied_wrench, applied_tf, applied_quat]
  refine ⟨fun v => (pointVal_comp h2 h1 v).symm, fun v => (vectorVal_comp h2 h1 v).symm,
    fun p hp => (poseVal_comp h2 h1 hp).symm, fun w => (wrenchVal_comp h2 h1 w).symm, fun m hm => ?_,
    fun u1 u2 q => ?_⟩
  · rw [tfVal_assoc h2 h1 hm]
  · have e : (tfVal t2.transform t1.transform).rot =
        ((fromMsgT t2.transform).mul (Xform.ofQuat t1.transform.rot t1.transform.trans)).getRotation := rfl
    rcases poseVal_orientation (t := t2.transform) (q := t1.transform.rot) (v := t1.transform.trans) u2 u1 with h | h
    · left; apply Quat.toH_inj; rw [Quat.toH_mul, e, h, Quat.toH_mul, Quat.toH_mul, mul_assoc]
    · right; apply Quat.toH_inj
      rw [Quat.toH_mul, e, h, Quat.toH_neg, Quat.toH_mul, Quat.toH_mul, neg_mul, mul_assoc]

/-- **C47, identity.** The identity transform leaves points, vectors, quaternions and wrenches as they
are, and a pose too up to the sign of its (unit) quaternion. -/
theorem C47_identity (tf : TfStamped) (h : IsIdentity tf) :
    (∀ v, applied doPoint tf v = v) ∧ (∀ v, applied doVector tf v = v) ∧ (∀ q, applied doQuat tf q = q) ∧
    (∀ w, applied doWrench tf w = w) ∧
    (∀ p : PoseMsg, p.orientation.Unit → (applied doPose tf p).position = p.position ∧
      ((applied doPose tf p).orientation = p.orientation ∨
       (applied doPose tf p).orientation = p.orientation.neg)) := by
  have hi : fromMsgT ⟨⟨0, 0, 0, 1⟩, ⟨0, 0, 0⟩⟩ = Xform.identity := by
    unfold fromMsgT Xform.ofQuat Xform.identity
    congr 1
    exact Mat3.ofQuat_identity
  have hP : ∀ v, pointVal tf.transform v = v := by
    intro v; unfold pointVal; rw [h, hi]
    ext <;> simp [Xform.apply, Xform.identity, Mat3.identity, Vec3.zero, Vec3.dot]
  have hV : ∀ v, vectorVal tf.transform v = v := by
    intro v; unfold vectorVal; rw [h, hi]
    ext <;> simp [Mat3.mulVec, Xform.identity, Mat3.identity, Vec3.dot]
  have hu : tf.transform.rot.Unit := by rw [h]; norm_num [Quat.Unit]
  refine ⟨fun v => by rw [applied_point, hP], fun v => by rw [applied_vector, hV], fun q => ?_, fun w => ?_,
    fun p hp => ?_⟩
  · rw [applied_quat, h]; exact Quat.identity_mul q
  · rw [applied_wrench]; unfold wrenchVal; rw [hV, hV, h]
    ext <;> simp [Vec3.add, Vec3.cross]
  · obtain ⟨e1, _, e3⟩ := C47_pose tf p (unit_nonzero hu) (unit_nonzero hp)
    refine ⟨by rw [e1, applied_point, hP], ?_⟩
    have e1' : tf.transform.rot.toH = 1 := by rw [h]; exact Quat.toH_identity
    rcases e3 hu hp with e | e <;> rw [e1', one_mul] at e
    · left; exact Quat.toH_inj e
    · right; apply Quat.toH_inj; rw [e, Quat.toH_neg]

/-- **C47, isometry.** Distances between points, and inner products of vectors, are unchanged. -/
theorem C47_isometry (tf : TfStamped) (h : NonZero tf.transform) (v w : Vec3 ℝ) :
    (applied doPoint tf v).distance2 (applied doPoint tf w) = v.distance2 w ∧
    (applied doVector tf v).dot (applied doVector tf w) = v.dot w ∧
    (applied doVector tf v).cross (applied doVector tf w) = applied doVector tf (v.cross w) := by
  simp only [applied_point, applied_vector]
  have hd : ∀ a b, (vectorVal tf.transform a).dot (vectorVal tf.transform b) = a.dot b := by
    intro a b
    obtain ⟨q, hq, hm⟩ : ∃ q : Quat ℝ, q.Unit ∧ Mat3.ofQuat q = (fromMsgT tf.transform).basis :=
      ⟨_, Mat3.getRotation_spec (fromMsgT_rot h)⟩
    unfold vectorVal
    rw [← hm, Mat3.ofQuat_mulVec_unit _ hq, Mat3.ofQuat_mulVec_unit _ hq, Quat.rotate_dot,
      (Quat.unit_iff q).1 hq]; ring
  refine ⟨?_, hd v w, cross_rot (fromMsgT_rot h) v w⟩
  unfold Vec3.distance2 Vec3.length2
  rw [← hd (w.sub v) (w.sub v)]
  have e : (pointVal tf.transform w).sub (pointVal tf.transform v) = vectorVal tf.transform (w.sub v) := by
    ext <;> simp [pointVal, vectorVal, Xform.apply, Mat3.mulVec, Vec3.sub, Vec3.dot] <;> ring
  rw [e]

/-- A concrete transform: a half turn about (2, 3, 6)/7 and an offset. -/
noncomputable def exTf : TfStamped := ⟨⟨7, 5, ['m', 'a', 'p']⟩, ['b', 'a', 's', 'e'], ⟨⟨2/7, 3/7, 6/7, 0⟩, ⟨1, 2, 3⟩⟩⟩

example : exTf.transform.rot.Unit ∧ NonZero exTf.transform ∧
    applied doPoint exTf ⟨7, 0, 0⟩ = ⟨-34/7, 26/7, 45/7⟩ := by
  refine ⟨by norm_num [exTf, Quat.Unit], ?_, ?_⟩
  · apply unit_nonzero; norm_num [exTf, Quat.Unit]
  · rw [applied_point]
    ext <;> norm_num [exTf, pointVal, fromMsgT, Xform.ofQuat, Xform.apply, Mat3.ofQuat, Quat.length2, Quat.dot, Vec3.dot]

/-! ## findings -/

/-- **Finding.** `doTransform` on a `TransformStamped` never writes `child_frame_id`: with a separate
output object the child frame of the result is whatever the output held before, not the input's. -/
theorem C47_child_frame_finding : ∃ (m o : TfStamped), m.child ≠ [] ∧
    ((doTf Ref.fst (⟨fun s => s.2, fun v s => (s.1, v)⟩ : Ref (TfStamped × TfStamped) TfStamped) Ref.fst (m, o)).2).child = [] := by
  refine ⟨exTf, ⟨⟨0, 0, []⟩, [], ⟨⟨0, 0, 0, 0⟩, ⟨0, 0, 0⟩⟩⟩, by decide, rfl⟩

/-- **Finding.** The Python `do_transform_wrench` leaves out the moment of the displaced force that the
C++ adds: the same wrench and transform give different torques. -/
theorem C47_python_wrench_finding : ∃ (w : Wrench) (tf : TfStamped), tf.transform.rot.Unit ∧
    pyWrench w tf ≠ applied doWrench tf w := by
  refine ⟨⟨⟨0, 0, 1⟩, ⟨0, 0, 0⟩⟩, ⟨⟨0, 0, []⟩, [], ⟨⟨0, 0, 0, 1⟩, ⟨1, 0, 0⟩⟩⟩, by norm_num [Quat.Unit], ?_⟩
  rw [applied_wrench]
  intro h
  have := congrArg (fun w : Wrench => w.torque.y) h
  norm_num [pyWrench, wrenchVal, vectorVal, fromMsgT, Xform.ofQuat, Xform.apply, Mat3.ofQuat, Mat3.mulVec, Quat.length2, Quat.dot,
    Vec3.dot, Vec3.add, Vec3.cross, Vec3.zero] at this

/-- What the Python function computes is right exactly for transforms without translation or without force
… in general the two differ by the moment of the displaced force. -/
theorem C47_python_wrench (w : Wrench) (tf : TfStamped) :
    (pyWrench w tf).force = (applied doWrench tf w).force ∧
    (applied doWrench tf w).torque =
      (pyWrench w tf).torque.add (tf.transform.trans.cross (applied doWrench tf w).force) := by
  rw [applied_wrench]
  constructor <;> ext <;>
    simp [pyWrench, wrenchVal, vectorVal, fromMsgT, Xform.ofQuat, Xform.apply, Mat3.mulVec, Vec3.zero, Vec3.add]

/-- **Finding.** `tf2_eigen` transforms a quaternion by conjugation (`t⁻¹ q t`), `tf2_geometry_msgs` by
left multiplication (`t q`): for the null orientation the former always answers the null orientation. -/
theorem C47_eigen_quaternion_finding (tf : TfStamped) (hu : tf.transform.rot.Unit) :
    eigenQuat ⟨0, 0, 0, 1⟩ tf = ⟨0, 0, 0, 1⟩ ∧ applied doQuat tf ⟨0, 0, 0, 1⟩ = tf.transform.rot := by
  have hl := (Quat.unit_iff _).1 hu
  refine ⟨?_, by rw [applied_quat]; exact Quat.mul_identity _⟩
  have e := Quat.inverse_mul hu
  simp only [eigenQuat]
  rw [hl]
  have e1 : (tf.transform.rot.inverse.scale (1 / 1)).mul ⟨0, 0, 0, 1⟩ = tf.transform.rot.inverse := by
    ext <;> simp [Quat.scale, Quat.mul]
  rw [e1, e]; rfl

example : exTf.transform.rot ≠ ⟨0, 0, 0, 1⟩ := by
  intro h; have := congrArg Quat.w h; norm_num [exTf] at this

/-! ## C48: covariance -/

theorem mat6_transformCovariance (c : Fin 36 → ℝ) (t : Xform ℝ) :
    mat6 (transformCovariance c t) = blockDiag2 t.basis.toM * mat6 c * (blockDiag2 t.basis.toM).transpose := by
  ext i j
  rw [Matrix.mul_apply]
  simp only [Matrix.mul_apply, Fin.sum_univ_six, Matrix.transpose_apply]
  fin_cases i <;> fin_cases j <;>
    simp [mat6, blockDiag2, transformCovariance, Mat3.mul, Mat3.tdotx, Mat3.tdoty, Mat3.tdotz, Mat3.transpose, Mat3.toM] <;> ring

theorem blockDiag2_mul (a b : Matrix (Fin 3) (Fin 3) ℝ) : blockDiag2 (a * b) = blockDiag2 a * blockDiag2 b := by
  ext i j
  rw [Matrix.mul_apply]
  simp only [Fin.sum_univ_six]
  fin_cases i <;> fin_cases j <;> simp [blockDiag2, Matrix.mul_apply, Fin.sum_univ_three]

theorem mat6_inj {c d : Fin 36 → ℝ} (h : mat6 c = mat6 d) : c = d := by
  funext k
  have := congrFun (congrFun h ⟨k / 6, by omega⟩) ⟨k % 6, by omega⟩
  simp only [mat6] at this
  have e : (⟨6 * (k / 6) + k % 6, by omega⟩ : Fin 36) = k := Fin.ext (Nat.div_add_mod _ _)
  simpa [e] using this

/-- **C48.** With `R` the rotation matrix of the transform and `C` the 6×6 matrix stored in the 36 numbers,
the result is `diag(R,R) C diag(R,R)ᵀ`. -/
theorem C48_formula (tf : TfStamped) (m : Stamped PoseCov) :
    mat6 (applied doPoseCovStamped tf m).data.covariance =
      blockDiag2 (rotMat tf.transform) * mat6 m.data.covariance * (blockDiag2 (rotMat tf.transform)).transpose := by
  rw [applied_poseCov]
  exact mat6_transformCovariance _ _

/-- **C48, covariances stay covariances.** Symmetry and positive semidefiniteness are preserved, for every
transform whatever. -/
theorem C48_preserves (tf : TfStamped) (m : Stamped PoseCov) :
    ((mat6 m.data.covariance).IsSymm → (mat6 (applied doPoseCovStamped tf m).data.covariance).IsSymm) ∧
    ((mat6 m.data.covariance).PosSemidef → (mat6 (applied doPoseCovStamped tf m).data.covariance).PosSemidef) := by
  rw [C48_formula]
  constructor
  · intro h
    unfold Matrix.IsSymm at *
    rw [Matrix.transpose_mul, Matrix.transpose_mul, Matrix.transpose_transpose, h, Matrix.mul_assoc]
  · intro h
    have := h.mul_mul_conjTranspose_same (blockDiag2 (rotMat tf.transform))
    simpa [Matrix.conjTranspose_eq_transpose_of_trivial] using this

/-- **C48, composition and identity.** -/
theorem C48_compose (t1 t2 : TfStamped) (h1 : NonZero t1.transform) (h2 : NonZero t2.transform)
    (m : Stamped PoseCov) :
    (applied doPoseCovStamped t2 (applied doPoseCovStamped t1 m)).data.covariance =
      (applied doPoseCovStamped (appliedTf t2 t1) m).data.covariance ∧
    (IsIdentity t1 → (applied doPoseCovStamped t1 m).data.covariance = m.data.covariance) := by
  constructor
  · apply mat6_inj
    have e : rotMat (appliedTf t2 t1).transform = rotMat t2.transform * rotMat t1.transform := by
      rw [applied_tf]
      have := congrArg (fun x : Xform ℝ => x.basis.toM) (fromMsg_tfVal h2 h1)
      simp only [Xform.mul, Mat3.toM_mul] at this
      exact this
    rw [C48_formula, C48_formula, C48_formula, e, blockDiag2_mul, Matrix.transpose_mul]
    simp only [Matrix.mul_assoc]
  · intro h
    apply mat6_inj
    have e : blockDiag2 (rotMat t1.transform) = 1 := by
      have : rotMat t1.transform = 1 := by
        rw [h]; unfold rotMat
        rw [show (⟨0, 0, 0, 1⟩ : Quat ℝ) = Quat.identity from rfl, Mat3.ofQuat_identity, Mat3.toM_identity]
      rw [this]
      ext i j
      fin_cases i <;> fin_cases j <;> simp [blockDiag2, Matrix.one_apply]
    rw [C48_formula, e]; simp

/-- **C48, total uncertainty.** For a transform with a rotation the trace (sum of the six variances) and the
determinant are unchanged. -/
theorem C48_trace_det (tf : TfStamped) (h : NonZero tf.transform) (m : Stamped PoseCov) :
    (mat6 (applied doPoseCovStamped tf m).data.covariance).trace = (mat6 m.data.covariance).trace ∧
    (mat6 (applied doPoseCovStamped tf m).data.covariance).det = (mat6 m.data.covariance).det := by
  have hr : rotMat tf.transform ∈ Matrix.specialOrthogonalGroup (Fin 3) ℝ := fromMsgT_rot h
  have ho : (rotMat tf.transform).transpose * rotMat tf.transform = 1 := by
    have := (Matrix.mem_orthogonalGroup_iff' _ _).1 (Matrix.mem_specialOrthogonalGroup_iff.1 hr).1
    simpa [Matrix.star_eq_conjTranspose, Matrix.conjTranspose_eq_transpose_of_trivial] using this
  have hb : (blockDiag2 (rotMat tf.transform)).transpose * blockDiag2 (rotMat tf.transform) = 1 := by
    have et : (blockDiag2 (rotMat tf.transform)).transpose = blockDiag2 (rotMat tf.transform).transpose := by
      ext i j; simp [blockDiag2, Matrix.transpose_apply, eq_comm]
    rw [et, ← blockDiag2_mul, ho]
    ext i j
    fin_cases i <;> fin_cases j <;> simp [blockDiag2, Matrix.one_apply]
  rw [C48_formula]
  constructor
  · rw [Matrix.mul_assoc, Matrix.trace_mul_comm, Matrix.mul_assoc, hb, Matrix.mul_one]
  · rw [Matrix.det_mul, Matrix.det_mul]
    have := congrArg Matrix.det hb
    rw [Matrix.det_mul, Matrix.det_one] at this
    linear_combination (mat6 m.data.covariance).det * this

/-- A covariance with correlations between position and orientation: symmetric, positive semidefinite
(a rank-one matrix), not diagonal. -/
example : ∃ c : Fin 36 → ℝ, (mat6 c).IsSymm ∧ (mat6 c).PosSemidef ∧ mat6 c 0 5 = 1 := by
  refine ⟨fun _ => 1, ?_, ?_, rfl⟩
  · ext i j; rfl
  · have : mat6 (fun _ => (1 : ℝ)) = Matrix.vecMulVec (fun _ => 1) (star (fun _ : Fin 6 => (1 : ℝ))) := by
      ext i j; simp [mat6, Matrix.vecMulVec_apply]
    rw [this]
    exact Matrix.posSemidef_vecMulVec_self_star _

end Tf2.Geo
