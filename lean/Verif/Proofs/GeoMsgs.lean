import Verif.Spec.GeoMsgs
import Verif.Proofs.Pose
import Verif.Proofs.GetRotation

/-!
# Lemmas about applying transforms to messages
-/
namespace Tf2.Geo

variable {S : Type}

/-! ## values computed -/

noncomputable def pointVal (t : Pose) (v : Vec3 ℝ) : Vec3 ℝ := (fromMsgT t).apply v
noncomputable def vectorVal (t : Pose) (v : Vec3 ℝ) : Vec3 ℝ := (fromMsgT t).basis.mulVec v
noncomputable def poseVal (t : Pose) (p : PoseMsg) : PoseMsg :=
  let r := (fromMsgT t).mul (Xform.ofQuat p.orientation p.position)
  ⟨r.origin, r.getRotation⟩
noncomputable def wrenchVal (t : Pose) (w : Wrench) : Wrench :=
  ⟨vectorVal t w.force, (vectorVal t w.torque).add (t.trans.cross (vectorVal t w.force))⟩
noncomputable def tfVal (t u : Pose) : Pose := toMsgT ((fromMsgT t).mul (fromMsgT u))

/-! ## what is read through the output after the call -/

theorem toMsgPoint_get {out : Ref S (Vec3 ℝ)} (h : out.Lawful) (v : Vec3 ℝ) (s : S) :
    out.get (toMsgPoint v out s) = v := by
  unfold Ref.Lawful at h
  simp [toMsgPoint, Ref.x, Ref.y, Ref.z, h]

theorem doPoint_get {out : Ref S (Vec3 ℝ)} (h : out.Lawful) (inp : Ref S (Vec3 ℝ)) (tf : TfStamped) (s : S) :
    out.get (doPoint inp out tf s) = pointVal tf.transform (inp.get s) := toMsgPoint_get h _ _

theorem doVector_get {out : Ref S (Vec3 ℝ)} (h : out.Lawful) (inp : Ref S (Vec3 ℝ)) (tf : TfStamped) (s : S) :
    out.get (doVector inp out tf s) = vectorVal tf.transform (inp.get s) := by
  unfold Ref.Lawful at h
  simp [doVector, vectorVal, Ref.x, Ref.y, Ref.z, h]

theorem doQuat_get {out : Ref S (Quat ℝ)} (h : out.Lawful) (inp : Ref S (Quat ℝ)) (tf : TfStamped) (s : S) :
    out.get (doQuat inp out tf s) = tf.transform.rot.mul (inp.get s) := h _ _

theorem lawful_position {r : Ref S PoseMsg} (h : r.Lawful) : r.position.Lawful := by
  intro v s; simp only [Ref.position]; rw [h]
theorem lawful_force {r : Ref S Wrench} (h : r.Lawful) : r.force.Lawful := by
  intro v s; simp only [Ref.force]; rw [h]
theorem lawful_torque {r : Ref S Wrench} (h : r.Lawful) : r.torque.Lawful := by
  intro v s; simp only [Ref.torque]; rw [h]
theorem lawful_data {T : Type} {r : Ref S (Stamped T)} (h : r.Lawful) : r.data.Lawful := by
  intro v s; simp only [Ref.data]; rw [h]
theorem lawful_pose {r : Ref S PoseCov} (h : r.Lawful) : r.pose.Lawful := by
  intro v s; simp only [Ref.pose]; rw [h]

/-- `toMsgPose` writes both fields. -/
theorem toMsgPose_get {out : Ref S PoseMsg} (h : out.Lawful) (t : Xform ℝ) (s : S) :
    out.get (toMsgPose t out s) = ⟨t.origin, t.getRotation⟩ := by
  unfold Ref.Lawful at h
  simp [toMsgPose, toMsgPoint, Ref.x, Ref.y, Ref.z, Ref.position, Ref.orientation, h]

theorem doPose_get {out : Ref S PoseMsg} (h : out.Lawful) (inp : Ref S PoseMsg) (tf : TfStamped) (s : S) :
    out.get (doPose inp out tf s) = poseVal tf.transform (inp.get s) := toMsgPose_get h _ _

theorem same_force {i o : Ref S Wrench} (h : i.SameOrApart o) : i.force.SameOrApart o.force := by
  rcases h with rfl | h
  · exact Or.inl rfl
  · right; intro v s; simp only [Ref.force]; rw [h]

theorem doWrench_get {inp out : Ref S Wrench} (h : out.Lawful) (ha : inp.SameOrApart out) (tf : TfStamped)
    (s : S) : out.get (doWrench inp out tf s) = wrenchVal tf.transform (inp.get s) := by
  have e1 : inp.torque.get (doVector inp.force out.force tf s) = inp.torque.get s := by
    unfold Ref.Lawful at h
    rcases ha with rfl | ha
    · simp [doVector, Ref.torque, Ref.force, Ref.x, Ref.y, Ref.z, h]
    · unfold Ref.Apart at ha
      simp [doVector, Ref.torque, Ref.force, Ref.x, Ref.y, Ref.z, ha]
  have e2 := doVector_get (lawful_force h) inp.force tf s
  generalize hs1 : doVector inp.force out.force tf s = s1 at e1 e2
  have e3 := doVector_get (lawful_torque h) inp.torque tf s1
  have e4 : out.force.get (doVector inp.torque out.torque tf s1) = out.force.get s1 := by
    unfold Ref.Lawful at h
    simp [doVector, Ref.torque, Ref.force, Ref.x, Ref.y, Ref.z, h]
  generalize hs2 : doVector inp.torque out.torque tf s1 = s2 at e3 e4
  rw [e1] at e3; rw [e2] at e4
  unfold Ref.Lawful at h
  have e5 : out.get s2 = ⟨vectorVal tf.transform (inp.get s).force, vectorVal tf.transform (inp.get s).torque⟩ := by
    cases hg : out.get s2
    simp only [Ref.torque, Ref.force, hg] at e3 e4
    rw [e3, e4]
  simp only [doWrench]
  rw [hs1, hs2]
  simp [Ref.torque, Ref.force, Ref.x, Ref.y, Ref.z, h, e5, wrenchVal, Vec3.add]

/-! ## headers -/

theorem setHeader_get {T : Type} {out : Ref S (Stamped T)} (h : out.Lawful) (tf : TfStamped) (s : S) :
    out.get (setHeader out.header tf s) =
      ⟨⟨(out.get s).header.seq, tf.header.stamp, tf.header.frame⟩, (out.get s).data⟩ := by
  unfold Ref.Lawful at h
  simp [setHeader, Ref.header, Ref.stamp, Ref.frame, h]

/-! ## what is written -/

/-- A memory change made of writes through `o` only. -/
def OnlyWrites {T : Type} (o : Ref S T) (f : S → S) : Prop :=
  ∀ {U : Type} (r : Ref S U), r.Apart o → ∀ s, r.get (f s) = r.get s

theorem only_toMsgPoint (v : Vec3 ℝ) (o : Ref S (Vec3 ℝ)) : OnlyWrites o (toMsgPoint v o) := by
  intro U r h s; unfold Ref.Apart at h; simp [toMsgPoint, Ref.x, Ref.y, Ref.z, h]
theorem only_doVector (i o : Ref S (Vec3 ℝ)) (tf : TfStamped) : OnlyWrites o (doVector i o tf) := by
  intro U r h s; unfold Ref.Apart at h; simp [doVector, Ref.x, Ref.y, Ref.z, h]
theorem only_toMsgPose (t : Xform ℝ) (o : Ref S PoseMsg) : OnlyWrites o (toMsgPose t o) := by
  intro U r h s; unfold Ref.Apart at h
  simp [toMsgPose, toMsgPoint, Ref.x, Ref.y, Ref.z, Ref.position, Ref.orientation, h]
theorem only_doWrench (i o : Ref S Wrench) (tf : TfStamped) : OnlyWrites o (doWrench i o tf) := by
  intro U r h s; unfold Ref.Apart at h
  simp [doWrench, doVector, Ref.x, Ref.y, Ref.z, Ref.force, Ref.torque, h]
theorem only_doTf (i o t : Ref S TfStamped) : OnlyWrites o (doTf i o t) := by
  intro U r h s; unfold Ref.Apart at h
  simp [doTf, Ref.tfHeader, Ref.tfTransform, Ref.stamp, Ref.frame, h]
theorem only_doPoseCov (i o : Ref S (Stamped PoseCov)) (tf : TfStamped) : OnlyWrites o (doPoseCovStamped i o tf) := by
  intro U r h s; unfold Ref.Apart at h
  simp [doPoseCovStamped, toMsgPose, toMsgPoint, setHeader, Ref.x, Ref.y, Ref.z, Ref.position, Ref.orientation,
    Ref.data, Ref.header, Ref.stamp, Ref.frame, Ref.pose, Ref.covariance, h]

theorem apart_data {T U : Type} {r : Ref S U} {o : Ref S (Stamped T)} (h : r.Apart o) : r.Apart o.data := by
  intro v s; simp only [Ref.data]; rw [h]
theorem only_setHeader {T : Type} (o : Ref S (Stamped T)) (tf : TfStamped) : OnlyWrites o (setHeader o.header tf) := by
  intro U r h s; unfold Ref.Apart at h
  simp [setHeader, Ref.header, Ref.stamp, Ref.frame, h]

theorem only_stamped {T : Type} {o : Ref S (Stamped T)} {f : S → S} (tf : TfStamped) (h : OnlyWrites o.data f) :
    OnlyWrites o (fun s => setHeader o.header tf (f s)) := by
  intro U r hr s
  rw [only_setHeader o tf r hr, h r (apart_data hr)]

/-- Writing the datum leaves the header alone. -/
theorem header_of_data {T : Type} {o : Ref S (Stamped T)} (h : o.Lawful) :
    (o.header).Apart o.data := by
  intro v s; simp only [Ref.header, Ref.data]; rw [h]

theorem stamped_get {T : Type} {o : Ref S (Stamped T)} (h : o.Lawful) {f : S → S} (tf : TfStamped)
    (hf : OnlyWrites o.data f) (s : S) :
    o.get (setHeader o.header tf (f s)) =
      ⟨⟨(o.get s).header.seq, tf.header.stamp, tf.header.frame⟩, o.data.get (f s)⟩ := by
  rw [setHeader_get h]
  have := hf o.header (header_of_data h) s
  simp only [Ref.header] at this
  rw [this]; rfl

theorem doTf_get {inp out tf : Ref S TfStamped} (h : out.Lawful) (ht : tf.SameOrApart out) (s : S) :
    out.get (doTf inp out tf s) =
      ⟨⟨(out.get s).header.seq, (tf.get s).header.stamp, (tf.get s).header.frame⟩, (out.get s).child,
        tfVal (tf.get s).transform (inp.get s).transform⟩ := by
  unfold Ref.Lawful at h
  rcases ht with rfl | ht
  · simp [doTf, Ref.tfHeader, Ref.tfTransform, Ref.stamp, Ref.frame, h, tfVal]
  · unfold Ref.Apart at ht
    simp [doTf, Ref.tfHeader, Ref.tfTransform, Ref.stamp, Ref.frame, h, ht, tfVal]

theorem doPoseCov_get {inp out : Ref S (Stamped PoseCov)} (h : out.Lawful) (ha : inp.SameOrApart out)
    (tf : TfStamped) (s : S) :
    out.get (doPoseCovStamped inp out tf s) =
      ⟨⟨(out.get s).header.seq, tf.header.stamp, tf.header.frame⟩,
        poseVal tf.transform (inp.get s).data.pose,
        transformCovariance (inp.get s).data.covariance (fromMsgT tf.transform)⟩ := by
  unfold Ref.Lawful at h
  rcases ha with rfl | ha
  · simp [doPoseCovStamped, toMsgPose, toMsgPoint, setHeader, Ref.x, Ref.y, Ref.z, Ref.position, Ref.orientation,
      Ref.data, Ref.header, Ref.stamp, Ref.frame, Ref.pose, Ref.covariance, h, poseVal]
  · unfold Ref.Apart at ha
    simp [doPoseCovStamped, toMsgPose, toMsgPoint, setHeader, Ref.x, Ref.y, Ref.z, Ref.position, Ref.orientation,
      Ref.data, Ref.header, Ref.stamp, Ref.frame, Ref.pose, Ref.covariance, h, ha, poseVal]

/-! ## geometry of the values -/

theorem NonZero.ne {t : Pose} (h : NonZero t) : t.rot.length2 ≠ 0 := Quat.length2_ne_zero h

theorem fromMsgT_rot {t : Pose} (h : NonZero t) : (fromMsgT t).basis.IsRotation := Mat3.ofQuat_isRotation _ h.ne

theorem mul_isRotation {a b : Mat3 ℝ} (ha : a.IsRotation) (hb : b.IsRotation) : (a.mul b).IsRotation := by
  unfold Mat3.IsRotation at *
  rw [Mat3.toM_mul]; exact mul_mem ha hb

theorem unit_nonzero {q : Quat ℝ} (h : q.Unit) : q ≠ ⟨0, 0, 0, 0⟩ := by
  rintro rfl; norm_num [Quat.Unit] at h

/-- Reading back a rotation through its message. -/
theorem fromMsg_toMsg {x : Xform ℝ} (h : x.basis.IsRotation) : fromMsgT (toMsgT x) = x := by
  unfold fromMsgT toMsgT Xform.ofQuat Xform.getRotation
  rw [(Mat3.getRotation_spec h).2]

theorem fromMsg_tfVal {t u : Pose} (ht : NonZero t) (hu : NonZero u) :
    fromMsgT (tfVal t u) = (fromMsgT t).mul (fromMsgT u) :=
  fromMsg_toMsg (mul_isRotation (fromMsgT_rot ht) (fromMsgT_rot hu))

theorem tfVal_nonzero {t u : Pose} (ht : NonZero t) (hu : NonZero u) : NonZero (tfVal t u) :=
  unit_nonzero (Mat3.getRotation_spec (mul_isRotation (fromMsgT_rot ht) (fromMsgT_rot hu))).1

theorem pointVal_toH {t : Pose} (h : t.rot.Unit) (v : Vec3 ℝ) : (pointVal t v).toH = motion t v := by
  have e : pointVal t v = ((Mat3.ofQuat t.rot).mulVec v).add t.trans := rfl
  rw [e, Mat3.ofQuat_mulVec_unit _ h]
  unfold motion
  rw [← Quat.toH_rotate]
  apply Quaternion.ext <;> first | exact (add_zero (0 : ℝ)).symm | rfl

theorem vectorVal_toH {t : Pose} (h : t.rot.Unit) (v : Vec3 ℝ) : (vectorVal t v).toH = turn t v := by
  have e : vectorVal t v = (Mat3.ofQuat t.rot).mulVec v := rfl
  rw [e, Mat3.ofQuat_mulVec_unit _ h, Quat.toH_rotate]; rfl

theorem apply_mul (a b : Xform ℝ) (v : Vec3 ℝ) : (a.mul b).apply v = a.apply (b.apply v) := by
  ext <;> simp [Xform.mul, Xform.apply, Mat3.mul, Mat3.tdotx, Mat3.tdoty, Mat3.tdotz, Vec3.dot] <;> ring

theorem basis_mul (a b : Xform ℝ) (v : Vec3 ℝ) :
    (a.mul b).basis.mulVec v = a.basis.mulVec (b.basis.mulVec v) := by
  ext <;> simp [Xform.mul, Mat3.mulVec, Mat3.mul, Mat3.tdotx, Mat3.tdoty, Mat3.tdotz, Vec3.dot] <;> ring

theorem xmul_assoc (a b c : Xform ℝ) : (a.mul b).mul c = a.mul (b.mul c) := by
  ext <;> simp [Xform.mul, Xform.apply, Mat3.mul, Mat3.tdotx, Mat3.tdoty, Mat3.tdotz, Vec3.dot] <;> ring

theorem pointVal_comp {t u : Pose} (ht : NonZero t) (hu : NonZero u) (v : Vec3 ℝ) :
    pointVal (tfVal t u) v = pointVal t (pointVal u v) := by
  unfold pointVal; rw [fromMsg_tfVal ht hu, apply_mul]

theorem vectorVal_comp {t u : Pose} (ht : NonZero t) (hu : NonZero u) (v : Vec3 ℝ) :
    vectorVal (tfVal t u) v = vectorVal t (vectorVal u v) := by
  unfold vectorVal; rw [fromMsg_tfVal ht hu, basis_mul]

theorem poseVal_comp {t u : Pose} (ht : NonZero t) (hu : NonZero u) {p : PoseMsg}
    (hp : p.orientation ≠ ⟨0, 0, 0, 0⟩) :
    poseVal (tfVal t u) p = poseVal t (poseVal u p) := by
  have hr : ((fromMsgT u).mul (Xform.ofQuat p.orientation p.position)).basis.IsRotation :=
    mul_isRotation (fromMsgT_rot hu) (Mat3.ofQuat_isRotation _ (Quat.length2_ne_zero hp))
  have e := fromMsg_toMsg hr
  unfold fromMsgT toMsgT at e
  unfold poseVal
  rw [fromMsg_tfVal ht hu]
  simp only [fromMsgT] at e ⊢
  rw [e, xmul_assoc]

theorem tfVal_assoc {t u v : Pose} (ht : NonZero t) (hu : NonZero u) (hv : NonZero v) :
    tfVal (tfVal t u) v = tfVal t (tfVal u v) := by
  unfold tfVal
  have h1 := fromMsg_tfVal ht hu
  have h2 := fromMsg_tfVal hu hv
  unfold tfVal at h1 h2
  rw [h1, h2, xmul_assoc]

/-- A rotation commutes with the cross product. -/
theorem cross_rot {m : Mat3 ℝ} (h : m.IsRotation) (a b : Vec3 ℝ) :
    (m.mulVec a).cross (m.mulVec b) = m.mulVec (a.cross b) := by
  obtain ⟨q, hq, rfl⟩ : ∃ q : Quat ℝ, q.Unit ∧ Mat3.ofQuat q = m :=
    ⟨m.getRotation, Mat3.getRotation_spec h⟩
  simp only [Mat3.ofQuat_mulVec_unit q hq]
  have hu : q.x ^ 2 + q.y ^ 2 + q.z ^ 2 + q.w ^ 2 = 1 := hq
  have key : (q.rotate a).cross (q.rotate b) =
      (q.rotate (a.cross b)).scale (q.x ^ 2 + q.y ^ 2 + q.z ^ 2 + q.w ^ 2) := by
    ext <;> simp only [Vec3.cross, Quat.rotate, Quat.mul, Quat.mulVec, Quat.inverse, Vec3.scale] <;> ring
  rw [key, hu]; ext <;> simp [Vec3.scale]

theorem wrenchVal_comp {t u : Pose} (ht : NonZero t) (hu : NonZero u) (w : Wrench) :
    wrenchVal (tfVal t u) w = wrenchVal t (wrenchVal u w) := by
  have hf := vectorVal_comp ht hu w.force
  have hτ := vectorVal_comp ht hu w.torque
  have hc := cross_rot (fromMsgT_rot ht) u.trans (vectorVal u w.force)
  have ho : (tfVal t u).trans = ((fromMsgT t).basis.mulVec u.trans).add t.trans := rfl
  have hadd : ∀ a b : Vec3 ℝ, (fromMsgT t).basis.mulVec (a.add b) =
      ((fromMsgT t).basis.mulVec a).add ((fromMsgT t).basis.mulVec b) := by
    intro a b; ext <;> simp [Mat3.mulVec, Vec3.dot, Vec3.add] <;> ring
  unfold wrenchVal
  simp only [hf, hτ, ho]
  have e : vectorVal t ((vectorVal u w.torque).add (u.trans.cross (vectorVal u w.force))) =
      (vectorVal t (vectorVal u w.torque)).add
        (((fromMsgT t).basis.mulVec u.trans).cross (vectorVal t (vectorVal u w.force))) := by
    unfold vectorVal at hc ⊢
    rw [hadd, hc]
  rw [e]
  ext <;> simp [Vec3.add, Vec3.cross] <;> ring

end Tf2.Geo
