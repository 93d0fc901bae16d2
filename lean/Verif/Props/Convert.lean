import Verif.Proofs.Convert

/-!
# Properties of conversions (C63) and of `doTransform` on library types (C64)
-/
namespace Tf2.Geo

/-! ## The assumption about the libraries is met -/

/-- tf2's own matrix class, and the formulas of Eigen and KDL, satisfy the assumption `Sound`. -/
theorem C63_libraries_sound : Lin.lib.Sound ∧ (RotLib.mk eigenMatrix Mat3.getRotation).Sound ∧
    (RotLib.mk kdlMatrix Mat3.getRotation).Sound :=
  ⟨lin_sound, sound_of_matrix (fun _ h => eigenMatrix_eq h) rfl, sound_of_matrix (fun _ h => kdlMatrix_eq h) rfl⟩

/-! ## C63: conversions lose nothing -/

/-- **C63, vectors, quaternions, twists, wrenches.** Every pair of conversions restores the value exactly,
whatever the object written to held before (and, where `toMsg` fills an existing message, whatever that
held). -/
theorem C63_values :
    (∀ v a b, Lin.fromMsgVector (Lin.toMsgVector v a) b = v) ∧
    (∀ x a b, Lin.fromMsgVectorStamped (Lin.toMsgVectorStamped x a) b = x) ∧
    (∀ q a b, Lin.fromMsgQuat (Lin.toMsgQuat q a) b = q) ∧
    (∀ x a b, Lin.fromMsgQuatStamped (Lin.toMsgQuatStamped x a) b = x) ∧
    (∀ v a b, Eigen.fromMsgVector (Eigen.toMsgVector v a) b = v) ∧
    (∀ q a b, Eigen.fromMsgQuat (Eigen.toMsgQuat q a) b = q) ∧
    KeepsValue Eigen.toMsgVectorStamped Eigen.fromMsgVectorStamped any ∧
    KeepsValue Eigen.toMsgQuatStamped Eigen.fromMsgQuatStamped any ∧
    KeepsValue Eigen.toMsgTwist Eigen.fromMsgTwist any ∧
    KeepsValue Kdl.toMsgVectorStamped Kdl.fromMsgVectorStamped any ∧
    KeepsValue Kdl.toMsgTwistStamped Kdl.fromMsgTwistStamped any ∧
    KeepsValue Kdl.toMsgWrenchStamped Kdl.fromMsgWrenchStamped any ∧
    KeepsValue Bullet.toMsgVectorStamped Bullet.fromMsgVectorStamped any := by
  refine ⟨fun _ _ _ => rfl, fun _ _ _ => rfl, fun _ _ _ => rfl, fun _ _ _ => rfl, fun _ _ _ => rfl,
    fun _ _ _ => rfl, fun _ _ _ => rfl, fun _ _ _ => rfl, fun v old _ => ?_, fun _ _ _ => rfl, fun _ _ _ => rfl,
    fun _ _ _ => rfl, fun _ _ _ => rfl⟩
  funext i
  fin_cases i <;> rfl

/-- **C63, messages.** The other way round every field of the message is restored, except the sequence
number, which the library types do not carry. -/
theorem C63_messages :
    (∀ m a b, Lin.toMsgVector (Lin.fromMsgVector m a) b = m) ∧
    (∀ m a b, sameButSeq Eq (Lin.toMsgVectorStamped (Lin.fromMsgVectorStamped m a) b) m) ∧
    (∀ m a b, Lin.toMsgQuat (Lin.fromMsgQuat m a) b = m) ∧
    (∀ m a b, sameButSeq Eq (Lin.toMsgQuatStamped (Lin.fromMsgQuatStamped m a) b) m) ∧
    (∀ m a b, Eigen.toMsgVector (Eigen.fromMsgVector m a) b = m) ∧
    (∀ m a b, Eigen.toMsgQuat (Eigen.fromMsgQuat m a) b = m) ∧
    KeepsMsg Eigen.toMsgVectorStamped Eigen.fromMsgVectorStamped any (sameButSeq Eq) ∧
    KeepsMsg Eigen.toMsgQuatStamped Eigen.fromMsgQuatStamped any (sameButSeq Eq) ∧
    KeepsMsg Eigen.toMsgTwist Eigen.fromMsgTwist any Eq ∧
    KeepsMsg Kdl.toMsgVectorStamped Kdl.fromMsgVectorStamped any (sameButSeq Eq) ∧
    KeepsMsg Kdl.toMsgTwistStamped Kdl.fromMsgTwistStamped any (sameButSeq Eq) ∧
    KeepsMsg Kdl.toMsgWrenchStamped Kdl.fromMsgWrenchStamped any (sameButSeq Eq) ∧
    KeepsMsg Bullet.toMsgVectorStamped Bullet.fromMsgVectorStamped any (sameButSeq Eq) := by
  refine ⟨fun _ _ _ => rfl, fun _ _ _ => ⟨rfl, rfl, rfl⟩, fun _ _ _ => rfl, fun _ _ _ => ⟨rfl, rfl, rfl⟩,
    fun _ _ _ => rfl, fun _ _ _ => rfl, fun _ _ _ => ⟨rfl, rfl, rfl⟩, fun _ _ _ => ⟨rfl, rfl, rfl⟩,
    fun m old _ => ?_, fun _ _ _ => ⟨rfl, rfl, rfl⟩, fun _ _ _ => ⟨rfl, rfl, rfl⟩,
    fun _ _ _ => ⟨rfl, rfl, rfl⟩, fun _ _ _ => ⟨rfl, rfl, rfl⟩⟩
  rfl

theorem eigen_toMsgPose (L : RotLib) (x : Xform ℝ) :
    (Eigen.toMsgPose L x).position = x.origin ∧ 0 ≤ (Eigen.toMsgPose L x).orientation.w ∧
    ((Eigen.toMsgPose L x).orientation = L.toQuat x.basis ∨
      (Eigen.toMsgPose L x).orientation = (L.toQuat x.basis).neg) := by
  unfold Eigen.toMsgPose
  by_cases h : (L.toQuat x.basis).w < 0
  · show (if (L.toQuat x.basis).w < 0 then _ else _ : PoseMsg).position = _ ∧
      0 ≤ (if (L.toQuat x.basis).w < 0 then _ else _ : PoseMsg).orientation.w ∧
      ((if (L.toQuat x.basis).w < 0 then _ else _ : PoseMsg).orientation = _ ∨
       (if (L.toQuat x.basis).w < 0 then _ else _ : PoseMsg).orientation = _)
    rw [if_pos h]
    refine ⟨rfl, ?_, Or.inr ?_⟩
    · show 0 ≤ (L.toQuat x.basis).w * -1
      linarith
    · ext <;> simp [Quat.neg]
  · show (if (L.toQuat x.basis).w < 0 then _ else _ : PoseMsg).position = _ ∧
      0 ≤ (if (L.toQuat x.basis).w < 0 then _ else _ : PoseMsg).orientation.w ∧
      ((if (L.toQuat x.basis).w < 0 then _ else _ : PoseMsg).orientation = _ ∨
       (if (L.toQuat x.basis).w < 0 then _ else _ : PoseMsg).orientation = _)
    rw [if_neg h]
    exact ⟨rfl, not_lt.1 h, Or.inl rfl⟩

/-- **C63, rigid transforms.** A rigid transform of any of the libraries, converted to a pose or a transform
message and back, is restored exactly; stamp and frame too. -/
theorem C63_rigid {L : RotLib} (hL : L.Sound) :
    KeepsValue (Eigen.toMsgPose L) (Eigen.fromMsgPose L) rigid ∧
    KeepsValue (Eigen.toMsgPoseStamped L) (Eigen.fromMsgPoseStamped L) rigidStamped ∧
    KeepsValue (Kdl.toMsgPose L) (Kdl.fromMsgPose L) rigid ∧
    KeepsValue (Kdl.toMsgPoseStamped L) (Kdl.fromMsgPoseStamped L) rigidStamped ∧
    (∀ x, rigid x → Eigen.toEigen L (Eigen.ofEigen L x).transform = x) ∧
    (∀ x, rigid x → Kdl.toKdl L (Kdl.ofKdl L x).transform = x) ∧
    (∀ x a b, rigid x → Lin.fromMsgPoseV (Lin.toMsgPoseV x a) b = x) ∧
    (∀ x a b, rigidStamped x → Lin.fromMsgPoseStamped (Lin.toMsgPoseStamped x a) b = x) ∧
    (∀ x b, rigidStamped x → Lin.fromMsgTfStamped (Lin.toMsgTfStamped x) b = x) := by
  have hE : ∀ x old, rigid x → Eigen.fromMsgPose L (Eigen.toMsgPose L x) old = x := by
    intro x old hx
    obtain ⟨h1, _, h3⟩ := eigen_toMsgPose L x
    obtain ⟨hu, hm⟩ := hL.toQuat _ hx
    have hq : L.ofQuat (Eigen.toMsgPose L x).orientation = x.basis := by
      rcases h3 with h | h <;> rw [h]
      · exact hm
      · rw [hL.eq hu.neg, Mat3.ofQuat_neg, ← hL.eq hu, hm]
    show Xform.mk (L.ofQuat (Eigen.toMsgPose L x).orientation) (Eigen.toMsgPose L x).position = x
    rw [hq, h1]
  have hK : ∀ x old, rigid x → Kdl.fromMsgPose L (Kdl.toMsgPose L x) old = x := by
    intro x old hx
    show Xform.mk (L.ofQuat (L.toQuat x.basis)) x.origin = x
    rw [(hL.toQuat _ hx).2]
  have hl : ∀ x : Xform ℝ, rigid x → Xform.mk (Mat3.ofQuat x.basis.getRotation) x.origin = x := by
    intro x hx
    rw [(Mat3.getRotation_spec hx).2]
  refine ⟨hE, fun x old hx => ?_, hK, fun x old hx => ?_, fun x hx => ?_, fun x hx => ?_, fun x a b hx => hl x hx,
    fun x a b hx => ?_, fun x b hx => ?_⟩
  · show TStamped.mk (Eigen.fromMsgPose L (Eigen.toMsgPose L x.data) old.data) x.stamp x.frame = x
    rw [hE _ _ hx]
  · show TStamped.mk (Kdl.fromMsgPose L (Kdl.toMsgPose L x.data) old.data) x.stamp x.frame = x
    rw [hK _ _ hx]
  · show Xform.mk (L.ofQuat (L.toQuat x.basis)) x.origin = x
    rw [(hL.toQuat _ hx).2]
  · show Xform.mk (L.ofQuat (L.toQuat x.basis)) x.origin = x
    rw [(hL.toQuat _ hx).2]
  · show TStamped.mk (Xform.mk (Mat3.ofQuat x.data.basis.getRotation) x.data.origin) x.stamp x.frame = x
    rw [hl _ hx]
  · show TStamped.mk (Xform.mk (Mat3.ofQuat x.data.basis.getRotation) x.data.origin) x.stamp x.frame = x
    rw [hl _ hx]

/-- **C63, pose messages.** A pose message with a unit quaternion comes back as the same pose, up to the sign
of the quaternion. -/
theorem C63_poses {L : RotLib} (hL : L.Sound) :
    KeepsMsg (Eigen.toMsgPose L) (Eigen.fromMsgPose L) unitPose samePose ∧
    KeepsMsg (Eigen.toMsgPoseStamped L) (Eigen.fromMsgPoseStamped L) unitPoseStamped (sameButSeq samePose) ∧
    KeepsMsg (Kdl.toMsgPose L) (Kdl.fromMsgPose L) unitPose samePose ∧
    KeepsMsg (Kdl.toMsgPoseStamped L) (Kdl.fromMsgPoseStamped L) unitPoseStamped (sameButSeq samePose) ∧
    (∀ m a b, unitPose m → samePose (Lin.toMsgPoseV (Lin.fromMsgPoseV m a) b) m) ∧
    (∀ m a b, unitPoseStamped m → sameButSeq samePose (Lin.toMsgPoseStamped (Lin.fromMsgPoseStamped m a) b) m) := by
  have hE : ∀ m old, unitPose m → samePose (Eigen.toMsgPose L (Eigen.fromMsgPose L m old)) m := by
    intro m old hm
    obtain ⟨h1, _, h3⟩ := eigen_toMsgPose L (Eigen.fromMsgPose L m old)
    refine ⟨h1, ?_⟩
    have e : (Eigen.fromMsgPose L m old).basis = Mat3.ofQuat m.orientation := hL.eq (q := m.orientation) hm
    rw [e] at h3
    have hneg : ∀ q : Quat ℝ, q.neg.neg = q := by intro q; ext <;> simp [Quat.neg]
    rcases h3 with h | h <;> rcases hL.back (q := m.orientation) hm with h' | h' <;> rw [h, h']
    · exact Or.inl rfl
    · exact Or.inr rfl
    · exact Or.inr rfl
    · exact Or.inl (hneg _)
  have hK : ∀ m old, unitPose m → samePose (Kdl.toMsgPose L (Kdl.fromMsgPose L m old)) m := by
    intro m old hm
    refine ⟨rfl, ?_⟩
    show L.toQuat (L.ofQuat m.orientation) = _ ∨ L.toQuat (L.ofQuat m.orientation) = _
    rw [hL.eq (q := m.orientation) hm]
    exact hL.back hm
  have hl : ∀ m a b, unitPose m → samePose (Lin.toMsgPoseV (Lin.fromMsgPoseV m a) b) m := by
    intro m a b hm
    exact ⟨rfl, Mat3.getRotation_ofQuat (q := m.orientation) hm⟩
  exact ⟨hE, fun m old hm => ⟨rfl, rfl, hE m.data old.data hm⟩, hK, fun m old hm => ⟨rfl, rfl, hK m.data old.data hm⟩, hl,
    fun m a b hm => ⟨rfl, rfl, hl m.data Xform.identity b.data hm⟩⟩

/-- **C63, canonical quaternion.** `tf2_eigen` always writes a quaternion with `w ≥ 0`; so a unit quaternion
with `w > 0` survives the round trip unchanged, and the two quaternions of one rotation give the same
message. -/
theorem C63_eigen_sign {L : RotLib} (hL : L.Sound) :
    (∀ x, 0 ≤ (Eigen.toMsgPose L x).orientation.w) ∧
    (∀ m old, unitPose m → 0 < m.orientation.w → Eigen.toMsgPose L (Eigen.fromMsgPose L m old) = m) ∧
    (∀ m old, unitPose m → Eigen.toMsgPose L (Eigen.fromMsgPose L ⟨m.position, m.orientation.neg⟩ old) =
      Eigen.toMsgPose L (Eigen.fromMsgPose L m old)) := by
  refine ⟨fun x => (eigen_toMsgPose L x).2.1, fun m old hm hw => ?_, fun m old hm => ?_⟩
  · obtain ⟨h1, h2⟩ := (C63_poses hL).1 m old hm
    have h0 := (eigen_toMsgPose L (Eigen.fromMsgPose L m old)).2.1
    rcases h2 with h | h
    · exact PoseMsg.ext h1 h
    · rw [h] at h0
      simp only [Quat.neg] at h0
      linarith
  · have e : Eigen.fromMsgPose L ⟨m.position, m.orientation.neg⟩ old = Eigen.fromMsgPose L m old := by
      show Xform.mk (L.ofQuat m.orientation.neg) m.position = Xform.mk (L.ofQuat m.orientation) m.position
      rw [hL.eq (Quat.Unit.neg hm), hL.eq (q := m.orientation) hm, Mat3.ofQuat_neg]
    rw [e]

/-- **C63, between libraries.** `tf2::convert` from one library's type to another's carries a rigid transform
(and a point, a twist ...) over exactly; a message converted to a type is what `fromMsg` makes of it; and
between objects of one type it is assignment, also of an object to itself. -/
theorem C63_convert {L K : RotLib} (hL : L.Sound) (hK : K.Sound) :
    (∀ x old, rigid x →
      convertTypes ⟨Eigen.toMsgPose L, Eigen.fromMsgPose L⟩ ⟨Kdl.toMsgPose K, Kdl.fromMsgPose K⟩ x old = x ∧
      convertTypes ⟨Kdl.toMsgPose K, Kdl.fromMsgPose K⟩ ⟨Eigen.toMsgPose L, Eigen.fromMsgPose L⟩ x old = x) ∧
    (∀ x old, rigidStamped x →
      convertTypes ⟨Eigen.toMsgPoseStamped L, Eigen.fromMsgPoseStamped L⟩
        ⟨Kdl.toMsgPoseStamped K, Kdl.fromMsgPoseStamped K⟩ x old = x ∧
      convertTypes ⟨Kdl.toMsgPoseStamped K, Kdl.fromMsgPoseStamped K⟩
        ⟨Eigen.toMsgPoseStamped L, Eigen.fromMsgPoseStamped L⟩ x old = x) ∧
    (∀ x old,
      convertTypes ⟨Eigen.toMsgVectorStamped, Eigen.fromMsgVectorStamped⟩
        ⟨Kdl.toMsgVectorStamped, Kdl.fromMsgVectorStamped⟩ x old = x ∧
      convertTypes ⟨Kdl.toMsgVectorStamped, Kdl.fromMsgVectorStamped⟩
        ⟨Bullet.toMsgVectorStamped, Bullet.fromMsgVectorStamped⟩ x old = x ∧
      convertTypes ⟨Bullet.toMsgVectorStamped, Bullet.fromMsgVectorStamped⟩
        ⟨Eigen.toMsgVectorStamped, Eigen.fromMsgVectorStamped⟩ x old = x) ∧
    (∀ m a b, unitPose m →
      samePose (convertToMsg ⟨Kdl.toMsgPose K, Kdl.fromMsgPose K⟩
        (convertFromMsg ⟨Kdl.toMsgPose K, Kdl.fromMsgPose K⟩ m a) b) m) ∧
    (∀ {S A : Type} (a1 a2 : Ref S A) (s : S), a2.Lawful →
      a2.get (convertSame a1 a2 false s) = a1.get s ∧ a1.get (convertSame a1 a1 true s) = a1.get s) := by
  have key : ∀ {x : Xform ℝ}, rigid x → ∀ q : Quat ℝ, q.Unit → (∀ {M : RotLib}, M.Sound → M.ofQuat q = x.basis →
      ∀ {N : RotLib}, N.Sound → N.ofQuat q = x.basis) := by
    intro x _ q hq M hM hm N hN
    rw [hN.eq hq, ← hM.eq hq, hm]
  have h1 : ∀ x old, rigid x → Kdl.fromMsgPose K (Eigen.toMsgPose L x) old = x := by
    intro x old hx
    obtain ⟨e1, _, e3⟩ := eigen_toMsgPose L x
    obtain ⟨hu, hm⟩ := hL.toQuat _ hx
    show Xform.mk (K.ofQuat (Eigen.toMsgPose L x).orientation) (Eigen.toMsgPose L x).position = x
    have : K.ofQuat (Eigen.toMsgPose L x).orientation = x.basis := by
      rcases e3 with h | h <;> rw [h]
      · exact key hx _ hu hL hm hK
      · rw [hK.eq hu.neg, Mat3.ofQuat_neg, ← hL.eq hu, hm]
    rw [this, e1]
  have h2 : ∀ x old, rigid x → Eigen.fromMsgPose L (Kdl.toMsgPose K x) old = x := by
    intro x old hx
    obtain ⟨hu, hm⟩ := hK.toQuat _ hx
    show Xform.mk (L.ofQuat (K.toQuat x.basis)) x.origin = x
    rw [key hx _ hu hK hm hL]
  refine ⟨fun x old hx => ⟨h1 x old hx, h2 x old hx⟩, fun x old hx => ⟨?_, ?_⟩,
    fun x old => ⟨rfl, rfl, rfl⟩, fun m a b hm => (C63_poses hK).2.2.1 m a hm, fun a1 a2 s h => ⟨?_, rfl⟩⟩
  · show TStamped.mk (Kdl.fromMsgPose K (Eigen.toMsgPose L x.data) old.data) x.stamp x.frame = x
    rw [h1 _ _ hx]
  · show TStamped.mk (Eigen.fromMsgPose L (Kdl.toMsgPose K x.data) old.data) x.stamp x.frame = x
    rw [h2 _ _ hx]
  · exact h _ _

/-- The hypotheses are met: a half turn about (2, 3, 6)/7 with an offset is rigid. -/
noncomputable def exXform : Xform ℝ := Xform.ofQuat ⟨2/7, 3/7, 6/7, 0⟩ ⟨1, 2, 3⟩

example : rigid exXform ∧ unitPose ⟨⟨1, 2, 3⟩, ⟨2/7, 3/7, 6/7, 0⟩⟩ :=
  ⟨Mat3.ofQuat_isRotation _ (by norm_num [Quat.length2, Quat.dot]), by norm_num [unitPose, Quat.Unit]⟩

/-- **Finding.** Converting a `tf2::Stamped<Transform>` to a `PoseWithCovarianceStamped` leaves the
covariance (and the sequence number) the output message had: it is not reset. -/
theorem C63_covariance_finding (x : TStamped (Xform ℝ)) (out : Stamped PoseCov) :
    (Lin.toMsgPoseCovStamped x out).data.covariance = out.data.covariance ∧
    (Lin.toMsgPoseCovStamped x out).header.seq = out.header.seq ∧
    (Lin.toMsgPoseCovStamped x out).data.pose = Lin.toMsgPoseV x.data out.data.pose := ⟨rfl, rfl, rfl⟩

/-! ## C64: every library transforms alike -/

theorem toEigen_eq {L : RotLib} (hL : L.Sound) {t : Pose} (h : t.rot.Unit) : Eigen.toEigen L t = fromMsgT t := by
  show Xform.mk _ _ = Xform.mk _ _
  rw [hL.eq h]
theorem toKdl_eq {L : RotLib} (hL : L.Sound) {t : Pose} (h : t.rot.Unit) : Kdl.toKdl L t = fromMsgT t := by
  show Xform.mk (L.ofQuat t.rot) _ = Xform.mk _ _
  rw [hL.eq h]
theorem toBullet_eq {L : RotLib} (hL : L.Sound) {t : Pose} (h : t.rot.Unit) : Bullet.toBullet L t = fromMsgT t := by
  show Xform.mk (L.ofQuat t.rot) _ = Xform.mk _ _
  rw [hL.eq h]

/-- **C64, points.** A `PointStamped` converted to a stamped vector of Eigen, KDL or Bullet, transformed
there and converted back is the message `tf2_geometry_msgs` computes (up to the sequence number), as is the
result of the Python function; free vectors likewise. -/
theorem C64_points {L : RotLib} (hL : L.Sound) (tf : TfStamped) (hu : tf.transform.rot.Unit) (m : Stamped (Vec3 ℝ)) :
    (∀ old, sameButSeq Eq (through Eigen.toMsgVectorStamped Eigen.fromMsgVectorStamped (Eigen.doVectorStamped L) old tf m)
      (applied doPointStamped tf m)) ∧
    (∀ old, sameButSeq Eq (through Kdl.toMsgVectorStamped Kdl.fromMsgVectorStamped (Kdl.doVectorStamped L) old tf m)
      (applied doPointStamped tf m)) ∧
    (∀ old, sameButSeq Eq (through Bullet.toMsgVectorStamped Bullet.fromMsgVectorStamped (Bullet.doVectorStamped L) old tf m)
      (applied doPointStamped tf m)) ∧
    sameButSeq Eq (Py.doPoint L m tf) (applied doPointStamped tf m) ∧
    sameButSeq Eq (Py.doVector L m tf) (applied doVectorStamped tf m) ∧
    (∀ v, Eigen.doVector L Ref.self Ref.self tf v = applied doPoint tf v) := by
  obtain ⟨h1, h2, _⟩ := C47_stamped tf
  obtain ⟨d1, e1⟩ := h1 m
  obtain ⟨d2, e2⟩ := h2 m
  rw [applied_point] at d1
  rw [applied_vector] at d2
  unfold sameButSeq
  simp only [d1, e1, d2, e2]
  refine ⟨fun old => ⟨rfl, rfl, ?_⟩, fun old => ⟨rfl, rfl, ?_⟩, fun old => ⟨rfl, rfl, ?_⟩, ⟨rfl, rfl, ?_⟩,
    ⟨rfl, rfl, ?_⟩, fun v => ?_⟩
  · show (Eigen.toEigen L tf.transform).apply m.data = _
    rw [toEigen_eq hL hu]; rfl
  · show (Kdl.toKdl L tf.transform).apply m.data = _
    rw [toKdl_eq hL hu]; rfl
  · show (Bullet.toBullet L tf.transform).apply m.data = _
    rw [toBullet_eq hL hu]; rfl
  · show (Kdl.toKdl L tf.transform).apply m.data = _
    rw [toKdl_eq hL hu]; rfl
  · show (Kdl.toKdl L ⟨tf.transform.rot, ⟨0, 0, 0⟩⟩).apply m.data = _
    rw [toKdl_eq hL (t := ⟨tf.transform.rot, ⟨0, 0, 0⟩⟩) hu]
    ext <;> simp [fromMsgT, Xform.ofQuat, Xform.apply, vectorVal, Mat3.mulVec]
  · rw [applied_point]
    show (Eigen.toEigen L tf.transform).apply v = _
    rw [toEigen_eq hL hu]; rfl

/-- Two sound libraries give the same pose, up to the sign of the quaternion. -/
theorem samePose_of_basis {L : RotLib} (hL : L.Sound) {q q' : Quat ℝ} {m : Mat3 ℝ} (hm : m.IsRotation)
    (h : q = L.toQuat m ∨ q = (L.toQuat m).neg) (h' : q' = m.getRotation) : q = q' ∨ q = q'.neg := by
  obtain ⟨hu, he⟩ := Mat3.getRotation_spec hm
  have hneg : ∀ q : Quat ℝ, q.neg.neg = q := by intro q; ext <;> simp [Quat.neg]
  subst h'
  have hb := hL.back hu
  rw [he] at hb
  rcases h with h | h <;> rcases hb with k | k <;> rw [h, k]
  · exact Or.inl rfl
  · exact Or.inr rfl
  · exact Or.inr rfl
  · exact Or.inl (hneg _)

/-- **C64, poses.** The same for poses with unit quaternions, through Eigen, KDL and the Python function, up to
the sign of the quaternion. -/
theorem C64_poses {L : RotLib} (hL : L.Sound) (tf : TfStamped) (hu : tf.transform.rot.Unit) (m : Stamped PoseMsg)
    (hm : unitPose m.data) :
    (∀ old, sameButSeq samePose
      (through (Eigen.toMsgPoseStamped L) (Eigen.fromMsgPoseStamped L) (Eigen.doPoseStamped L) old tf m)
      (applied doPoseStamped tf m)) ∧
    (∀ old, sameButSeq samePose
      (through (Kdl.toMsgPoseStamped L) (Kdl.fromMsgPoseStamped L) (Kdl.doPoseStamped L) old tf m)
      (applied doPoseStamped tf m)) ∧
    sameButSeq samePose (Py.doPose L m tf) (applied doPoseStamped tf m) := by
  obtain ⟨_, _, _, h4, _⟩ := C47_stamped tf
  obtain ⟨d, e⟩ := h4 m
  rw [applied_pose] at d
  have hrot : ((fromMsgT tf.transform).mul (Xform.ofQuat m.data.orientation m.data.position)).basis.IsRotation :=
    mul_isRotation (fromMsgT_rot (unit_nonzero hu)) (Mat3.ofQuat_isRotation _ (Quat.Unit.ne hm))
  have hof : L.ofQuat m.data.orientation = Mat3.ofQuat m.data.orientation := hL.eq hm
  unfold sameButSeq
  simp only [d, e]
  refine ⟨fun old => ⟨rfl, rfl, ?_⟩, fun old => ⟨rfl, rfl, ?_⟩, rfl, rfl, ?_⟩
  · have hx : (through (Eigen.toMsgPoseStamped L) (Eigen.fromMsgPoseStamped L) (Eigen.doPoseStamped L) old tf m).data =
        Eigen.toMsgPose L ((fromMsgT tf.transform).mul (Xform.ofQuat m.data.orientation m.data.position)) := by
      show Eigen.toMsgPose L ((Eigen.toEigen L tf.transform).mul (Xform.mk (L.ofQuat m.data.orientation) m.data.position)) = _
      rw [toEigen_eq hL hu, hof]; rfl
    rw [hx]
    obtain ⟨a, _, c⟩ := eigen_toMsgPose L ((fromMsgT tf.transform).mul (Xform.ofQuat m.data.orientation m.data.position))
    exact ⟨a, samePose_of_basis hL hrot c rfl⟩
  · have hx : (through (Kdl.toMsgPoseStamped L) (Kdl.fromMsgPoseStamped L) (Kdl.doPoseStamped L) old tf m).data =
        Kdl.toMsgPose L ((fromMsgT tf.transform).mul (Xform.ofQuat m.data.orientation m.data.position)) := by
      show Kdl.toMsgPose L ((Kdl.toKdl L tf.transform).mul (Xform.mk (L.ofQuat m.data.orientation) m.data.position)) = _
      rw [toKdl_eq hL hu, hof]; rfl
    rw [hx]
    exact ⟨rfl, samePose_of_basis hL hrot (Or.inl rfl) rfl⟩
  · have hx : (Py.doPose L m tf).data =
        Kdl.toMsgPose L ((fromMsgT tf.transform).mul (Xform.ofQuat m.data.orientation m.data.position)) := by
      show Kdl.toMsgPose L ((Kdl.toKdl L tf.transform).mul (Xform.mk (L.ofQuat m.data.orientation) m.data.position)) = _
      rw [toKdl_eq hL hu, hof]; rfl
    rw [hx]
    exact ⟨rfl, samePose_of_basis hL hrot (Or.inl rfl) rfl⟩

/-- **C64, transforms of transforms.** On the library types themselves: the result maps a point as the applied
transform after the given one; with Bullet, Eigen and KDL alike, also for an `Affine3d` that is not rigid. -/
theorem C64_frames {L : RotLib} (hL : L.Sound) (tf : TfStamped) (hu : tf.transform.rot.Unit) (x : TStamped (Xform ℝ))
    (v : Vec3 ℝ) :
    (Eigen.doPoseStamped L Ref.self Ref.self tf x).data.apply v = applied doPoint tf (x.data.apply v) ∧
    (Kdl.doPoseStamped L Ref.self Ref.self tf x).data.apply v = applied doPoint tf (x.data.apply v) ∧
    (Bullet.doPoseStamped L Ref.self Ref.self tf x).data.apply v = applied doPoint tf (x.data.apply v) ∧
    (Eigen.doPose L Ref.self Ref.self tf x.data).apply v = applied doPoint tf (x.data.apply v) := by
  rw [applied_point]
  refine ⟨?_, ?_, ?_, ?_⟩
  · show ((Eigen.toEigen L tf.transform).mul x.data).apply v = _
    rw [toEigen_eq hL hu, apply_mul]; rfl
  · show ((Kdl.toKdl L tf.transform).mul x.data).apply v = _
    rw [toKdl_eq hL hu, apply_mul]; rfl
  · show ((Bullet.toBullet L tf.transform).mul x.data).apply v = _
    rw [toBullet_eq hL hu, apply_mul]; rfl
  · show ((Eigen.toEigen L tf.transform).mul x.data).apply v = _
    rw [toEigen_eq hL hu, apply_mul]; rfl

/-- **C64, wrenches.** A `WrenchStamped` transformed through KDL is the message `tf2_geometry_msgs` computes. -/
theorem C64_wrenches {L : RotLib} (hL : L.Sound) (tf : TfStamped) (hu : tf.transform.rot.Unit) (m : Stamped Wrench)
    (old : TStamped Wrench) :
    sameButSeq Eq (through Kdl.toMsgWrenchStamped Kdl.fromMsgWrenchStamped (Kdl.doWrenchStamped L) old tf m)
      (applied doWrenchStamped tf m) := by
  obtain ⟨_, _, _, _, h5, _⟩ := C47_stamped tf
  obtain ⟨d, e⟩ := h5 m
  rw [applied_wrench] at d
  unfold sameButSeq
  simp only [d, e]
  refine ⟨rfl, rfl, ?_⟩
  show Kdl.frameWrench (Kdl.toKdl L tf.transform) m.data = _
  rw [toKdl_eq hL hu]; rfl

/-- **C64, twists.** Transforming a twist through KDL moves the velocity field of the body along: the point that
was at `p` is at the transformed place and its velocity is the rotated velocity. -/
theorem C64_twists {L : RotLib} (hL : L.Sound) (tf : TfStamped) (hu : tf.transform.rot.Unit) (x : TStamped Twist)
    (p : Vec3 ℝ) :
    (Kdl.doTwistStamped L Ref.self Ref.self tf x).data.at (applied doPoint tf p) =
      applied doVector tf (x.data.at p) ∧
    (Kdl.doTwistStamped L Ref.self Ref.self tf x).data.angular = applied doVector tf x.data.angular := by
  rw [applied_point, applied_vector, applied_vector]
  have hx : (Kdl.doTwistStamped L Ref.self Ref.self tf x).data = Kdl.frameTwist (fromMsgT tf.transform) x.data := by
    show Kdl.frameTwist (Kdl.toKdl L tf.transform) x.data = _
    rw [toKdl_eq hL hu]
  rw [hx]
  refine ⟨?_, rfl⟩
  have hc := cross_rot (fromMsgT_rot (unit_nonzero hu)) x.data.angular p
  have hadd : ∀ a b : Vec3 ℝ, (fromMsgT tf.transform).basis.mulVec (a.add b) =
      ((fromMsgT tf.transform).basis.mulVec a).add ((fromMsgT tf.transform).basis.mulVec b) := by
    intro a b; ext <;> simp [Mat3.mulVec, Vec3.dot, Vec3.add] <;> ring
  have hp : pointVal tf.transform p = ((fromMsgT tf.transform).basis.mulVec p).add tf.transform.trans := rfl
  unfold vectorVal Twist.at Kdl.frameTwist
  rw [hadd, ← hc, hp]
  have ho : (fromMsgT tf.transform).origin = tf.transform.trans := rfl
  simp only [ho]
  ext <;> simp [Vec3.add, Vec3.cross] <;> ring

/-- **C64, power.** The power of a wrench on a twist does not depend on the frame both are expressed in. -/
theorem C64_power {L : RotLib} (hL : L.Sound) (tf : TfStamped) (hu : tf.transform.rot.Unit) (w : TStamped Wrench)
    (t : TStamped Twist) :
    power (Kdl.doWrenchStamped L Ref.self Ref.self tf w).data (Kdl.doTwistStamped L Ref.self Ref.self tf t).data =
      power w.data t.data := by
  have hx : (Kdl.doTwistStamped L Ref.self Ref.self tf t).data = Kdl.frameTwist (fromMsgT tf.transform) t.data := by
    show Kdl.frameTwist (Kdl.toKdl L tf.transform) t.data = _
    rw [toKdl_eq hL hu]
  have hy : (Kdl.doWrenchStamped L Ref.self Ref.self tf w).data = Kdl.frameWrench (fromMsgT tf.transform) w.data := by
    show Kdl.frameWrench (Kdl.toKdl L tf.transform) w.data = _
    rw [toKdl_eq hL hu]
  rw [hx, hy]
  have hd : ∀ a b : Vec3 ℝ, ((fromMsgT tf.transform).basis.mulVec a).dot ((fromMsgT tf.transform).basis.mulVec b) = a.dot b := by
    intro a b
    have := (C47_isometry tf (unit_nonzero hu) a b).2.1
    rwa [applied_vector, applied_vector] at this
  have h1 := hd w.data.force t.data.linear
  have h2 := hd w.data.torque t.data.angular
  unfold power Kdl.frameTwist Kdl.frameWrench
  rw [← h1, ← h2]
  generalize (fromMsgT tf.transform).basis.mulVec w.data.force = f
  generalize (fromMsgT tf.transform).basis.mulVec w.data.torque = τ
  generalize (fromMsgT tf.transform).basis.mulVec t.data.linear = v
  generalize (fromMsgT tf.transform).basis.mulVec t.data.angular = ω
  simp only [Vec3.dot, Vec3.add, Vec3.cross]
  ring

/-- **C64, in place.** Input and output of every library `doTransform` may be the same object; nothing else is
written; stamp and frame of the result are the transform's. -/
theorem C64_in_place (L : RotLib) :
    MutationSafe (Eigen.doVector L) replace ∧ MutationSafe (Eigen.doVectorStamped L) replace ∧
    MutationSafe (Eigen.doPose L) replace ∧ MutationSafe (Eigen.doPoseStamped L) replace ∧
    MutationSafe (Kdl.doVectorStamped L) replace ∧ MutationSafe (Kdl.doTwistStamped L) replace ∧
    MutationSafe (Kdl.doWrenchStamped L) replace ∧ MutationSafe (Kdl.doPoseStamped L) replace ∧
    MutationSafe (Bullet.doVectorStamped L) replace ∧ MutationSafe (Bullet.doPoseStamped L) replace ∧
    Relabels (Eigen.doVectorStamped L) ∧ Relabels (Eigen.doPoseStamped L) ∧ Relabels (Kdl.doVectorStamped L) ∧
    Relabels (Kdl.doTwistStamped L) ∧ Relabels (Kdl.doWrenchStamped L) ∧ Relabels (Kdl.doPoseStamped L) ∧
    Relabels (Bullet.doVectorStamped L) ∧ Relabels (Bullet.doPoseStamped L) := by
  refine ⟨?_, ?_, ?_, ?_, ?_, ?_, ?_, ?_, ?_, ?_, fun _ _ => ⟨rfl, rfl⟩, fun _ _ => ⟨rfl, rfl⟩, fun _ _ => ⟨rfl, rfl⟩,
    fun _ _ => ⟨rfl, rfl⟩, fun _ _ => ⟨rfl, rfl⟩, fun _ _ => ⟨rfl, rfl⟩, fun _ _ => ⟨rfl, rfl⟩, fun _ _ => ⟨rfl, rfl⟩⟩
  all_goals exact fun inp out hl _ tf s => ⟨hl _ _, fun r hr => hr _ _⟩

/-- The hypotheses are met: the transform `exTf` of C47 is a unit one. -/
example : exTf.transform.rot.Unit ∧ unitPose ⟨⟨4, 5, 6⟩, ⟨3/5, 0, 0, 4/5⟩⟩ :=
  ⟨by norm_num [exTf, Quat.Unit], by norm_num [unitPose, Quat.Unit]⟩

/-- **Finding.** The agreement needs exactly unit quaternions, although the buffer accepts others: KDL
stretches every vector by the squared length of the quaternion (so distances are not kept), tf2 divides by
it, and Eigen does neither. -/
theorem C64_nonunit_finding :
    (∀ (q : Quat ℝ), q.length2 ≠ 0 → ∀ v, (kdlMatrix q).mulVec v = ((Mat3.ofQuat q).mulVec v).scale q.length2) ∧
    ∃ (tf : TfStamped) (m : Stamped (Vec3 ℝ)), tf.transform.normOK = true ∧
      (Py.doPoint ⟨kdlMatrix, Mat3.getRotation⟩ m tf).data ≠ (applied doPointStamped tf m).data ∧
      (∀ old, (through Eigen.toMsgVectorStamped Eigen.fromMsgVectorStamped
        (Eigen.doVectorStamped ⟨eigenMatrix, Mat3.getRotation⟩) old tf m).data ≠ (applied doPointStamped tf m).data ∧
        (through Eigen.toMsgVectorStamped Eigen.fromMsgVectorStamped
        (Eigen.doVectorStamped ⟨eigenMatrix, Mat3.getRotation⟩) old tf m).data ≠
        (Py.doPoint ⟨kdlMatrix, Mat3.getRotation⟩ m tf).data) := by
  refine ⟨fun q hq v => ?_, ⟨⟨0, 0, []⟩, [], ⟨⟨0, 0, 1/1000, 1⟩, ⟨0, 0, 0⟩⟩⟩, ⟨⟨0, 0, []⟩, ⟨1, 0, 0⟩⟩, ?_, ?_, ?_⟩
  · have hr : q.x * q.x + q.y * q.y + q.z * q.z + q.w * q.w = q.length2 := rfl
    ext <;> simp only [kdlMatrix, Mat3.ofQuat, Mat3.mulVec, Vec3.dot, Vec3.scale] <;> field_simp
    · linear_combination v.x * hr
    · linear_combination v.y * hr
    · linear_combination v.z * hr
  · simp only [Pose.normOK, decide_eq_true_eq]
    rw [abs_lt]; constructor <;> norm_num
  · rw [((C47_stamped _).1 _).1, applied_point]
    intro h
    have := congrArg Vec3.x h
    norm_num [Py.doPoint, Kdl.toKdl, kdlMatrix, pointVal, fromMsgT, Xform.ofQuat, Xform.apply, Mat3.ofQuat,
      Quat.length2, Quat.dot, Vec3.dot] at this
  · intro old
    constructor
    · rw [((C47_stamped _).1 _).1, applied_point]
      intro h
      have := congrArg Vec3.x h
      norm_num [through, Eigen.toMsgVectorStamped, Eigen.toMsgVector, Eigen.fromMsgVectorStamped, Eigen.fromMsgVector, Eigen.doVectorStamped,
        Ref.self, Eigen.toEigen, eigenMatrix, pointVal, fromMsgT, Xform.ofQuat, Xform.apply, Mat3.ofQuat,
        Quat.length2, Quat.dot, Vec3.dot] at this
    · intro h
      have := congrArg Vec3.x h
      norm_num [through, Eigen.toMsgVectorStamped, Eigen.toMsgVector, Eigen.fromMsgVectorStamped, Eigen.fromMsgVector, Eigen.doVectorStamped,
        Ref.self, Eigen.toEigen, eigenMatrix, Py.doPoint, Kdl.toKdl, kdlMatrix, Xform.apply, Vec3.dot] at this

end Tf2.Geo
