import Verif.Proofs.PointCloud
import Verif.Props.GeoMsgs

/-!
# Properties of `doTransform` on point clouds: C54
-/
namespace Tf2.Geo

variable {S : Type}

/-- **C54.** Whether the cloud is transformed in place or into another object: every point of the input is
moved by the transform, exactly once; every other word (colours, intensities, padding) and the layout are
carried over; the header becomes the transform's header, sequence number included; no other object is
touched. -/
theorem C54_cloud (inp out : Ref S Cloud) (hl : out.Lawful) (ha : inp.SameOrApart out) (tf : TfStamped) (s : S)
    (hc : (inp.get s).Laid) :
    (∀ i, i < (inp.get s).points → (out.get (doCloud inp out tf s)).pt i =
      (⟨eigenMat tf.transform.rot, tf.transform.trans⟩ : Xform ℝ).apply ((inp.get s).pt i)) ∧
    (∀ a, (inp.get s).Other a → (out.get (doCloud inp out tf s)).data a = (inp.get s).data a) ∧
    (let c' := out.get (doCloud inp out tf s); let c := inp.get s
     c'.header = tf.header ∧ c'.points = c.points ∧ c'.step = c.step ∧ c'.offX = c.offX ∧ c'.offY = c.offY ∧
      c'.offZ = c.offZ) ∧
    (∀ {U : Type} (r : Ref S U), r.Apart out → r.get (doCloud inp out tf s) = r.get s) := by
  have hres : out.get (doCloud inp out tf s) =
      cloudAt ⟨eigenMat tf.transform.rot, tf.transform.trans⟩ tf.header (inp.get s) (inp.get s).points := by
    have e0 : ∀ h : Header, out.get (out.cloudHeader.set h (out.set (inp.get s) s)) = { inp.get s with header := h } := by
      intro h; unfold Ref.Lawful at hl; simp [Ref.cloudHeader, hl]
    have e1 : out.get (out.cloudHeader.set tf.header (out.set (inp.get s) s)) =
        cloudAt ⟨eigenMat tf.transform.rot, tf.transform.trans⟩ tf.header (inp.get s) 0 := by
      rw [e0]; unfold cloudAt; simp
    have e2 : (inp.get (out.cloudHeader.set tf.header (out.set (inp.get s) s))).points = (inp.get s).points := by
      rcases ha with rfl | ha
      · rw [e0]
      · unfold Ref.Apart at ha; simp [Ref.cloudHeader, ha]
    unfold doCloud
    simp only [e2]
    rw [cloudLoop_get hl hc _ 0 _ e1 ?_, Nat.zero_add]
    rcases ha with rfl | ha
    · exact Or.inl rfl
    · right; refine ⟨ha, ?_⟩
      unfold Ref.Apart at ha; simp [Ref.cloudHeader, ha]
  rw [hres]
  refine ⟨fun i hi => by rw [cloudAt_pt hc, if_pos hi], fun a hoth => ?_, ⟨rfl, rfl, rfl, rfl, rfl, rfl⟩, fun r hr => ?_⟩
  · show (if _ then _ else if _ then _ else if _ then _ else _) = _
    rw [if_neg (by rintro ⟨i, hi, e⟩; exact (hoth i hi).1 e), if_neg (by rintro ⟨i, hi, e⟩; exact (hoth i hi).2.1 e),
      if_neg (by rintro ⟨i, hi, e⟩; exact (hoth i hi).2.2 e)]
  · unfold doCloud
    simp only []
    rw [only_cloudLoop _ _ _ r hr]
    unfold Ref.Apart at hr
    simp [Ref.cloudHeader, hr]

/-- A cloud of two points with a colour word: the hypotheses are met, and the colour is an other word. -/
example : let c : Cloud := ⟨⟨0, 1, ['c']⟩, 2, 4, 0, 1, 2, fun k => (k : ℝ)⟩
    c.Laid ∧ c.Other 3 ∧ c.Other 7 ∧ c.pt 1 = ⟨4, 5, 6⟩ := by
  intro c
  refine ⟨by simp [Cloud.Laid, c], ?_, ?_, ?_⟩
  · intro i _; simp only [c]; omega
  · intro i _; simp only [c]; omega
  · simp [Cloud.pt, c]

/-- For a unit quaternion the two matrices agree … -/
theorem eigenMat_unit {q : Quat ℝ} (h : q.Unit) : eigenMat q = Mat3.ofQuat q := by
  have hl := (Quat.unit_iff q).1 h
  unfold eigenMat Mat3.ofQuat
  simp only [hl]
  ext <;> simp <;> ring

/-- **C54, agreement.** … so with a unit quaternion each point of the cloud ends up exactly where
`doTransform` puts a `Point` message with its coordinates. -/
theorem C54_agrees_with_points (inp out : Ref S Cloud) (hl : out.Lawful) (ha : inp.SameOrApart out) (tf : TfStamped)
    (s : S) (hc : (inp.get s).Laid) (hu : tf.transform.rot.Unit) {i : Nat} (hi : i < (inp.get s).points) :
    (out.get (doCloud inp out tf s)).pt i = applied doPoint tf ((inp.get s).pt i) := by
  rw [(C54_cloud inp out hl ha tf s hc).1 i hi, applied_point, eigenMat_unit hu]
  rfl

/-- **C54 (finding).** With a quaternion that `setTransform` still accepts but that is not exactly unit, a
cloud and a point message are transformed differently: the one by an unnormalised, the other by a
normalised rotation. -/
theorem C54_nonunit_finding : ∃ (tf : TfStamped) (c : Cloud), Pose.normOK tf.transform = true ∧ c.Laid ∧
    0 < c.points ∧ (applied doCloud tf c).pt 0 ≠ applied doPoint tf (c.pt 0) := by
  refine ⟨⟨⟨0, 0, []⟩, [], ⟨⟨0, 0, 1.001, 0⟩, ⟨0, 0, 0⟩⟩⟩, ⟨⟨0, 0, []⟩, 1, 3, 0, 1, 2, fun _ => 1⟩, ?_, by simp [Cloud.Laid], by decide, ?_⟩
  · simp only [Pose.normOK, decide_eq_true_eq]; norm_num [abs_lt]
  · have := (C54_cloud (Ref.self) (Ref.self) self_lawful (Or.inl rfl)
      ⟨⟨0, 0, []⟩, [], ⟨⟨0, 0, 1.001, 0⟩, ⟨0, 0, 0⟩⟩⟩ ⟨⟨0, 0, []⟩, 1, 3, 0, 1, 2, fun _ => 1⟩ (by simp [Cloud.Laid, Ref.self])).1 0 (by decide)
    intro h
    have e : (Ref.self : Ref Cloud Cloud).get (doCloud Ref.self Ref.self ⟨⟨0, 0, []⟩, [], ⟨⟨0, 0, 1.001, 0⟩, ⟨0, 0, 0⟩⟩⟩
      ⟨⟨0, 0, []⟩, 1, 3, 0, 1, 2, fun _ => 1⟩) = applied doCloud ⟨⟨0, 0, []⟩, [], ⟨⟨0, 0, 1.001, 0⟩, ⟨0, 0, 0⟩⟩⟩
      ⟨⟨0, 0, []⟩, 1, 3, 0, 1, 2, fun _ => 1⟩ := rfl
    rw [e, h, applied_point] at this
    have := congrArg Vec3.x this
    norm_num [pointVal, fromMsgT, Xform.ofQuat, Xform.apply, Mat3.ofQuat, eigenMat, Quat.length2, Quat.dot, Vec3.dot,
      Cloud.pt, Ref.self] at this

end Tf2.Geo
