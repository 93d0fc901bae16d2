import Verif.Model.BufferCore
import Verif.Model.Pose

/-!
# `tf2_geometry_msgs`: applying a transform to geometry messages

`doTransform(in, out, transform)` is imperative: it reads `in`, writes `out` field by field, and the
two may be the same object.  Every function is therefore modelled as a change of an arbitrary memory
`S` in which `in` and `out` are references; each C++ assignment is one `Ref.set`.  `double` rounding is
not modelled (scalars are real numbers), as in `Verif.Model.LinearMath`.
-/
namespace Tf2.Geo

/-- A C++ reference to an object of type `T` somewhere in a memory `S`. -/
structure Ref (S T : Type) where
  get : S → T
  set : T → S → S

/-- `std_msgs::Header`: `seq`, `stamp`, `frame_id` (message definition of std_msgs, not in the repo). -/
@[ext] structure Header where
  seq : Nat
  stamp : Time
  frame : Name

/-- `PointStamped`, `Vector3Stamped`, `QuaternionStamped`, `PoseStamped`, `WrenchStamped`: a header and
a datum (message definitions of geometry_msgs, not in the repo). -/
@[ext] structure Stamped (T : Type) where
  header : Header
  data : T

/-- `geometry_msgs::Pose` (position, orientation). -/
@[ext] structure PoseMsg where
  position : Vec3 ℝ
  orientation : Quat ℝ

/-- `geometry_msgs::Wrench`. -/
@[ext] structure Wrench where
  force : Vec3 ℝ
  torque : Vec3 ℝ

/-- `geometry_msgs::PoseWithCovariance`; `covariance` is `float64[36]`. -/
structure PoseCov where
  pose : PoseMsg
  covariance : Fin 36 → ℝ

/-- `geometry_msgs::TransformStamped`; the transform is `Tf2.Pose` (rotation, translation). -/
@[ext] structure TfStamped where
  header : Header
  child : Name
  transform : Pose

namespace Ref
variable {S : Type}

def x {K : Type} (r : Ref S (Vec3 K)) : Ref S K := ⟨fun s => (r.get s).x, fun v s => r.set { r.get s with x := v } s⟩
def y {K : Type} (r : Ref S (Vec3 K)) : Ref S K := ⟨fun s => (r.get s).y, fun v s => r.set { r.get s with y := v } s⟩
def z {K : Type} (r : Ref S (Vec3 K)) : Ref S K := ⟨fun s => (r.get s).z, fun v s => r.set { r.get s with z := v } s⟩
def stamp (r : Ref S Header) : Ref S Time := ⟨fun s => (r.get s).stamp, fun v s => r.set { r.get s with stamp := v } s⟩
def frame (r : Ref S Header) : Ref S Name := ⟨fun s => (r.get s).frame, fun v s => r.set { r.get s with frame := v } s⟩
def header {T : Type} (r : Ref S (Stamped T)) : Ref S Header :=
  ⟨fun s => (r.get s).header, fun v s => r.set { r.get s with header := v } s⟩
def data {T : Type} (r : Ref S (Stamped T)) : Ref S T :=
  ⟨fun s => (r.get s).data, fun v s => r.set { r.get s with data := v } s⟩
def position (r : Ref S PoseMsg) : Ref S (Vec3 ℝ) :=
  ⟨fun s => (r.get s).position, fun v s => r.set { r.get s with position := v } s⟩
def orientation (r : Ref S PoseMsg) : Ref S (Quat ℝ) :=
  ⟨fun s => (r.get s).orientation, fun v s => r.set { r.get s with orientation := v } s⟩
def force (r : Ref S Wrench) : Ref S (Vec3 ℝ) :=
  ⟨fun s => (r.get s).force, fun v s => r.set { r.get s with force := v } s⟩
def torque (r : Ref S Wrench) : Ref S (Vec3 ℝ) :=
  ⟨fun s => (r.get s).torque, fun v s => r.set { r.get s with torque := v } s⟩
def pose (r : Ref S PoseCov) : Ref S PoseMsg :=
  ⟨fun s => (r.get s).pose, fun v s => r.set { r.get s with pose := v } s⟩
def covariance (r : Ref S PoseCov) : Ref S (Fin 36 → ℝ) :=
  ⟨fun s => (r.get s).covariance, fun v s => r.set { r.get s with covariance := v } s⟩
def tfHeader (r : Ref S TfStamped) : Ref S Header :=
  ⟨fun s => (r.get s).header, fun v s => r.set { r.get s with header := v } s⟩
def tfTransform (r : Ref S TfStamped) : Ref S Pose :=
  ⟨fun s => (r.get s).transform, fun v s => r.set { r.get s with transform := v } s⟩

end Ref

variable {S : Type}

/-- `fromMsg(Transform, tf2::Transform)`: `setOrigin`, `setRotation`, tf2_geometry_msgs.h:637-645. -/
noncomputable def fromMsgT (t : Pose) : Xform ℝ := Xform.ofQuat t.rot t.trans

/-- `toMsg(tf2::Transform)`, tf2_geometry_msgs.h:625-632. -/
noncomputable def toMsgT (t : Xform ℝ) : Pose := ⟨t.getRotation, t.origin⟩

/-- `toMsg(tf2::Vector3, Point&)`: three assignments, tf2_geometry_msgs.h:191-197. -/
def toMsgPoint (v : Vec3 ℝ) (out : Ref S (Vec3 ℝ)) (s : S) : S :=
  let s := out.x.set v.x s
  let s := out.y.set v.y s
  out.z.set v.z s

/-- `toMsg(tf2::Transform, Pose&)`, tf2_geometry_msgs.h:433-438. -/
noncomputable def toMsgPose (t : Xform ℝ) (out : Ref S PoseMsg) (s : S) : S :=
  let s := toMsgPoint t.origin out.position s
  out.orientation.set t.getRotation s

/-- The last two statements of every stamped version: `t_out.header.stamp = transform.header.stamp;
t_out.header.frame_id = transform.header.frame_id`, e.g. tf2_geometry_msgs.h:742-743. -/
def setHeader (out : Ref S Header) (tf : TfStamped) (s : S) : S :=
  let s := out.stamp.set tf.header.stamp s
  out.frame.set tf.header.frame s

/-- `doTransform(Point, Point, TransformStamped)`, tf2_geometry_msgs.h:719-729. -/
noncomputable def doPoint (inp out : Ref S (Vec3 ℝ)) (tf : TfStamped) (s : S) : S :=
  let t := fromMsgT tf.transform
  let vIn := inp.get s
  let vOut := t.apply vIn
  toMsgPoint vOut out s

/-- `doTransform(PointStamped, …)`, tf2_geometry_msgs.h:737-744. -/
noncomputable def doPointStamped (inp out : Ref S (Stamped (Vec3 ℝ))) (tf : TfStamped) (s : S) : S :=
  setHeader out.header tf (doPoint inp.data out.data tf s)

/-- `doTransform(Quaternion, …)`, tf2_geometry_msgs.h:752-762. -/
def doQuat (inp out : Ref S (Quat ℝ)) (tf : TfStamped) (s : S) : S :=
  let t := tf.transform.rot
  let qIn := inp.get s
  let qOut := t.mul qIn
  out.set qOut s

/-- `doTransform(QuaternionStamped, …)`, tf2_geometry_msgs.h:770-777. -/
def doQuatStamped (inp out : Ref S (Stamped (Quat ℝ))) (tf : TfStamped) (s : S) : S :=
  setHeader out.header tf (doQuat inp.data out.data tf s)

/-- `doTransform(Pose, …)`, tf2_geometry_msgs.h:786-799. -/
noncomputable def doPose (inp out : Ref S PoseMsg) (tf : TfStamped) (s : S) : S :=
  let v := inp.position.get s
  let r := inp.orientation.get s
  let t := fromMsgT tf.transform
  let vOut := t.mul (Xform.ofQuat r v)
  toMsgPose vOut out s

/-- `doTransform(PoseStamped, …)`, tf2_geometry_msgs.h:807-814. -/
noncomputable def doPoseStamped (inp out : Ref S (Stamped PoseMsg)) (tf : TfStamped) (s : S) : S :=
  setHeader out.header tf (doPose inp.data out.data tf s)

/-- `transformCovariance`, tf2_geometry_msgs.h:821-902: four 3×3 blocks cut out of the 36 numbers,
each multiplied by the basis and its transpose, and written back. -/
def transformCovariance (c : Fin 36 → ℝ) (t : Xform ℝ) : Fin 36 → ℝ :=
  let rT := t.basis.transpose
  let c11 : Mat3 ℝ := ⟨⟨c 0, c 1, c 2⟩, ⟨c 6, c 7, c 8⟩, ⟨c 12, c 13, c 14⟩⟩
  let c12 : Mat3 ℝ := ⟨⟨c 3, c 4, c 5⟩, ⟨c 9, c 10, c 11⟩, ⟨c 15, c 16, c 17⟩⟩
  let c21 : Mat3 ℝ := ⟨⟨c 18, c 19, c 20⟩, ⟨c 24, c 25, c 26⟩, ⟨c 30, c 31, c 32⟩⟩
  let c22 : Mat3 ℝ := ⟨⟨c 21, c 22, c 23⟩, ⟨c 27, c 28, c 29⟩, ⟨c 33, c 34, c 35⟩⟩
  let r11 := (t.basis.mul c11).mul rT
  let r12 := (t.basis.mul c12).mul rT
  let r21 := (t.basis.mul c21).mul rT
  let r22 := (t.basis.mul c22).mul rT
  ![r11.r0.x, r11.r0.y, r11.r0.z, r12.r0.x, r12.r0.y, r12.r0.z,
    r11.r1.x, r11.r1.y, r11.r1.z, r12.r1.x, r12.r1.y, r12.r1.z,
    r11.r2.x, r11.r2.y, r11.r2.z, r12.r2.x, r12.r2.y, r12.r2.z,
    r21.r0.x, r21.r0.y, r21.r0.z, r22.r0.x, r22.r0.y, r22.r0.z,
    r21.r1.x, r21.r1.y, r21.r1.z, r22.r1.x, r22.r1.y, r22.r1.z,
    r21.r2.x, r21.r2.y, r21.r2.z, r22.r2.x, r22.r2.y, r22.r2.z]

/-- `doTransform(PoseWithCovarianceStamped, …)`, tf2_geometry_msgs.h:910-927: the pose, then the
header, then the covariance read from the input. -/
noncomputable def doPoseCovStamped (inp out : Ref S (Stamped PoseCov)) (tf : TfStamped) (s : S) : S :=
  let v := inp.data.pose.position.get s
  let r := inp.data.pose.orientation.get s
  let t := fromMsgT tf.transform
  let vOut := t.mul (Xform.ofQuat r v)
  let s := toMsgPose vOut out.data.pose s
  let s := setHeader out.header tf s
  out.data.covariance.set (transformCovariance (inp.data.covariance.get s) t) s

/-- `doTransform(TransformStamped, …)`, tf2_geometry_msgs.h:935-949.  The applied transform has the type
of the data, so it too is a reference, read again for the header. -/
noncomputable def doTf (inp out tf : Ref S TfStamped) (s : S) : S :=
  let input := fromMsgT (inp.tfTransform.get s)
  let t := fromMsgT (tf.tfTransform.get s)
  let vOut := t.mul input
  let s := out.tfTransform.set (toMsgT vOut) s
  let s := out.tfHeader.stamp.set (tf.tfHeader.stamp.get s) s
  out.tfHeader.frame.set (tf.tfHeader.frame.get s) s

/-- `doTransform(Vector3, …)`, tf2_geometry_msgs.h:957-967. -/
noncomputable def doVector (inp out : Ref S (Vec3 ℝ)) (tf : TfStamped) (s : S) : S :=
  let t := fromMsgT tf.transform
  let vOut := t.basis.mulVec (inp.get s)
  let s := out.x.set vOut.x s
  let s := out.y.set vOut.y s
  out.z.set vOut.z s

/-- `doTransform(Vector3Stamped, …)`, tf2_geometry_msgs.h:975-982. -/
noncomputable def doVectorStamped (inp out : Ref S (Stamped (Vec3 ℝ))) (tf : TfStamped) (s : S) : S :=
  setHeader out.header tf (doVector inp.data out.data tf s)

/-- `doTransform(Wrench, …)`, tf2_geometry_msgs.h:1037-1050: both vectors are rotated, then the moment
of the *already transformed* force at the offset is added to the torque, coordinate by coordinate. -/
noncomputable def doWrench (inp out : Ref S Wrench) (tf : TfStamped) (s : S) : S :=
  let s := doVector inp.force out.force tf s
  let s := doVector inp.torque out.torque tf s
  let offset : Vec3 ℝ := tf.transform.trans
  let added := offset.cross (out.force.get s)
  let s := out.torque.x.set (out.torque.x.get s + added.x) s
  let s := out.torque.y.set (out.torque.y.get s + added.y) s
  out.torque.z.set (out.torque.z.get s + added.z) s

/-- `doTransform(WrenchStamped, …)`, tf2_geometry_msgs.h:1053-1060. -/
noncomputable def doWrenchStamped (inp out : Ref S (Stamped Wrench)) (tf : TfStamped) (s : S) : S :=
  setHeader out.header tf (doWrench inp.data out.data tf s)

/-- `do_transform_wrench` of the Python package (the value of the `wrench` field),
tf2_geometry_msgs/src/tf2_geometry_msgs/tf2_geometry_msgs.py:99-109: `do_transform_vector3` (72-84, the
rotation applied with the translation zeroed) on both vectors.  PyKDL's `Frame * Vector` is taken to be
`M v + p`. -/
noncomputable def pyWrench (w : Wrench) (tf : TfStamped) : Wrench :=
  let t : Xform ℝ := Xform.ofQuat tf.transform.rot Vec3.zero
  ⟨t.apply w.force, t.apply w.torque⟩

/-- `doTransform(Eigen::Quaterniond, …)` of tf2_eigen, tf2_eigen.h:277-285: `t.inverse() * t_in * t`.
Eigen's `inverse()` of a quaternion is the conjugate divided by the squared norm. -/
noncomputable def eigenQuat (q : Quat ℝ) (tf : TfStamped) : Quat ℝ :=
  let t := tf.transform.rot
  ((t.inverse.scale (1 / t.length2)).mul q).mul t

/-- The message a lookup returns, as the `TransformStamped` handed to `doTransform`: header stamp and
frame are those of the answer, `seq` is left at 0, tf2/src/buffer_core.cpp:628-632. -/
def ofLookup (m : Msg Pose) : TfStamped := ⟨⟨0, m.stamp, m.parent⟩, m.child, m.xf⟩

/-- `BufferInterface::transform(in, out, target_frame)`, tf2_ros/include/tf2_ros/buffer_interface.h:118-125,
on a `BufferCore` without waiting: look up the transform for the header of `in`, then `doTransform`
(the argument `app`); an exception of the lookup leaves everything as it was. -/
noncomputable def transform {T : Type} (b : Buf Pose) (app : Ref S (Stamped T) → Ref S (Stamped T) → TfStamped → S → S)
    (inp out : Ref S (Stamped T)) (target : Name) (s : S) : Res S :=
  match b.lookupTransform target (inp.header.frame.get s) (inp.header.stamp.get s) with
  | .ok m => .ok (app inp out (ofLookup m) s)
  | .throw e => .throw e
  | .ub => .ub

/-- `BufferInterface::transform(in, out, target_frame, target_time, fixed_frame)`,
buffer_interface.h:193-203. -/
noncomputable def transformFixed {T : Type} (b : Buf Pose)
    (app : Ref S (Stamped T) → Ref S (Stamped T) → TfStamped → S → S)
    (inp out : Ref S (Stamped T)) (target : Name) (targetTime : Time) (fixed : Name) (s : S) : Res S :=
  match b.lookupTransform5 target targetTime (inp.header.frame.get s) (inp.header.stamp.get s) fixed with
  | .ok m => .ok (app inp out (ofLookup m) s)
  | .throw e => .throw e
  | .ub => .ub

end Tf2.Geo
