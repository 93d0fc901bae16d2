import Verif.Model.GeoMsgs

/-!
# Conversions between messages and the types of the linear-algebra libraries

`tf2_geometry_msgs` (the `tf2::` types), `tf2_eigen`, `tf2_kdl`, `tf2_bullet` and the generic
`tf2::convert`.  `fromMsg(msg, out)` assigns to the fields of an existing `out`, which is therefore an
argument; what is returned is `out` afterwards.  `doTransform` is a change of a memory `S`, as in
`Verif.Model.GeoMsgs`, because input and output may be the same object.

Eigen, KDL and Bullet themselves are not part of the repository.  Vectors are `Vec3 ℝ`, quaternions
`Quat ℝ`, rigid transforms `Xform ℝ` (matrix, then translation; `T * v = M v + p`,
`A * B = (Ma Mb, Ma pb + pa)`), and the two functions of such a library that turn a quaternion into a
matrix and back are parameters, collected in `RotLib`.  `double` rounding is not modelled.
-/
namespace Tf2.Geo

/-- `tf2::Stamped<T>`, tf2/include/tf2/transform_datatypes.h:42-75: a `T` with a stamp and a frame. -/
@[ext] structure TStamped (T : Type) where
  data : T
  stamp : Time
  frame : Name

/-- `geometry_msgs::Twist`, `KDL::Twist` (`vel`, `rot`). -/
@[ext] structure Twist where
  linear : Vec3 ℝ
  angular : Vec3 ℝ

/-- What the code uses of a linear-algebra library: quaternion → matrix (`Eigen::Quaterniond` as a
rotation, `KDL::Rotation::Quaternion`, `btMatrix3x3(btQuaternion)`, `tf2::Matrix3x3::setRotation`) and
matrix → quaternion (`Eigen::Quaterniond(matrix)`, `KDL::Rotation::GetQuaternion`,
`tf2::Matrix3x3::getRotation`). -/
structure RotLib where
  ofQuat : Quat ℝ → Mat3 ℝ
  toQuat : Mat3 ℝ → Quat ℝ

/-- `Eigen::Quaternion::toRotationMatrix` (Eigen/src/Geometry/Quaternion.h, not in the repo): no division by
the norm. -/
def eigenMatrix (q : Quat ℝ) : Mat3 ℝ :=
  let tx := 2 * q.x
  let ty := 2 * q.y
  let tz := 2 * q.z
  ⟨⟨1 - (ty * q.y + tz * q.z), ty * q.x - tz * q.w, tz * q.x + ty * q.w⟩,
   ⟨ty * q.x + tz * q.w, 1 - (tx * q.x + tz * q.z), tz * q.y - tx * q.w⟩,
   ⟨tz * q.x - ty * q.w, tz * q.y + tx * q.w, 1 - (tx * q.x + ty * q.y)⟩⟩

/-- `KDL::Rotation::Quaternion(x, y, z, w)` (orocos_kdl/src/frames.cpp, not in the repo): no division by the
norm either. -/
def kdlMatrix (q : Quat ℝ) : Mat3 ℝ :=
  let x2 := q.x * q.x
  let y2 := q.y * q.y
  let z2 := q.z * q.z
  let w2 := q.w * q.w
  ⟨⟨w2 + x2 - y2 - z2, 2 * q.x * q.y - 2 * q.w * q.z, 2 * q.x * q.z + 2 * q.w * q.y⟩,
   ⟨2 * q.x * q.y + 2 * q.w * q.z, w2 - x2 + y2 - z2, 2 * q.y * q.z - 2 * q.w * q.x⟩,
   ⟨2 * q.x * q.z - 2 * q.w * q.y, 2 * q.y * q.z + 2 * q.w * q.x, w2 - x2 - y2 + z2⟩⟩

/-- A default-constructed message header. -/
def Header.fresh : Header := ⟨0, 0, []⟩

variable {S : Type}

/-! ## headers: the same two statements in every stamped conversion -/

/-- `msg.header.stamp = in.stamp_; msg.header.frame_id = in.frame_id_;` on a header `h`,
e.g. tf2_kdl.h:98-99, tf2_eigen.h:200-201, tf2_geometry_msgs.h:157-158. -/
def headerOf {T : Type} (x : TStamped T) (h : Header) : Header :=
  let h := { h with stamp := x.stamp }
  { h with frame := x.frame }

/-- `out.stamp_ = msg.header.stamp; out.frame_id_ = msg.header.frame_id;`, e.g. tf2_kdl.h:114-115. -/
def stampFrom {T : Type} (h : Header) (out : TStamped T) : TStamped T :=
  let out := { out with stamp := h.stamp }
  { out with frame := h.frame }

/-! ## `tf2_geometry_msgs`: the `tf2::` types -/

namespace Lin

/-- `tf2::Matrix3x3` itself. -/
noncomputable def lib : RotLib := ⟨Mat3.ofQuat, Mat3.getRotation⟩

/-- `toMsg(tf2::Vector3)` → `Vector3`, tf2_geometry_msgs.h:81-89 (`Point`: 191-197). -/
def toMsgVector (v : Vec3 ℝ) (out : Vec3 ℝ) : Vec3 ℝ :=
  let out := { out with x := v.x }
  let out := { out with y := v.y }
  { out with z := v.z }

/-- `fromMsg(Vector3, tf2::Vector3)`, tf2_geometry_msgs.h:96-100 (`Point`: 204-208). -/
def fromMsgVector (m : Vec3 ℝ) (_out : Vec3 ℝ) : Vec3 ℝ := ⟨m.x, m.y, m.z⟩

/-- `toMsg(tf2::Stamped<tf2::Vector3>)` → `Vector3Stamped`, tf2_geometry_msgs.h:155-165; with an existing
message `PointStamped`, 262-271. -/
def toMsgVectorStamped (x : TStamped (Vec3 ℝ)) (out : Stamped (Vec3 ℝ)) : Stamped (Vec3 ℝ) :=
  let out := { out with header := headerOf x out.header }
  { out with data := toMsgVector x.data out.data }

/-- `fromMsg(Vector3Stamped, …)`, tf2_geometry_msgs.h:172-178 (`PointStamped`: 278-284). -/
def fromMsgVectorStamped (m : Stamped (Vec3 ℝ)) (out : TStamped (Vec3 ℝ)) : TStamped (Vec3 ℝ) :=
  let out := stampFrom m.header out
  { out with data := ⟨m.data.x, m.data.y, m.data.z⟩ }

/-- `toMsg(tf2::Quaternion)`, tf2_geometry_msgs.h:296-305: `w` first. -/
def toMsgQuat (q : Quat ℝ) (out : Quat ℝ) : Quat ℝ :=
  let out := { out with w := q.w }
  let out := { out with x := q.x }
  let out := { out with y := q.y }
  { out with z := q.z }

/-- `fromMsg(Quaternion, tf2::Quaternion)`, tf2_geometry_msgs.h:312-317. -/
def fromMsgQuat (m : Quat ℝ) (_out : Quat ℝ) : Quat ℝ := ⟨m.x, m.y, m.z, m.w⟩

/-- `toMsg(tf2::Stamped<tf2::Quaternion>)`, tf2_geometry_msgs.h:371-382. -/
def toMsgQuatStamped (x : TStamped (Quat ℝ)) (out : Stamped (Quat ℝ)) : Stamped (Quat ℝ) :=
  let out := { out with header := headerOf x out.header }
  { out with data := toMsgQuat x.data out.data }

/-- `fromMsg(QuaternionStamped, …)`, tf2_geometry_msgs.h:402-410. -/
def fromMsgQuatStamped (m : Stamped (Quat ℝ)) (out : TStamped (Quat ℝ)) : TStamped (Quat ℝ) :=
  let out := stampFrom m.header out
  { out with data := fromMsgQuat m.data out.data }

/-- `toMsg(tf2::Transform, Pose&)`, tf2_geometry_msgs.h:433-438. -/
noncomputable def toMsgPoseV (t : Xform ℝ) (out : PoseMsg) : PoseMsg :=
  let out := { out with position := toMsgVector t.origin out.position }
  { out with orientation := toMsgQuat t.getRotation out.orientation }

/-- `fromMsg(Pose, tf2::Transform)`, tf2_geometry_msgs.h:445-450. -/
noncomputable def fromMsgPoseV (m : PoseMsg) (out : Xform ℝ) : Xform ℝ :=
  let out := { out with origin := ⟨m.position.x, m.position.y, m.position.z⟩ }
  { out with basis := Mat3.ofQuat ⟨m.orientation.x, m.orientation.y, m.orientation.z, m.orientation.w⟩ }

/-- `toMsg(tf2::Stamped<tf2::Transform>, PoseStamped&)`, tf2_geometry_msgs.h:503-511. -/
noncomputable def toMsgPoseStamped (x : TStamped (Xform ℝ)) (out : Stamped PoseMsg) : Stamped PoseMsg :=
  let out := { out with header := headerOf x out.header }
  { out with data := toMsgPoseV x.data out.data }

/-- `fromMsg(PoseStamped, tf2::Stamped<tf2::Transform>)`, tf2_geometry_msgs.h:518-526. -/
noncomputable def fromMsgPoseStamped (m : Stamped PoseMsg) (out : TStamped (Xform ℝ)) : TStamped (Xform ℝ) :=
  let out := stampFrom m.header out
  { out with data := fromMsgPoseV m.data Xform.identity }

/-- `toMsg(tf2::Stamped<tf2::Transform>, PoseWithCovarianceStamped&)`, tf2_geometry_msgs.h:577-585: the
covariance is not written. -/
noncomputable def toMsgPoseCovStamped (x : TStamped (Xform ℝ)) (out : Stamped PoseCov) : Stamped PoseCov :=
  let out := { out with header := headerOf x out.header }
  { out with data := { out.data with pose := toMsgPoseV x.data out.data.pose } }

/-- `toMsg(tf2::Stamped<tf2::Transform>)` → `TransformStamped`, tf2_geometry_msgs.h:686-695: the child frame
stays empty. -/
noncomputable def toMsgTfStamped (x : TStamped (Xform ℝ)) : TfStamped :=
  let out : TfStamped := ⟨Header.fresh, [], ⟨⟨0, 0, 0, 0⟩, ⟨0, 0, 0⟩⟩⟩
  let out := { out with header := headerOf x out.header }
  { out with transform := toMsgT x.data }

/-- `fromMsg(TransformStamped, tf2::Stamped<tf2::Transform>)`, tf2_geometry_msgs.h:703-711. -/
noncomputable def fromMsgTfStamped (m : TfStamped) (out : TStamped (Xform ℝ)) : TStamped (Xform ℝ) :=
  let out := stampFrom m.header out
  { out with data := fromMsgT m.transform }

end Lin

/-! ## `tf2_eigen` -/

namespace Eigen

/-- `transformToEigen`, tf2_eigen.h:48-60. -/
def toEigen (L : RotLib) (t : Pose) : Xform ℝ := ⟨L.ofQuat t.rot, t.trans⟩

/-- `eigenToTransform`, tf2_eigen.h:67-108 (the same for `Affine3d` and `Isometry3d`): the rotation is taken
from the matrix, with no choice of sign. -/
def ofEigen (L : RotLib) (x : Xform ℝ) : TfStamped :=
  let q := L.toQuat x.basis
  ⟨Header.fresh, [], ⟨⟨q.x, q.y, q.z, q.w⟩, ⟨x.origin.x, x.origin.y, x.origin.z⟩⟩⟩

/-- `toMsg(Eigen::Vector3d)` → `Point`, tf2_eigen.h:126-133 (`Vector3`: 154-160). -/
def toMsgVector (v : Vec3 ℝ) (out : Vec3 ℝ) : Vec3 ℝ :=
  let out := { out with x := v.x }
  let out := { out with y := v.y }
  { out with z := v.z }

/-- `fromMsg(Point, Eigen::Vector3d)`, tf2_eigen.h:141-146 (`Vector3`: 168-173). -/
def fromMsgVector (m : Vec3 ℝ) (out : Vec3 ℝ) : Vec3 ℝ :=
  let out := { out with x := m.x }
  let out := { out with y := m.y }
  { out with z := m.z }

/-- `toMsg(Stamped<Vector3d>)` → `PointStamped`, tf2_eigen.h:197-204. -/
def toMsgVectorStamped (x : TStamped (Vec3 ℝ)) : Stamped (Vec3 ℝ) :=
  let out : Stamped (Vec3 ℝ) := ⟨Header.fresh, ⟨0, 0, 0⟩⟩
  let out := { out with header := headerOf x out.header }
  { out with data := toMsgVector x.data ⟨0, 0, 0⟩ }

/-- `fromMsg(PointStamped, Stamped<Vector3d>)`, tf2_eigen.h:212-216. -/
def fromMsgVectorStamped (m : Stamped (Vec3 ℝ)) (out : TStamped (Vec3 ℝ)) : TStamped (Vec3 ℝ) :=
  let out := stampFrom m.header out
  { out with data := fromMsgVector m.data out.data }

/-- `toMsg(Eigen::Quaterniond)`, tf2_eigen.h:249-256. -/
def toMsgQuat (q : Quat ℝ) (out : Quat ℝ) : Quat ℝ :=
  let out := { out with w := q.w }
  let out := { out with x := q.x }
  let out := { out with y := q.y }
  { out with z := q.z }

/-- The constructor `Eigen::Quaterniond(w, x, y, z)`: `w` comes first. -/
def quaternion (w x y z : ℝ) : Quat ℝ := ⟨x, y, z, w⟩

/-- `fromMsg(Quaternion, Eigen::Quaterniond)`, tf2_eigen.h:264-266. -/
def fromMsgQuat (m : Quat ℝ) (_out : Quat ℝ) : Quat ℝ := quaternion m.w m.x m.y m.z

/-- `toMsg(Stamped<Quaterniond>)`, tf2_eigen.h:293-299. -/
def toMsgQuatStamped (x : TStamped (Quat ℝ)) : Stamped (Quat ℝ) :=
  let out : Stamped (Quat ℝ) := ⟨Header.fresh, ⟨0, 0, 0, 0⟩⟩
  let out := { out with header := headerOf x out.header }
  { out with data := toMsgQuat x.data ⟨0, 0, 0, 0⟩ }

/-- `fromMsg(QuaternionStamped, Stamped<Quaterniond>)`, tf2_eigen.h:307-311. -/
def fromMsgQuatStamped (m : Stamped (Quat ℝ)) (out : TStamped (Quat ℝ)) : TStamped (Quat ℝ) :=
  let out := { out with frame := m.header.frame }
  let out := { out with stamp := m.header.stamp }
  { out with data := fromMsgQuat m.data out.data }

/-- `toMsg(Affine3d)`, tf2_eigen.h:335-352, and `toMsg(Isometry3d)`, 360-377: the quaternion is negated when
its `w` is negative. -/
noncomputable def toMsgPose (L : RotLib) (x : Xform ℝ) : PoseMsg :=
  let q := L.toQuat x.basis
  let m : PoseMsg := ⟨⟨x.origin.x, x.origin.y, x.origin.z⟩, ⟨q.x, q.y, q.z, q.w⟩⟩
  if m.orientation.w < 0 then
    { m with orientation := ⟨m.orientation.x * -1, m.orientation.y * -1, m.orientation.z * -1, m.orientation.w * -1⟩ }
  else m

/-- `fromMsg(Pose, Affine3d)`, tf2_eigen.h:385-392, and `fromMsg(Pose, Isometry3d)`, 400-407. -/
def fromMsgPose (L : RotLib) (m : PoseMsg) (_out : Xform ℝ) : Xform ℝ :=
  ⟨L.ofQuat (quaternion m.orientation.w m.orientation.x m.orientation.y m.orientation.z),
   ⟨m.position.x, m.position.y, m.position.z⟩⟩

/-- `toMsg(Stamped<Affine3d>)`, tf2_eigen.h:481-488 (`Isometry3d`: 491-498). -/
noncomputable def toMsgPoseStamped (L : RotLib) (x : TStamped (Xform ℝ)) : Stamped PoseMsg :=
  let out : Stamped PoseMsg := ⟨Header.fresh, ⟨⟨0, 0, 0⟩, ⟨0, 0, 0, 0⟩⟩⟩
  let out := { out with header := headerOf x out.header }
  { out with data := toMsgPose L x.data }

/-- `fromMsg(PoseStamped, Stamped<Affine3d>)`, tf2_eigen.h:506-511 (`Isometry3d`: 514-519). -/
def fromMsgPoseStamped (L : RotLib) (m : Stamped PoseMsg) (out : TStamped (Xform ℝ)) : TStamped (Xform ℝ) :=
  let out := stampFrom m.header out
  { out with data := fromMsgPose L m.data out.data }

/-- `toMsg(Matrix<double,6,1>)` → `Twist`, tf2_eigen.h:415-424. -/
def toMsgTwist (v : Fin 6 → ℝ) : Twist := ⟨⟨v 0, v 1, v 2⟩, ⟨v 3, v 4, v 5⟩⟩

/-- One assignment `out[i] = x`. -/
def put6 (i : Fin 6) (x : ℝ) (out : Fin 6 → ℝ) : Fin 6 → ℝ := fun j => if j = i then x else out j

/-- `fromMsg(Twist, Matrix<double,6,1>)`, tf2_eigen.h:432-439. -/
def fromMsgTwist (m : Twist) (out : Fin 6 → ℝ) : Fin 6 → ℝ :=
  let out := put6 0 m.linear.x out
  let out := put6 1 m.linear.y out
  let out := put6 2 m.linear.z out
  let out := put6 3 m.angular.x out
  let out := put6 4 m.angular.y out
  put6 5 m.angular.z out

/-- `doTransform(Vector3d, …)`, tf2_eigen.h:115-118. -/
def doVector (L : RotLib) (inp out : Ref S (Vec3 ℝ)) (tf : TfStamped) (s : S) : S :=
  out.set ((toEigen L tf.transform).apply (inp.get s)) s

/-- `doTransform(Stamped<Vector3d>, …)`, tf2_eigen.h:183-189. -/
def doVectorStamped (L : RotLib) (inp out : Ref S (TStamped (Vec3 ℝ))) (tf : TfStamped) (s : S) : S :=
  out.set ⟨(toEigen L tf.transform).apply (inp.get s).data, tf.header.stamp, tf.header.frame⟩ s

/-- `doTransform(Affine3d, …)`, tf2_eigen.h:229-233, and `doTransform(Isometry3d, …)`, 237-241. -/
def doPose (L : RotLib) (inp out : Ref S (Xform ℝ)) (tf : TfStamped) (s : S) : S :=
  out.set ((toEigen L tf.transform).mul (inp.get s)) s

/-- `doTransform(Stamped<Affine3d>, …)`, tf2_eigen.h:452-456, and `Stamped<Isometry3d>`, 469-473. -/
def doPoseStamped (L : RotLib) (inp out : Ref S (TStamped (Xform ℝ))) (tf : TfStamped) (s : S) : S :=
  out.set ⟨(toEigen L tf.transform).mul (inp.get s).data, tf.header.stamp, tf.header.frame⟩ s

end Eigen

/-! ## `tf2_kdl` -/

namespace Kdl

/-- `transformToKDL`, tf2_kdl.h:51-56. -/
def toKdl (L : RotLib) (t : Pose) : Xform ℝ :=
  ⟨L.ofQuat ⟨t.rot.x, t.rot.y, t.rot.z, t.rot.w⟩, ⟨t.trans.x, t.trans.y, t.trans.z⟩⟩

/-- `kdlToTransform`, tf2_kdl.h:63-71. -/
def ofKdl (L : RotLib) (k : Xform ℝ) : TfStamped :=
  ⟨Header.fresh, [], ⟨L.toQuat k.basis, ⟨k.origin.x, k.origin.y, k.origin.z⟩⟩⟩

/-- `toMsg(Stamped<KDL::Vector>)` → `PointStamped`, tf2_kdl.h:95-104. -/
def toMsgVectorStamped (x : TStamped (Vec3 ℝ)) : Stamped (Vec3 ℝ) :=
  ⟨headerOf x Header.fresh, ⟨x.data.x, x.data.y, x.data.z⟩⟩

/-- `fromMsg(PointStamped, Stamped<KDL::Vector>)`, tf2_kdl.h:112-119. -/
def fromMsgVectorStamped (m : Stamped (Vec3 ℝ)) (out : TStamped (Vec3 ℝ)) : TStamped (Vec3 ℝ) :=
  let out := stampFrom m.header out
  let out := { out with data := { out.data with x := m.data.x } }
  let out := { out with data := { out.data with y := m.data.y } }
  { out with data := { out.data with z := m.data.z } }

/-- `toMsg(Stamped<KDL::Twist>)`, tf2_kdl.h:143-155. -/
def toMsgTwistStamped (x : TStamped Twist) : Stamped Twist :=
  ⟨headerOf x Header.fresh,
   ⟨⟨x.data.linear.x, x.data.linear.y, x.data.linear.z⟩, ⟨x.data.angular.x, x.data.angular.y, x.data.angular.z⟩⟩⟩

/-- `fromMsg(TwistStamped, Stamped<KDL::Twist>)`, tf2_kdl.h:163-173. -/
def fromMsgTwistStamped (m : Stamped Twist) (out : TStamped Twist) : TStamped Twist :=
  let out := stampFrom m.header out
  let out := { out with data := { out.data with linear := { out.data.linear with x := m.data.linear.x } } }
  let out := { out with data := { out.data with linear := { out.data.linear with y := m.data.linear.y } } }
  let out := { out with data := { out.data with linear := { out.data.linear with z := m.data.linear.z } } }
  let out := { out with data := { out.data with angular := { out.data.angular with x := m.data.angular.x } } }
  let out := { out with data := { out.data with angular := { out.data.angular with y := m.data.angular.y } } }
  { out with data := { out.data with angular := { out.data.angular with z := m.data.angular.z } } }

/-- `toMsg(Stamped<KDL::Wrench>)`, tf2_kdl.h:198-210. -/
def toMsgWrenchStamped (x : TStamped Wrench) : Stamped Wrench :=
  ⟨headerOf x Header.fresh,
   ⟨⟨x.data.force.x, x.data.force.y, x.data.force.z⟩, ⟨x.data.torque.x, x.data.torque.y, x.data.torque.z⟩⟩⟩

/-- `fromMsg(WrenchStamped, Stamped<KDL::Wrench>)`, tf2_kdl.h:218-228. -/
def fromMsgWrenchStamped (m : Stamped Wrench) (out : TStamped Wrench) : TStamped Wrench :=
  let out := stampFrom m.header out
  let out := { out with data := { out.data with force := { out.data.force with x := m.data.force.x } } }
  let out := { out with data := { out.data with force := { out.data.force with y := m.data.force.y } } }
  let out := { out with data := { out.data with force := { out.data.force with z := m.data.force.z } } }
  let out := { out with data := { out.data with torque := { out.data.torque with x := m.data.torque.x } } }
  let out := { out with data := { out.data with torque := { out.data.torque with y := m.data.torque.y } } }
  { out with data := { out.data with torque := { out.data.torque with z := m.data.torque.z } } }

/-- `toMsg(KDL::Frame)` → `Pose`, tf2_kdl.h:255-263. -/
def toMsgPose (L : RotLib) (k : Xform ℝ) : PoseMsg :=
  ⟨⟨k.origin.x, k.origin.y, k.origin.z⟩, L.toQuat k.basis⟩

/-- `fromMsg(Pose, KDL::Frame)`, tf2_kdl.h:271-277. -/
def fromMsgPose (L : RotLib) (m : PoseMsg) (out : Xform ℝ) : Xform ℝ :=
  let out := { out with origin := { out.origin with x := m.position.x } }
  let out := { out with origin := { out.origin with y := m.position.y } }
  let out := { out with origin := { out.origin with z := m.position.z } }
  { out with basis := L.ofQuat ⟨m.orientation.x, m.orientation.y, m.orientation.z, m.orientation.w⟩ }

/-- `toMsg(Stamped<KDL::Frame>)`, tf2_kdl.h:285-292. -/
def toMsgPoseStamped (L : RotLib) (x : TStamped (Xform ℝ)) : Stamped PoseMsg :=
  ⟨headerOf x Header.fresh, toMsgPose L x.data⟩

/-- `fromMsg(PoseStamped, Stamped<KDL::Frame>)`, tf2_kdl.h:300-305. -/
def fromMsgPoseStamped (L : RotLib) (m : Stamped PoseMsg) (out : TStamped (Xform ℝ)) : TStamped (Xform ℝ) :=
  let out := stampFrom m.header out
  { out with data := fromMsgPose L m.data out.data }

/-- KDL's `Frame * Twist`: `rot' = M rot`, `vel' = M vel + p × rot'` (frames.inl of orocos_kdl, not in the
repo). -/
def frameTwist (k : Xform ℝ) (t : Twist) : Twist :=
  let rot := k.basis.mulVec t.angular
  ⟨(k.basis.mulVec t.linear).add (k.origin.cross rot), rot⟩

/-- KDL's `Frame * Wrench`: `force' = M force`, `torque' = M torque + p × force'` (frames.inl of
orocos_kdl, not in the repo). -/
def frameWrench (k : Xform ℝ) (w : Wrench) : Wrench :=
  let force := k.basis.mulVec w.force
  ⟨force, (k.basis.mulVec w.torque).add (k.origin.cross force)⟩

/-- `doTransform(Stamped<KDL::Vector>, …)`, tf2_kdl.h:84-87. -/
def doVectorStamped (L : RotLib) (inp out : Ref S (TStamped (Vec3 ℝ))) (tf : TfStamped) (s : S) : S :=
  out.set ⟨(toKdl L tf.transform).apply (inp.get s).data, tf.header.stamp, tf.header.frame⟩ s

/-- `doTransform(Stamped<KDL::Twist>, …)`, tf2_kdl.h:132-135. -/
def doTwistStamped (L : RotLib) (inp out : Ref S (TStamped Twist)) (tf : TfStamped) (s : S) : S :=
  out.set ⟨frameTwist (toKdl L tf.transform) (inp.get s).data, tf.header.stamp, tf.header.frame⟩ s

/-- `doTransform(Stamped<KDL::Wrench>, …)`, tf2_kdl.h:187-190. -/
def doWrenchStamped (L : RotLib) (inp out : Ref S (TStamped Wrench)) (tf : TfStamped) (s : S) : S :=
  out.set ⟨frameWrench (toKdl L tf.transform) (inp.get s).data, tf.header.stamp, tf.header.frame⟩ s

/-- `doTransform(Stamped<KDL::Frame>, …)`, tf2_kdl.h:244-247. -/
def doPoseStamped (L : RotLib) (inp out : Ref S (TStamped (Xform ℝ))) (tf : TfStamped) (s : S) : S :=
  out.set ⟨(toKdl L tf.transform).mul (inp.get s).data, tf.header.stamp, tf.header.frame⟩ s

end Kdl

/-! ## `tf2_bullet` -/

namespace Bullet

/-- `transformToBullet`, tf2_bullet.h:47-52. -/
def toBullet (L : RotLib) (t : Pose) : Xform ℝ :=
  ⟨L.ofQuat ⟨t.rot.x, t.rot.y, t.rot.z, t.rot.w⟩, ⟨t.trans.x, t.trans.y, t.trans.z⟩⟩

/-- `doTransform(Stamped<btVector3>, …)`, tf2_bullet.h:63-66. -/
def doVectorStamped (L : RotLib) (inp out : Ref S (TStamped (Vec3 ℝ))) (tf : TfStamped) (s : S) : S :=
  out.set ⟨(toBullet L tf.transform).apply (inp.get s).data, tf.header.stamp, tf.header.frame⟩ s

/-- `toMsg(Stamped<btVector3>)`, tf2_bullet.h:74-83. -/
def toMsgVectorStamped (x : TStamped (Vec3 ℝ)) : Stamped (Vec3 ℝ) :=
  ⟨headerOf x Header.fresh, ⟨x.data.x, x.data.y, x.data.z⟩⟩

/-- `fromMsg(PointStamped, Stamped<btVector3>)`, tf2_bullet.h:91-98. -/
def fromMsgVectorStamped (m : Stamped (Vec3 ℝ)) (out : TStamped (Vec3 ℝ)) : TStamped (Vec3 ℝ) :=
  let out := stampFrom m.header out
  let out := { out with data := { out.data with x := m.data.x } }
  let out := { out with data := { out.data with y := m.data.y } }
  { out with data := { out.data with z := m.data.z } }

/-- `doTransform(Stamped<btTransform>, …)`, tf2_bullet.h:109-112. -/
def doPoseStamped (L : RotLib) (inp out : Ref S (TStamped (Xform ℝ))) (tf : TfStamped) (s : S) : S :=
  out.set ⟨(toBullet L tf.transform).mul (inp.get s).data, tf.header.stamp, tf.header.frame⟩ s

end Bullet

/-! ## The Python functions on messages (`tf2_geometry_msgs.py`), which go through PyKDL -/

namespace Py

/-- `do_transform_point`, tf2_geometry_msgs.py:58-66. -/
def doPoint (L : RotLib) (m : Stamped (Vec3 ℝ)) (tf : TfStamped) : Stamped (Vec3 ℝ) :=
  let p := (Kdl.toKdl L tf.transform).apply ⟨m.data.x, m.data.y, m.data.z⟩
  ⟨tf.header, ⟨p.x, p.y, p.z⟩⟩

/-- `do_transform_vector3`, tf2_geometry_msgs.py:71-83: a copy of the transform with the translation set to
zero. -/
def doVector (L : RotLib) (m : Stamped (Vec3 ℝ)) (tf : TfStamped) : Stamped (Vec3 ℝ) :=
  let t : Pose := { tf.transform with trans := ⟨0, 0, 0⟩ }
  let p := (Kdl.toKdl L t).apply ⟨m.data.x, m.data.y, m.data.z⟩
  ⟨tf.header, ⟨p.x, p.y, p.z⟩⟩

/-- `do_transform_pose`, tf2_geometry_msgs.py:87-97. -/
def doPose (L : RotLib) (m : Stamped PoseMsg) (tf : TfStamped) : Stamped PoseMsg :=
  let o := m.data.orientation
  let p := m.data.position
  let f := (Kdl.toKdl L tf.transform).mul ⟨L.ofQuat ⟨o.x, o.y, o.z, o.w⟩, ⟨p.x, p.y, p.z⟩⟩
  ⟨tf.header, ⟨⟨f.origin.x, f.origin.y, f.origin.z⟩, L.toQuat f.basis⟩⟩

end Py

/-! ## `tf2::convert` -/

/-- A type taking part in `tf2::convert`: is it a message, and its conversions to and from the message type
`M` (unused for the message itself). -/
structure Convertible (M A : Type) where
  toMsg : A → M
  fromMsg : M → A → A

/-- `Converter<true,false>::convert`: `fromMsg(a, b)`, tf2/include/tf2/impl/convert.h:54-62. -/
def convertFromMsg {M B : Type} (cb : Convertible M B) (a : M) (b : B) : B := cb.fromMsg a b

/-- `Converter<false,true>::convert`: `b = toMsg(a)`, impl/convert.h:65-73. -/
def convertToMsg {M A : Type} (ca : Convertible M A) (a : A) (_b : M) : M := ca.toMsg a

/-- `Converter<false,false>::convert`: `fromMsg(toMsg(a), b)`, impl/convert.h:76-84. -/
def convertTypes {M A B : Type} (ca : Convertible M A) (cb : Convertible M B) (a : A) (b : B) : B :=
  cb.fromMsg (ca.toMsg a) b

/-- `convert(a1, a2)` of two objects of the same type: `if (&a1 != &a2) a2 = a1`, tf2/convert.h:119-125.
`same`: the two arguments are one object. -/
def convertSame {A : Type} (a1 a2 : Ref S A) (same : Bool) (s : S) : S :=
  if !same then a2.set (a1.get s) s else s

end Tf2.Geo
