import Verif.Model.Cache
import Verif.Model.LinearMath

/-!
# The concrete transforms of a buffer: quaternion and translation over the reals

This instance of `Rigid` is what the abstract operations of `Verif.Model.Cache` stand for.
-/
namespace Tf2

/-- `tf2::Quaternion rotation_; tf2::Vector3 translation_;`
(tf2/include/tf2/transform_storage.h:75-76), also `geometry_msgs::Transform`. -/
@[ext] structure Pose where
  rot : Quat ℝ
  trans : Vec3 ℝ

namespace Pose

/-- Initial values of `TransformAccum`, tf2/src/buffer_core.cpp:519-524. -/
def one : Pose := ⟨Quat.identity, Vec3.zero⟩

/-- `vec = quatRotate(a.rot, b.vec) + a.vec; quat = a.rot * b.rot`,
tf2/src/buffer_core.cpp:542-543, 547-548, 575-576. -/
def comp (a b : Pose) : Pose := ⟨a.rot.mul b.rot, (a.rot.rotate b.trans).add a.trans⟩

/-- `inv_target_quat = quat.inverse(); inv_target_vec = quatRotate(inv_target_quat, -vec)`,
tf2/src/buffer_core.cpp:564-567, 572-573. -/
def inv (a : Pose) : Pose := ⟨a.rot.inverse, a.rot.inverse.rotate a.trans.neg⟩

/-- `TimeCache::interpolate`, tf2/src/cache.cpp:195-201.  `toSec()` of a duration is its nanosecond
count divided by 1e9, which cancels in the ratio. -/
noncomputable def interp (a b : Pose) (num den : Int) : Pose :=
  let ratio : ℝ := (num : ℝ) / (den : ℝ)
  ⟨a.rot.slerp b.rot ratio, Vec3.interpolate3 a.trans b.trans ratio⟩

/-- `transformMsgToTF2`, tf2/src/buffer_core.cpp:50-51. -/
noncomputable def toXform (a : Pose) : Xform ℝ := Xform.ofQuat a.rot a.trans

/-- `transformTF2ToMsg`, tf2/src/buffer_core.cpp:54-63. -/
noncomputable def ofXform (t : Xform ℝ) : Pose := ⟨t.getRotation, t.origin⟩

/-- `transformTF2ToMsg(tf2*tf1, output.transform)`, tf2/src/buffer_core.cpp:665-668. -/
noncomputable def mulMsg (a b : Pose) : Pose := ofXform (a.toXform.mul b.toXform)

/-- `valid`, tf2/src/buffer_core.cpp:249-252 with the tolerance `10e-3` of line 47. -/
noncomputable def normOK (a : Pose) : Bool :=
  decide (|(a.rot.w * a.rot.w + a.rot.x * a.rot.x + a.rot.y * a.rot.y + a.rot.z * a.rot.z) - 1| < 10e-3)

end Pose

/-- The operations performed by the C++, on real numbers.  NaN does not occur. -/
noncomputable instance : Rigid Pose where
  one := Pose.one
  comp := Pose.comp
  inv := Pose.inv
  interp := Pose.interp
  mulMsg := Pose.mulMsg
  hasNaN := fun _ => false
  normOK := Pose.normOK

end Tf2
