import Verif.Model.RoundedInterp

/-!
# `tf2::Transform` with rounding

The matrices behind `tf2::Transform` and the five-argument `lookupTransform`, on the machine of `Verif.Model.Rounded`:
every `+`, `-`, `*` and `/` on `double`s is followed by a rounding, in the order of the source. `sqrt` is the function of
the C library.
-/
namespace Tf2

namespace Rounding

variable (F : Rounding) (sqrt : ℝ → ℝ)

/-- `Matrix3x3::setRotation`, tf2/include/tf2/LinearMath/Matrix3x3.h:148-160, and the constructor from a quaternion,
Matrix3x3.h:45. -/
noncomputable def basis (q : Quat ℝ) : Mat3 ℝ :=
  let d := F.dot q q
  let s := F.rnd (2 / d)
  let xs := F.rnd (q.x * s); let ys := F.rnd (q.y * s); let zs := F.rnd (q.z * s)
  let wx := F.rnd (q.w * xs); let wy := F.rnd (q.w * ys); let wz := F.rnd (q.w * zs)
  let xx := F.rnd (q.x * xs); let xy := F.rnd (q.x * ys); let xz := F.rnd (q.x * zs)
  let yy := F.rnd (q.y * ys); let yz := F.rnd (q.y * zs); let zz := F.rnd (q.z * zs)
  ⟨⟨F.rnd (1 - F.rnd (yy + zz)), F.rnd (xy - wz), F.rnd (xz + wy)⟩,
   ⟨F.rnd (xy + wz), F.rnd (1 - F.rnd (xx + zz)), F.rnd (yz - wx)⟩,
   ⟨F.rnd (xz - wy), F.rnd (yz + wx), F.rnd (1 - F.rnd (xx + yy))⟩⟩

/-- `a*b + c*d + e*f` -/
def dot3 (a b c d e f : ℝ) : ℝ := F.rnd (F.rnd (F.rnd (a * b) + F.rnd (c * d)) + F.rnd (e * f))

/-- `tdotx`, `tdoty`, `tdotz`, Matrix3x3.h:395-406: a row of the product with `m` on the right. -/
def rowTimes (v : Vec3 ℝ) (m : Mat3 ℝ) : Vec3 ℝ :=
  ⟨F.dot3 m.r0.x v.x m.r1.x v.y m.r2.x v.z, F.dot3 m.r0.y v.x m.r1.y v.y m.r2.y v.z,
   F.dot3 m.r0.z v.x m.r1.z v.y m.r2.z v.z⟩

/-- `operator*(m1, m2)`, Matrix3x3.h:615-622. -/
def matMul (m1 m2 : Mat3 ℝ) : Mat3 ℝ := ⟨F.rowTimes m1.r0 m2, F.rowTimes m1.r1 m2, F.rowTimes m1.r2 m2⟩

/-- `Transform::operator()(x)`, tf2/include/tf2/LinearMath/Transform.h:91-96, with `Vector3::dot`, Vector3.h:123-126. -/
def apply (t : Xform ℝ) (v : Vec3 ℝ) : Vec3 ℝ :=
  ⟨F.rnd (F.dot3 t.basis.r0.x v.x t.basis.r0.y v.y t.basis.r0.z v.z + t.origin.x),
   F.rnd (F.dot3 t.basis.r1.x v.x t.basis.r1.y v.y t.basis.r1.z v.z + t.origin.y),
   F.rnd (F.dot3 t.basis.r2.x v.x t.basis.r2.y v.y t.basis.r2.z v.z + t.origin.z)⟩

/-- The constructor `Transform(q, c)`, Transform.h:46-50; `transformMsgToTF2`, tf2/src/buffer_core.cpp:50-51. -/
noncomputable def toXform (a : Pose) : Xform ℝ := ⟨F.basis a.rot, a.trans⟩

/-- `Transform::operator*`, Transform.h:236-241. -/
def times (a b : Xform ℝ) : Xform ℝ := ⟨F.matMul a.basis b.basis, F.apply a b.origin⟩

/-- `Matrix3x3::getRotation`, Matrix3x3.h:245-279. -/
noncomputable def getRotation (m : Mat3 ℝ) : Quat ℝ :=
  let trace := F.rnd (F.rnd (m.r0.x + m.r1.y) + m.r2.z)
  if trace > 0 then
    let s := sqrt (F.rnd (trace + 1))
    let t3 := F.rnd (s * (1 / 2))
    let s := F.rnd ((1 / 2) / s)
    ⟨F.rnd (F.rnd (m.r2.y - m.r1.z) * s), F.rnd (F.rnd (m.r0.z - m.r2.x) * s), F.rnd (F.rnd (m.r1.x - m.r0.y) * s), t3⟩
  else
    let i : Fin 3 := if m.r0.x < m.r1.y then (if m.r1.y < m.r2.z then 2 else 1)
      else (if m.r0.x < m.r2.z then 2 else 0)
    let j : Fin 3 := i + 1
    let k : Fin 3 := i + 2
    let s := sqrt (F.rnd (F.rnd (F.rnd (m.el i i - m.el j j) - m.el k k) + 1))
    let ti := F.rnd (s * (1 / 2))
    let s := F.rnd ((1 / 2) / s)
    let t3 := F.rnd (F.rnd (m.el k j - m.el j k) * s)
    let tj := F.rnd (F.rnd (m.el j i + m.el i j) * s)
    let tk := F.rnd (F.rnd (m.el k i + m.el i k) * s)
    let temp := fun n : Fin 3 => if n = i then ti else if n = j then tj else tk
    ⟨temp 0, temp 1, temp 2, t3⟩

/-- `transformTF2ToMsg(tf2*tf1, output.transform)`, tf2/src/buffer_core.cpp:54-63, 665-668. -/
noncomputable def mulMsg (a b : Pose) : Pose :=
  let t := F.times (F.toXform a) (F.toXform b)
  ⟨F.getRotation sqrt t.basis, t.origin⟩

/-- The transforms of a buffer with this arithmetic, the product of the five-argument lookup included. -/
@[reducible] noncomputable def rigid5 : Rigid Pose := { F.rigid with mulMsg := F.mulMsg sqrt }

/-- `lookupTransform(target, target_time, source, source_time, fixed)`, on this machine. -/
noncomputable def lookup5 (b : Buf Pose) (target : Name) (ttime : Time) (source : Name) (stime : Time) (fixed : Name) :
    Res (Msg Pose) :=
  @Buf.lookupTransform5 Pose (F.rigid5 sqrt) b target ttime source stime fixed

end Rounding

end Tf2
