import Verif.Model.Rounded

/-!
# Interpolation with rounding

`TimeCache::interpolate` as in `Verif.Model.Pose`, with a rounding after every operation on `double`s, in the order of
the C++ source.  `sin`, `acos` and `sqrt` of the C library are parameters.  Conversions of integers below 2^53 to `double`
are exact.  Not modelled: infinities and NaN, contraction of `a*b+c` into one instruction, excess precision of x87.
-/
namespace Tf2

/-- The functions of the C library used by interpolation, tf2/include/tf2/LinearMath/Scalar.h:177-182. -/
structure Libm where
  sin : ℝ → ℝ
  acos : ℝ → ℝ
  sqrt : ℝ → ℝ

/-- `tf2Acos`, Scalar.h:182: the argument is clamped. -/
noncomputable def Libm.acosClamped (M : Libm) (x : ℝ) : ℝ :=
  let x := if x < -1 then -1 else x
  let x := if x > 1 then 1 else x
  M.acos x

namespace Rounding

variable (F : Rounding) (M : Libm)

/-- `dot`, Quaternion.h:156-159; `length2()` is `dot(*this)`, 162-165. -/
def dot (a b : Quat ℝ) : ℝ :=
  F.sum4 (F.rnd (a.x * b.x)) (F.rnd (a.y * b.y)) (F.rnd (a.z * b.z)) (F.rnd (a.w * b.w))

/-- `angleShortestPath(q)`, Quaternion.h:220-228. -/
noncomputable def angleShortestPath (a q : Quat ℝ) : ℝ :=
  let s := M.sqrt (F.rnd (F.dot a a * F.dot q q))
  if F.dot a q < 0 then F.rnd (M.acosClamped (F.rnd (F.dot a q.neg / s)) * 2)
  else F.rnd (M.acosClamped (F.rnd (F.dot a q / s)) * 2)

/-- `(p * s0 + r * s1) * d`, Quaternion.h:325-333 -/
def mix (s0 s1 d p r : ℝ) : ℝ := F.rnd (F.rnd (F.rnd (p * s0) + F.rnd (r * s1)) * d)

/-- `slerp(q, t)`, Quaternion.h:316-344 and 426-430. -/
noncomputable def slerp (a q : Quat ℝ) (t : ℝ) : Quat ℝ :=
  let theta := F.rnd (F.angleShortestPath M a q / 2)
  if theta ≠ 0 then
    let d := F.rnd (1 / M.sin theta)
    let s0 := M.sin (F.rnd (F.rnd (1 - t) * theta))
    let s1 := M.sin (F.rnd (t * theta))
    if F.dot a q < 0 then
      ⟨F.mix s0 s1 d a.x (-q.x), F.mix s0 s1 d a.y (-q.y), F.mix s0 s1 d a.z (-q.z), F.mix s0 s1 d a.w (-q.w)⟩
    else
      ⟨F.mix s0 s1 d a.x q.x, F.mix s0 s1 d a.y q.y, F.mix s0 s1 d a.z q.z, F.mix s0 s1 d a.w q.w⟩
  else a

/-- `setInterpolate3(v0, v1, rt)`, Vector3.h:220-228. -/
def interpolate3 (v0 v1 : Vec3 ℝ) (rt : ℝ) : Vec3 ℝ :=
  let s := F.rnd (1 - rt)
  ⟨F.rnd (F.rnd (s * v0.x) + F.rnd (rt * v1.x)), F.rnd (F.rnd (s * v0.y) + F.rnd (rt * v1.y)),
   F.rnd (F.rnd (s * v0.z) + F.rnd (rt * v1.z))⟩

/-- `ros::Duration::toSec()` of a duration of `n` nanoseconds: `(double)sec + 1e-9 * (double)nsec` (roscpp). -/
noncomputable def toSec (n : Int) : ℝ :=
  F.rnd (((n / 1000000000 : Int) : ℝ) + F.rnd (F.rnd (1e-9) * ((n % 1000000000 : Int) : ℝ)))

/-- `TimeCache::interpolate`, tf2/src/cache.cpp:186-204; the case of equal stamps is in `interpolate`,
`Verif.Model.Cache`. -/
noncomputable def interpolate (a b : Pose) (num den : Int) : Pose :=
  let ratio := F.rnd (F.toSec num / F.toSec den)
  ⟨F.slerp M a.rot b.rot ratio, F.interpolate3 a.trans b.trans ratio⟩

end Rounding

end Tf2
