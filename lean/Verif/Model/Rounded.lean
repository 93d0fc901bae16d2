import Verif.Model.Pose
import Verif.Model.BufferCore

/-!
# The arithmetic of a lookup with rounding

`Verif.Model.Pose` computes with real numbers.  Here every `+`, `-` and `*` on `double`s is followed by a rounding, in
the order in which the C++ source performs them.  Negation is exact.  Not modelled: infinities and NaN (results stay
below the overflow threshold, see `Rounding.err` and the hypotheses of the theorems), contraction of `a*b+c` into one
instruction, excess precision of x87.  `slerp` and `setInterpolate3` are one operation `interp` of unspecified accuracy.
-/
namespace Tf2

/-- The arithmetic of the machine: `rnd` is applied to the exact result of every operation; its error is at most
`u` times the result plus `η` (gradual underflow), for results of size at most `Ω` (no overflow). -/
structure Rounding where
  rnd : ℝ → ℝ
  u : ℝ
  η : ℝ
  Ω : ℝ
  u_nonneg : 0 ≤ u
  η_nonneg : 0 ≤ η
  err : ∀ x, |x| ≤ Ω → |rnd x - x| ≤ u * |x| + η
  /-- the interpolation of `TimeCache::interpolate`, tf2/src/cache.cpp:195-201 -/
  interp : Pose → Pose → Int → Int → Pose

namespace Rounding

variable (F : Rounding)

/-- `((p + q) + r) + s` -/
def sum4 (p q r s : ℝ) : ℝ := F.rnd (F.rnd (F.rnd (p + q) + r) + s)

/-- `operator*(q1, q2)`, Quaternion.h:364-370, and `operator*=`, Quaternion.h:146-153: the same expressions. -/
def mul (a b : Quat ℝ) : Quat ℝ :=
  ⟨F.sum4 (F.rnd (a.w * b.x)) (F.rnd (a.x * b.w)) (F.rnd (a.y * b.z)) (-F.rnd (a.z * b.y)),
   F.sum4 (F.rnd (a.w * b.y)) (F.rnd (a.y * b.w)) (F.rnd (a.z * b.x)) (-F.rnd (a.x * b.z)),
   F.sum4 (F.rnd (a.w * b.z)) (F.rnd (a.z * b.w)) (F.rnd (a.x * b.y)) (-F.rnd (a.y * b.x)),
   F.sum4 (F.rnd (a.w * b.w)) (-F.rnd (a.x * b.x)) (-F.rnd (a.y * b.y)) (-F.rnd (a.z * b.z))⟩

/-- `operator*(q, v)`, Quaternion.h:372-379. -/
def mulVec (q : Quat ℝ) (w : Vec3 ℝ) : Quat ℝ :=
  ⟨F.rnd (F.rnd (F.rnd (q.w * w.x) + F.rnd (q.y * w.z)) - F.rnd (q.z * w.y)),
   F.rnd (F.rnd (F.rnd (q.w * w.y) + F.rnd (q.z * w.x)) - F.rnd (q.x * w.z)),
   F.rnd (F.rnd (F.rnd (q.w * w.z) + F.rnd (q.x * w.y)) - F.rnd (q.y * w.x)),
   F.rnd (F.rnd (F.rnd (-q.x * w.x) - F.rnd (q.y * w.y)) - F.rnd (q.z * w.z))⟩

/-- `quatRotate`, Quaternion.h:437-443. -/
def rotate (r : Quat ℝ) (v : Vec3 ℝ) : Vec3 ℝ :=
  let q := F.mul (F.mulVec r v) r.inverse
  ⟨q.x, q.y, q.z⟩

/-- `operator+` of vectors, Vector3.h:340-344. -/
def addVec (a b : Vec3 ℝ) : Vec3 ℝ := ⟨F.rnd (a.x + b.x), F.rnd (a.y + b.y), F.rnd (a.z + b.z)⟩

/-- One step of the accumulator, tf2/src/buffer_core.cpp:542-543, 547-548, 575-576. -/
def comp (a b : Pose) : Pose := ⟨F.mul a.rot b.rot, F.addVec (F.rotate a.rot b.trans) a.trans⟩

/-- Inverting the target side, tf2/src/buffer_core.cpp:564-567, 572-573. -/
def inv (a : Pose) : Pose := ⟨a.rot.inverse, F.rotate a.rot.inverse a.trans.neg⟩

/-- `valid`, tf2/src/buffer_core.cpp:249-252, with the tolerance of line 47. -/
noncomputable def normOK (a : Pose) : Bool :=
  decide (|F.rnd (F.sum4 (F.rnd (a.rot.w * a.rot.w)) (F.rnd (a.rot.x * a.rot.x)) (F.rnd (a.rot.y * a.rot.y))
    (F.rnd (a.rot.z * a.rot.z)) - 1)| < F.rnd (10e-3))

/-- The transforms of a buffer with this arithmetic (`mulMsg`, the product of the five-argument lookup, is left
exact and not used; see `Rounding.rigid5`, `Verif.Model.RoundedProduct`). -/
@[reducible] noncomputable def rigid : Rigid Pose where
  one := Pose.one
  comp := F.comp
  inv := F.inv
  interp := F.interp
  mulMsg := Pose.mulMsg
  hasNaN := fun _ => false
  normOK := F.normOK

/-- `setTransform` and `clear` calls on a new buffer, on this machine. -/
noncomputable def run (D : Duration) (ops : List (Op Pose)) : Buf Pose := @Buf.run Pose F.rigid (Buf.init D) ops

/-- `lookupTransform`, on this machine. -/
noncomputable def lookup (b : Buf Pose) (target source : Name) (t : Time) : Res (Msg Pose) :=
  @Buf.lookupTransform Pose F.rigid b target source t

end Rounding

end Tf2
