import Verif.Model.RoundedInterp

/-!
# The arithmetic of a lookup with infinities and NaN

`Verif.Model.Rounded` and `Verif.Model.RoundedInterp` compute with finite numbers only.  Here a `double` is a finite
number, an infinity or NaN, and `+ - * /`, comparisons and `sqrt` are those of IEEE 754, overflow included.  The two zeros
are one number (division by zero takes it for the positive one).  Not modelled: contraction of `a*b+c` into one
instruction, excess precision of x87.
-/
namespace Tf2

/-- A `double`. -/
inductive Fl where
  | fin (x : ℝ)
  | inf (neg : Bool)
  | nan

namespace Fl

/-- `std::isnan` -/
def isNaN : Fl → Bool
  | nan => true
  | _ => false

/-- unary `-` -/
def neg : Fl → Fl
  | fin x => fin (-x)
  | inf s => inf (!s)
  | nan => nan

/-- `std::abs` -/
def abs : Fl → Fl
  | fin x => fin |x|
  | inf _ => inf false
  | nan => nan

/-- `<`: false when one side is NaN. -/
noncomputable def lt : Fl → Fl → Bool
  | fin x, fin y => decide (x < y)
  | fin _, inf s => !s
  | inf s, fin _ => s
  | inf s, inf t => s && !t
  | _, _ => false

/-- `x != 0.0`: true of NaN. -/
noncomputable def ne0 : Fl → Bool
  | fin x => decide (x ≠ 0)
  | _ => true

end Fl

/-- The machine: `fl` rounds the exact result of an operation to a finite number or to an infinity, `lib` is the C
library on finite arguments. -/
structure Machine where
  fl : ℝ → Fl
  lib : Libm

/-- `tf2::Quaternion` and `tf2::Vector3` of `double`s: a stored transform. -/
abbrev FPose := Quat Fl × Vec3 Fl

namespace Machine

variable (K : Machine)

/-- `+` -/
def add : Fl → Fl → Fl
  | .fin x, .fin y => K.fl (x + y)
  | .fin _, .inf s => .inf s
  | .inf s, .fin _ => .inf s
  | .inf s, .inf t => if s = t then .inf s else .nan
  | _, _ => .nan

/-- binary `-` -/
def sub (a b : Fl) : Fl := K.add a b.neg

/-- The sign of a finite number times an infinity; zero times an infinity is NaN. -/
noncomputable def infTimes (s : Bool) (x : ℝ) : Fl := if x = 0 then .nan else .inf (xor s (decide (x < 0)))

/-- `*` -/
noncomputable def mul : Fl → Fl → Fl
  | .fin x, .fin y => K.fl (x * y)
  | .fin x, .inf s => infTimes s x
  | .inf s, .fin x => infTimes s x
  | .inf s, .inf t => .inf (xor s t)
  | _, _ => .nan

/-- `/` -/
noncomputable def div : Fl → Fl → Fl
  | .fin x, .fin y => if y = 0 then (if x = 0 then .nan else .inf (decide (x < 0))) else K.fl (x / y)
  | .fin _, .inf _ => .fin 0
  | .inf s, .fin y => .inf (xor s (decide (y < 0)))
  | _, _ => .nan

/-- `sqrt` -/
noncomputable def sqrt : Fl → Fl
  | .fin x => if x < 0 then .nan else .fin (K.lib.sqrt x)
  | .inf false => .inf false
  | _ => .nan

/-- `sin` -/
def sin : Fl → Fl
  | .fin x => .fin (K.lib.sin x)
  | _ => .nan

/-- `tf2Acos`, Scalar.h:182: the argument is clamped, also an infinite one. -/
noncomputable def acos : Fl → Fl
  | .fin x => .fin (K.lib.acosClamped x)
  | .inf s => .fin (K.lib.acos (if s then -1 else 1))
  | .nan => .nan

/-- `((p + q) + r) + s` -/
def sum4 (p q r s : Fl) : Fl := K.add (K.add (K.add p q) r) s

/-- `operator*(q1, q2)`, Quaternion.h:364-370, and `operator*=`, Quaternion.h:146-153. -/
noncomputable def mulQ (a b : Quat Fl) : Quat Fl :=
  ⟨K.sub (K.add (K.add (K.mul a.w b.x) (K.mul a.x b.w)) (K.mul a.y b.z)) (K.mul a.z b.y),
   K.sub (K.add (K.add (K.mul a.w b.y) (K.mul a.y b.w)) (K.mul a.z b.x)) (K.mul a.x b.z),
   K.sub (K.add (K.add (K.mul a.w b.z) (K.mul a.z b.w)) (K.mul a.x b.y)) (K.mul a.y b.x),
   K.sub (K.sub (K.sub (K.mul a.w b.w) (K.mul a.x b.x)) (K.mul a.y b.y)) (K.mul a.z b.z)⟩

/-- `operator*(q, v)`, Quaternion.h:372-379. -/
noncomputable def mulVec (q : Quat Fl) (w : Vec3 Fl) : Quat Fl :=
  ⟨K.sub (K.add (K.mul q.w w.x) (K.mul q.y w.z)) (K.mul q.z w.y),
   K.sub (K.add (K.mul q.w w.y) (K.mul q.z w.x)) (K.mul q.x w.z),
   K.sub (K.add (K.mul q.w w.z) (K.mul q.x w.y)) (K.mul q.y w.x),
   K.sub (K.sub (K.mul q.x.neg w.x) (K.mul q.y w.y)) (K.mul q.z w.z)⟩

/-- `inverse()`, Quaternion.h:259-262. -/
def inverse (q : Quat Fl) : Quat Fl := ⟨q.x.neg, q.y.neg, q.z.neg, q.w⟩

/-- unary `-` of a vector, Vector3.h:360-364 -/
def negVec (v : Vec3 Fl) : Vec3 Fl := ⟨v.x.neg, v.y.neg, v.z.neg⟩

/-- `quatRotate`, Quaternion.h:437-443. -/
noncomputable def rotate (r : Quat Fl) (v : Vec3 Fl) : Vec3 Fl :=
  let q := K.mulQ (K.mulVec r v) (inverse r)
  ⟨q.x, q.y, q.z⟩

/-- `operator+` of vectors, Vector3.h:340-344. -/
def addVec (a b : Vec3 Fl) : Vec3 Fl := ⟨K.add a.x b.x, K.add a.y b.y, K.add a.z b.z⟩

/-- Initial values of `TransformAccum`, tf2/src/buffer_core.cpp:519-524. -/
noncomputable def one : FPose := (⟨.fin 0, .fin 0, .fin 0, .fin 1⟩, ⟨.fin 0, .fin 0, .fin 0⟩)

/-- One step of the accumulator, tf2/src/buffer_core.cpp:542-543, 547-548, 575-576. -/
noncomputable def comp (a b : FPose) : FPose := (K.mulQ a.1 b.1, K.addVec (K.rotate a.1 b.2) a.2)

/-- Inverting the target side, tf2/src/buffer_core.cpp:564-567, 572-573. -/
noncomputable def inv (a : FPose) : FPose := (inverse a.1, K.rotate (inverse a.1) (negVec a.2))

/-- `dot`, Quaternion.h:156-159; `length2()` is `dot(*this)`, 162-165. -/
noncomputable def dot (a b : Quat Fl) : Fl := K.sum4 (K.mul a.x b.x) (K.mul a.y b.y) (K.mul a.z b.z) (K.mul a.w b.w)

/-- unary `-`, Quaternion.h:284-288 -/
def negQ (q : Quat Fl) : Quat Fl := ⟨q.x.neg, q.y.neg, q.z.neg, q.w.neg⟩

/-- `angleShortestPath(q)`, Quaternion.h:220-228. -/
noncomputable def angleShortestPath (a q : Quat Fl) : Fl :=
  let s := K.sqrt (K.mul (K.dot a a) (K.dot q q))
  if (K.dot a q).lt (.fin 0) then K.mul (K.acos (K.div (K.dot a (negQ q)) s)) (.fin 2)
  else K.mul (K.acos (K.div (K.dot a q) s)) (.fin 2)

/-- `(p * s0 + r * s1) * d`, Quaternion.h:325-333 -/
noncomputable def mix (s0 s1 d p r : Fl) : Fl := K.mul (K.add (K.mul p s0) (K.mul r s1)) d

/-- `slerp(q, t)`, Quaternion.h:316-344 and 426-430. -/
noncomputable def slerp (a q : Quat Fl) (t : Fl) : Quat Fl :=
  let theta := K.div (K.angleShortestPath a q) (.fin 2)
  if theta.ne0 then
    let d := K.div (.fin 1) (K.sin theta)
    let s0 := K.sin (K.mul (K.sub (.fin 1) t) theta)
    let s1 := K.sin (K.mul t theta)
    if (K.dot a q).lt (.fin 0) then
      ⟨K.mix s0 s1 d a.x q.x.neg, K.mix s0 s1 d a.y q.y.neg, K.mix s0 s1 d a.z q.z.neg, K.mix s0 s1 d a.w q.w.neg⟩
    else
      ⟨K.mix s0 s1 d a.x q.x, K.mix s0 s1 d a.y q.y, K.mix s0 s1 d a.z q.z, K.mix s0 s1 d a.w q.w⟩
  else a

/-- `setInterpolate3(v0, v1, rt)`, Vector3.h:220-228. -/
noncomputable def interpolate3 (v0 v1 : Vec3 Fl) (rt : Fl) : Vec3 Fl :=
  let s := K.sub (.fin 1) rt
  ⟨K.add (K.mul s v0.x) (K.mul rt v1.x), K.add (K.mul s v0.y) (K.mul rt v1.y), K.add (K.mul s v0.z) (K.mul rt v1.z)⟩

/-- `ros::Duration::toSec()` of a duration of `n` nanoseconds: `(double)sec + 1e-9 * (double)nsec` (roscpp). -/
noncomputable def toSec (n : Int) : Fl :=
  K.add (.fin ((n / 1000000000 : Int) : ℝ)) (K.mul (K.fl 1e-9) (.fin ((n % 1000000000 : Int) : ℝ)))

/-- `TimeCache::interpolate`, tf2/src/cache.cpp:186-204; the case of equal stamps is in `interpolate`,
`Verif.Model.Cache`. -/
noncomputable def interp (a b : FPose) (num den : Int) : FPose :=
  let ratio := K.div (K.toSec num) (K.toSec den)
  (K.slerp a.1 b.1 ratio, K.interpolate3 a.2 b.2 ratio)

/-- The check for NaN, tf2/src/buffer_core.cpp:238-239. -/
def hasNaN (a : FPose) : Bool :=
  a.2.x.isNaN || a.2.y.isNaN || a.2.z.isNaN || a.1.x.isNaN || a.1.y.isNaN || a.1.z.isNaN || a.1.w.isNaN

/-- `valid`, tf2/src/buffer_core.cpp:249-252, with the tolerance of line 47. -/
noncomputable def normOK (a : FPose) : Bool :=
  (K.sub (K.sum4 (K.mul a.1.w a.1.w) (K.mul a.1.x a.1.x) (K.mul a.1.y a.1.y) (K.mul a.1.z a.1.z)) (.fin 1)).abs.lt (K.fl (10e-3))

/-! ### `tf2::Transform`, for the five-argument lookup -/

/-- `Matrix3x3::setRotation`, tf2/include/tf2/LinearMath/Matrix3x3.h:148-160, and the constructor from a quaternion,
Matrix3x3.h:45. -/
noncomputable def basis (q : Quat Fl) : Mat3 Fl :=
  let d := K.dot q q
  let s := K.div (.fin 2) d
  let xs := K.mul q.x s; let ys := K.mul q.y s; let zs := K.mul q.z s
  let wx := K.mul q.w xs; let wy := K.mul q.w ys; let wz := K.mul q.w zs
  let xx := K.mul q.x xs; let xy := K.mul q.x ys; let xz := K.mul q.x zs
  let yy := K.mul q.y ys; let yz := K.mul q.y zs; let zz := K.mul q.z zs
  ⟨⟨K.sub (.fin 1) (K.add yy zz), K.sub xy wz, K.add xz wy⟩,
   ⟨K.add xy wz, K.sub (.fin 1) (K.add xx zz), K.sub yz wx⟩,
   ⟨K.sub xz wy, K.add yz wx, K.sub (.fin 1) (K.add xx yy)⟩⟩

/-- `a*b + c*d + e*f` -/
noncomputable def dot3 (a b c d e f : Fl) : Fl := K.add (K.add (K.mul a b) (K.mul c d)) (K.mul e f)

/-- `tdotx`, `tdoty`, `tdotz`, Matrix3x3.h:395-406: a row of the product with `m` on the right. -/
noncomputable def rowTimes (v : Vec3 Fl) (m : Mat3 Fl) : Vec3 Fl :=
  ⟨K.dot3 m.r0.x v.x m.r1.x v.y m.r2.x v.z, K.dot3 m.r0.y v.x m.r1.y v.y m.r2.y v.z,
   K.dot3 m.r0.z v.x m.r1.z v.y m.r2.z v.z⟩

/-- `operator*(m1, m2)`, Matrix3x3.h:615-622. -/
noncomputable def matMul (m1 m2 : Mat3 Fl) : Mat3 Fl := ⟨K.rowTimes m1.r0 m2, K.rowTimes m1.r1 m2, K.rowTimes m1.r2 m2⟩

/-- `Transform::operator()(x)`, tf2/include/tf2/LinearMath/Transform.h:91-96, with `Vector3::dot`, Vector3.h:123-126. -/
noncomputable def apply (t : Xform Fl) (v : Vec3 Fl) : Vec3 Fl :=
  ⟨K.add (K.dot3 t.basis.r0.x v.x t.basis.r0.y v.y t.basis.r0.z v.z) t.origin.x,
   K.add (K.dot3 t.basis.r1.x v.x t.basis.r1.y v.y t.basis.r1.z v.z) t.origin.y,
   K.add (K.dot3 t.basis.r2.x v.x t.basis.r2.y v.y t.basis.r2.z v.z) t.origin.z⟩

/-- The constructor `Transform(q, c)`, Transform.h:46-50; `transformMsgToTF2`, tf2/src/buffer_core.cpp:50-51. -/
noncomputable def toXform (a : FPose) : Xform Fl := ⟨K.basis a.1, a.2⟩

/-- `Transform::operator*`, Transform.h:236-241. -/
noncomputable def times (a b : Xform Fl) : Xform Fl := ⟨K.matMul a.basis b.basis, K.apply a b.origin⟩

/-- `m_el[i][j]` -/
def el (m : Mat3 Fl) (i j : Fin 3) : Fl :=
  let row := match i with
    | 0 => m.r0
    | 1 => m.r1
    | 2 => m.r2
  match j with
  | 0 => row.x
  | 1 => row.y
  | 2 => row.z

/-- `Matrix3x3::getRotation`, Matrix3x3.h:245-279. -/
noncomputable def getRotation (m : Mat3 Fl) : Quat Fl :=
  let trace := K.add (K.add m.r0.x m.r1.y) m.r2.z
  if (Fl.fin 0).lt trace then
    let s := K.sqrt (K.add trace (.fin 1))
    let t3 := K.mul s (.fin (1 / 2))
    let s := K.div (.fin (1 / 2)) s
    ⟨K.mul (K.sub m.r2.y m.r1.z) s, K.mul (K.sub m.r0.z m.r2.x) s, K.mul (K.sub m.r1.x m.r0.y) s, t3⟩
  else
    let i : Fin 3 := if m.r0.x.lt m.r1.y then (if m.r1.y.lt m.r2.z then 2 else 1)
      else (if m.r0.x.lt m.r2.z then 2 else 0)
    let j : Fin 3 := i + 1
    let k : Fin 3 := i + 2
    let s := K.sqrt (K.add (K.sub (K.sub (el m i i) (el m j j)) (el m k k)) (.fin 1))
    let ti := K.mul s (.fin (1 / 2))
    let s := K.div (.fin (1 / 2)) s
    let t3 := K.mul (K.sub (el m k j) (el m j k)) s
    let tj := K.mul (K.add (el m j i) (el m i j)) s
    let tk := K.mul (K.add (el m k i) (el m i k)) s
    let temp := fun n : Fin 3 => if n = i then ti else if n = j then tj else tk
    ⟨temp 0, temp 1, temp 2, t3⟩

/-- `transformTF2ToMsg(tf2*tf1, output.transform)`, tf2/src/buffer_core.cpp:54-63, 665-668. -/
noncomputable def mulMsg (a b : FPose) : FPose :=
  let t := K.times (K.toXform a) (K.toXform b)
  (K.getRotation t.basis, t.origin)

/-- The transforms of a buffer on this machine. -/
@[reducible] noncomputable def rigid : Rigid FPose where
  one := one
  comp := K.comp
  inv := K.inv
  interp := K.interp
  mulMsg := K.mulMsg
  hasNaN := hasNaN
  normOK := K.normOK

/-- `setTransform` and `clear` calls on a new buffer, on this machine. -/
noncomputable def run (D : Duration) (ops : List (Op FPose)) : Buf FPose := @Buf.run FPose K.rigid (Buf.init D) ops

/-- `setTransform`, on this machine. -/
noncomputable def setTransform (b : Buf FPose) (m : Msg FPose) (authority : Name) (static : Bool) : Buf FPose × Buf.SetRes :=
  @Buf.setTransform FPose K.rigid b m authority static

/-- `lookupTransform`, on this machine. -/
noncomputable def lookup (b : Buf FPose) (target source : Name) (t : Time) : Res (Msg FPose) :=
  @Buf.lookupTransform FPose K.rigid b target source t

/-- `lookupTransform(target, target_time, source, source_time, fixed)`, on this machine. -/
noncomputable def lookup5 (b : Buf FPose) (target : Name) (ttime : Time) (source : Name) (stime : Time) (fixed : Name) :
    Res (Msg FPose) :=
  @Buf.lookupTransform5 FPose K.rigid b target ttime source stime fixed

end Machine

end Tf2
