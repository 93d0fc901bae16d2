import Mathlib.Analysis.Real.Sqrt
import Mathlib.Analysis.SpecialFunctions.Trigonometric.Inverse
import Mathlib.Analysis.SpecialFunctions.Complex.Arg

/-!
# `tf2/include/tf2/LinearMath`: vectors, quaternions, matrices and rigid transforms

Scalars are the elements of a commutative ring / field for the polynomial operations, and real
numbers where square roots or trigonometric functions occur.  `double` rounding, infinities, NaN and
signed zeros are not modelled.  The fourth, always zero, component of `tf2::Vector3` is left out.
-/
namespace Tf2

/-- `tf2::Vector3`, tf2/include/tf2/LinearMath/Vector3.h:38-83 (components x, y, z). -/
@[ext] structure Vec3 (K : Type) where
  x : K
  y : K
  z : K
deriving DecidableEq, Repr

/-- `tf2::Quaternion`, tf2/include/tf2/LinearMath/Quaternion.h:30-39. -/
@[ext] structure Quat (K : Type) where
  x : K
  y : K
  z : K
  w : K
deriving DecidableEq, Repr

/-- `tf2::Matrix3x3`: three rows, tf2/include/tf2/LinearMath/Matrix3x3.h:33-36. -/
@[ext] structure Mat3 (K : Type) where
  r0 : Vec3 K
  r1 : Vec3 K
  r2 : Vec3 K
deriving DecidableEq, Repr

/-- `tf2::Transform`, tf2/include/tf2/LinearMath/Transform.h:32-37. -/
@[ext] structure Xform (K : Type) where
  basis : Mat3 K
  origin : Vec3 K
deriving DecidableEq, Repr

namespace Vec3
variable {K : Type} [CommRing K]

/-- `operator+`, Vector3.h:340-344. -/
def add (a b : Vec3 K) : Vec3 K := ⟨a.x + b.x, a.y + b.y, a.z + b.z⟩
/-- binary `operator-`, Vector3.h:354-358. -/
def sub (a b : Vec3 K) : Vec3 K := ⟨a.x - b.x, a.y - b.y, a.z - b.z⟩
/-- unary `operator-`, Vector3.h:360-364. -/
def neg (a : Vec3 K) : Vec3 K := ⟨-a.x, -a.y, -a.z⟩
/-- `operator*` by a scalar, Vector3.h:367-371. -/
def scale (a : Vec3 K) (s : K) : Vec3 K := ⟨a.x * s, a.y * s, a.z * s⟩
/-- `dot`, Vector3.h:123-126. -/
def dot (a b : Vec3 K) : K := a.x * b.x + a.y * b.y + a.z * b.z
/-- `cross`, Vector3.h:181-187. -/
def cross (a b : Vec3 K) : Vec3 K :=
  ⟨a.y * b.z - a.z * b.y, a.z * b.x - a.x * b.z, a.x * b.y - a.y * b.x⟩
/-- `triple`, Vector3.h:189-194. -/
def triple (a v1 v2 : Vec3 K) : K :=
  a.x * (v1.y * v2.z - v1.z * v2.y) + a.y * (v1.z * v2.x - v1.x * v2.z) +
    a.z * (v1.x * v2.y - v1.y * v2.x)
/-- `setInterpolate3`, Vector3.h:220-228. -/
def interpolate3 (v0 v1 : Vec3 K) (rt : K) : Vec3 K :=
  let s := 1 - rt
  ⟨s * v0.x + rt * v1.x, s * v0.y + rt * v1.y, s * v0.z + rt * v1.z⟩
/-- `lerp`, Vector3.h:233-238. -/
def lerp (a v : Vec3 K) (t : K) : Vec3 K :=
  ⟨a.x + (v.x - a.x) * t, a.y + (v.y - a.y) * t, a.z + (v.z - a.z) * t⟩
/-- `length2`, Vector3.h:129-132. -/
def length2 (a : Vec3 K) : K := a.dot a
/-- `distance2`: `(v - *this).length2()`, Vector3.h:461-465. -/
def distance2 (a v : Vec3 K) : K := (v.sub a).length2
/-- the zero vector, `Vector3(0,0,0)` -/
def zero : Vec3 K := ⟨0, 0, 0⟩

/-- `length`, Vector3.h:135-138. -/
noncomputable def length (a : Vec3 ℝ) : ℝ := Real.sqrt a.length2
/-- `Vector3::rotate`, Vector3.h:478-490. -/
noncomputable def rotate (v wAxis : Vec3 ℝ) (angle : ℝ) : Vec3 ℝ :=
  let o := wAxis.scale (wAxis.dot v)
  let x := v.sub o
  let y := wAxis.cross v
  (o.add (x.scale (Real.cos angle))).add (y.scale (Real.sin angle))

end Vec3

/-- `tf2Acos`, tf2/include/tf2/LinearMath/Scalar.h:182 (argument clamped to [-1,1]; `Real.arccos`
is constant outside, so the clamping is written out only for the record). -/
noncomputable def tf2Acos (x : ℝ) : ℝ :=
  let x := if x < -1 then -1 else x
  let x := if x > 1 then 1 else x
  Real.arccos x

/-- `tf2Asin`, Scalar.h:183. -/
noncomputable def tf2Asin (x : ℝ) : ℝ :=
  let x := if x < -1 then -1 else x
  let x := if x > 1 then 1 else x
  Real.arcsin x

/-- `tf2Atan2(y, x)` / `atan2(y, x)`, Scalar.h:185: the argument of `x + iy` in `(-π, π]`, 0 at the
origin (signed zeros are not modelled). -/
noncomputable def tf2Atan2 (y x : ℝ) : ℝ := Complex.arg ⟨x, y⟩

namespace Quat
variable {K : Type} [CommRing K]

/-- `operator*(q1, q2)`, Quaternion.h:364-370 (and `operator*=`, 146-153). -/
def mul (a b : Quat K) : Quat K :=
  ⟨a.w * b.x + a.x * b.w + a.y * b.z - a.z * b.y,
   a.w * b.y + a.y * b.w + a.z * b.x - a.x * b.z,
   a.w * b.z + a.z * b.w + a.x * b.y - a.y * b.x,
   a.w * b.w - a.x * b.x - a.y * b.y - a.z * b.z⟩
/-- `operator*(q, v)`, Quaternion.h:372-379. -/
def mulVec (q : Quat K) (w : Vec3 K) : Quat K :=
  ⟨q.w * w.x + q.y * w.z - q.z * w.y,
   q.w * w.y + q.z * w.x - q.x * w.z,
   q.w * w.z + q.x * w.y - q.y * w.x,
   -q.x * w.x - q.y * w.y - q.z * w.z⟩
/-- `inverse` (the conjugate), Quaternion.h:259-262. -/
def inverse (q : Quat K) : Quat K := ⟨-q.x, -q.y, -q.z, q.w⟩
/-- unary `operator-`, Quaternion.h:284-288. -/
def neg (q : Quat K) : Quat K := ⟨-q.x, -q.y, -q.z, -q.w⟩
/-- `dot`, Quaternion.h:156-159. -/
def dot (a b : Quat K) : K := a.x * b.x + a.y * b.y + a.z * b.z + a.w * b.w
/-- `length2`, Quaternion.h:162-165. -/
def length2 (q : Quat K) : K := q.dot q
/-- scaling, Quaternion.h:182-186. -/
def scale (q : Quat K) (s : K) : Quat K := ⟨q.x * s, q.y * s, q.z * s, q.w * s⟩
/-- `getIdentity`, Quaternion.h:346-350. -/
def identity : Quat K := ⟨0, 0, 0, 1⟩
/-- `quatRotate`, Quaternion.h:437-443. -/
def rotate (r : Quat K) (v : Vec3 K) : Vec3 K :=
  let q := (r.mulVec v).mul r.inverse
  ⟨q.x, q.y, q.z⟩

/-- `length`, Quaternion.h:168-171. -/
noncomputable def length (q : Quat ℝ) : ℝ := Real.sqrt q.length2
/-- `normalize` / `normalized`, Quaternion.h:175-178, 206-209 (division by zero asserts in debug
builds only; here `1/0 = 0`). -/
noncomputable def normalize (q : Quat ℝ) : Quat ℝ := q.scale (1 / q.length)
/-- `setRotation(axis, angle)`, Quaternion.h:63-70. -/
noncomputable def ofAxisAngle (axis : Vec3 ℝ) (angle : ℝ) : Quat ℝ :=
  let d := axis.length
  let s := Real.sin (angle * (1 / 2)) / d
  ⟨axis.x * s, axis.y * s, axis.z * s, Real.cos (angle * (1 / 2))⟩
/-- `setEuler(yaw, pitch, roll)`, Quaternion.h:75-90. -/
noncomputable def ofEuler (yaw pitch roll : ℝ) : Quat ℝ :=
  let cosYaw := Real.cos (yaw * (1 / 2)); let sinYaw := Real.sin (yaw * (1 / 2))
  let cosPitch := Real.cos (pitch * (1 / 2)); let sinPitch := Real.sin (pitch * (1 / 2))
  let cosRoll := Real.cos (roll * (1 / 2)); let sinRoll := Real.sin (roll * (1 / 2))
  ⟨cosRoll * sinPitch * cosYaw + sinRoll * cosPitch * sinYaw,
   cosRoll * cosPitch * sinYaw - sinRoll * sinPitch * cosYaw,
   sinRoll * cosPitch * cosYaw - cosRoll * sinPitch * sinYaw,
   cosRoll * cosPitch * cosYaw + sinRoll * sinPitch * sinYaw⟩
/-- `setRPY(roll, pitch, yaw)`, Quaternion.h:95-110. -/
noncomputable def ofRPY (roll pitch yaw : ℝ) : Quat ℝ :=
  let cosYaw := Real.cos (yaw * (1 / 2)); let sinYaw := Real.sin (yaw * (1 / 2))
  let cosPitch := Real.cos (pitch * (1 / 2)); let sinPitch := Real.sin (pitch * (1 / 2))
  let cosRoll := Real.cos (roll * (1 / 2)); let sinRoll := Real.sin (roll * (1 / 2))
  ⟨sinRoll * cosPitch * cosYaw - cosRoll * sinPitch * sinYaw,
   cosRoll * sinPitch * cosYaw + sinRoll * cosPitch * sinYaw,
   cosRoll * cosPitch * sinYaw - sinRoll * sinPitch * cosYaw,
   cosRoll * cosPitch * cosYaw + sinRoll * sinPitch * sinYaw⟩
/-- `angleShortestPath(q)`, Quaternion.h:220-228. -/
noncomputable def angleShortestPath (a q : Quat ℝ) : ℝ :=
  let s := Real.sqrt (a.length2 * q.length2)
  if a.dot q < 0 then tf2Acos (a.dot q.neg / s) * 2 else tf2Acos (a.dot q / s) * 2
/-- `getAngle()`, Quaternion.h:230-234. -/
noncomputable def getAngle (q : Quat ℝ) : ℝ := 2 * tf2Acos q.w
/-- `getAngleShortestPath()`, Quaternion.h:237-246. -/
noncomputable def getAngleShortestPath (q : Quat ℝ) : ℝ :=
  if q.w ≥ 0 then 2 * tf2Acos q.w else 2 * tf2Acos (-q.w)
/-- `getAxis()`, Quaternion.h:249-256; `eps` is `TF2SIMD_EPSILON`. -/
noncomputable def getAxis (eps : ℝ) (q : Quat ℝ) : Vec3 ℝ :=
  let s2 := 1 - q.w ^ 2
  if s2 < 10 * eps then ⟨1, 0, 0⟩
  else let s := Real.sqrt s2; ⟨q.x / s, q.y / s, q.z / s⟩
/-- `slerp(q, t)`, Quaternion.h:316-344. -/
noncomputable def slerp (a q : Quat ℝ) (t : ℝ) : Quat ℝ :=
  let theta := a.angleShortestPath q / 2
  if theta ≠ 0 then
    let d := 1 / Real.sin theta
    let s0 := Real.sin ((1 - t) * theta)
    let s1 := Real.sin (t * theta)
    if a.dot q < 0 then
      ⟨(a.x * s0 + -q.x * s1) * d, (a.y * s0 + -q.y * s1) * d,
       (a.z * s0 + -q.z * s1) * d, (a.w * s0 + -q.w * s1) * d⟩
    else
      ⟨(a.x * s0 + q.x * s1) * d, (a.y * s0 + q.y * s1) * d,
       (a.z * s0 + q.z * s1) * d, (a.w * s0 + q.w * s1) * d⟩
  else a

end Quat

namespace Mat3
variable {K : Type} [CommRing K]

/-- `m_el[i]`, Matrix3x3.h:97-110. -/
def row (m : Mat3 K) : Fin 3 → Vec3 K
  | 0 => m.r0
  | 1 => m.r1
  | 2 => m.r2
/-- `m_el[i][j]` (implicit conversion of `Vector3` to its array, Vector3.h:273-274). -/
def el (m : Mat3 K) (i : Fin 3) : Fin 3 → K
  | 0 => (m.row i).x
  | 1 => (m.row i).y
  | 2 => (m.row i).z
/-- `setIdentity`, Matrix3x3.h:210-215. -/
def identity : Mat3 K := ⟨⟨1, 0, 0⟩, ⟨0, 1, 0⟩, ⟨0, 0, 1⟩⟩
/-- `getColumn`, Matrix3x3.h:83-86. -/
def column (m : Mat3 K) (i : Fin 3) : Vec3 K := ⟨m.el 0 i, m.el 1 i, m.el 2 i⟩
/-- `tdotx`, Matrix3x3.h:395-398. -/
def tdotx (m : Mat3 K) (v : Vec3 K) : K := m.r0.x * v.x + m.r1.x * v.y + m.r2.x * v.z
/-- `tdoty`, Matrix3x3.h:399-402. -/
def tdoty (m : Mat3 K) (v : Vec3 K) : K := m.r0.y * v.x + m.r1.y * v.y + m.r2.y * v.z
/-- `tdotz`, Matrix3x3.h:403-406. -/
def tdotz (m : Mat3 K) (v : Vec3 K) : K := m.r0.z * v.x + m.r1.z * v.y + m.r2.z * v.z
/-- `operator*(m1, m2)`, Matrix3x3.h:615-622 (and `operator*=`, 524-531). -/
def mul (m1 m2 : Mat3 K) : Mat3 K :=
  ⟨⟨m2.tdotx m1.r0, m2.tdoty m1.r0, m2.tdotz m1.r0⟩,
   ⟨m2.tdotx m1.r1, m2.tdoty m1.r1, m2.tdotz m1.r1⟩,
   ⟨m2.tdotx m1.r2, m2.tdoty m1.r2, m2.tdotz m1.r2⟩⟩
/-- `operator*(m, v)`, Matrix3x3.h:602-606. -/
def mulVec (m : Mat3 K) (v : Vec3 K) : Vec3 K := ⟨m.r0.dot v, m.r1.dot v, m.r2.dot v⟩
/-- `operator*(v, m)`, Matrix3x3.h:609-613. -/
def vecMul (v : Vec3 K) (m : Mat3 K) : Vec3 K := ⟨m.tdotx v, m.tdoty v, m.tdotz v⟩
/-- `transpose`, Matrix3x3.h:549-555. -/
def transpose (m : Mat3 K) : Mat3 K :=
  ⟨⟨m.r0.x, m.r1.x, m.r2.x⟩, ⟨m.r0.y, m.r1.y, m.r2.y⟩, ⟨m.r0.z, m.r1.z, m.r2.z⟩⟩
/-- `cofac`, Matrix3x3.h:506-509. -/
def cofac (m : Mat3 K) (r1 c1 r2 c2 : Fin 3) : K :=
  m.el r1 c1 * m.el r2 c2 - m.el r1 c2 * m.el r2 c1
/-- `determinant`: `tf2Triple` of the rows, Matrix3x3.h:533-537. -/
def determinant (m : Mat3 K) : K := m.r0.triple m.r1 m.r2
/-- `adjoint`, Matrix3x3.h:557-563. -/
def adjoint (m : Mat3 K) : Mat3 K :=
  ⟨⟨m.cofac 1 1 2 2, m.cofac 0 2 2 1, m.cofac 0 1 1 2⟩,
   ⟨m.cofac 1 2 2 0, m.cofac 0 0 2 2, m.cofac 0 2 1 0⟩,
   ⟨m.cofac 1 0 2 1, m.cofac 0 1 2 0, m.cofac 0 0 1 1⟩⟩
/-- `transposeTimes`, Matrix3x3.h:577-590. -/
def transposeTimes (a m : Mat3 K) : Mat3 K :=
  ⟨⟨a.r0.x * m.r0.x + a.r1.x * m.r1.x + a.r2.x * m.r2.x,
    a.r0.x * m.r0.y + a.r1.x * m.r1.y + a.r2.x * m.r2.y,
    a.r0.x * m.r0.z + a.r1.x * m.r1.z + a.r2.x * m.r2.z⟩,
   ⟨a.r0.y * m.r0.x + a.r1.y * m.r1.x + a.r2.y * m.r2.x,
    a.r0.y * m.r0.y + a.r1.y * m.r1.y + a.r2.y * m.r2.y,
    a.r0.y * m.r0.z + a.r1.y * m.r1.z + a.r2.y * m.r2.z⟩,
   ⟨a.r0.z * m.r0.x + a.r1.z * m.r1.x + a.r2.z * m.r2.x,
    a.r0.z * m.r0.y + a.r1.z * m.r1.y + a.r2.z * m.r2.y,
    a.r0.z * m.r0.z + a.r1.z * m.r1.z + a.r2.z * m.r2.z⟩⟩
/-- `timesTranspose`, Matrix3x3.h:592-600. -/
def timesTranspose (a m : Mat3 K) : Mat3 K :=
  ⟨⟨a.r0.dot m.r0, a.r0.dot m.r1, a.r0.dot m.r2⟩,
   ⟨a.r1.dot m.r0, a.r1.dot m.r1, a.r1.dot m.r2⟩,
   ⟨a.r2.dot m.r0, a.r2.dot m.r1, a.r2.dot m.r2⟩⟩
/-- `scaled`, Matrix3x3.h:374-379. -/
def scaled (m : Mat3 K) (s : Vec3 K) : Mat3 K :=
  ⟨⟨m.r0.x * s.x, m.r0.y * s.y, m.r0.z * s.z⟩,
   ⟨m.r1.x * s.x, m.r1.y * s.y, m.r1.z * s.z⟩,
   ⟨m.r2.x * s.x, m.r2.y * s.y, m.r2.z * s.z⟩⟩

section Field
variable {F : Type} [Field F]

/-- `setRotation(q)`, Matrix3x3.h:148-160.  For the zero quaternion the C++ divides by zero
(`tf2FullAssert` only); here `2/0 = 0`. -/
def ofQuat (q : Quat F) : Mat3 F :=
  let d := q.length2
  let s := 2 / d
  let xs := q.x * s; let ys := q.y * s; let zs := q.z * s
  let wx := q.w * xs; let wy := q.w * ys; let wz := q.w * zs
  let xx := q.x * xs; let xy := q.x * ys; let xz := q.x * zs
  let yy := q.y * ys; let yz := q.y * zs; let zz := q.z * zs
  ⟨⟨1 - (yy + zz), xy - wz, xz + wy⟩,
   ⟨xy + wz, 1 - (xx + zz), yz - wx⟩,
   ⟨xz - wy, yz + wx, 1 - (xx + yy)⟩⟩
/-- `inverse`, Matrix3x3.h:565-575. -/
def inverse (m : Mat3 F) : Mat3 F :=
  let co : Vec3 F := ⟨m.cofac 1 1 2 2, m.cofac 1 2 2 0, m.cofac 1 0 2 1⟩
  let det := m.r0.dot co
  let s := 1 / det
  ⟨⟨co.x * s, m.cofac 0 2 2 1 * s, m.cofac 0 1 1 2 * s⟩,
   ⟨co.y * s, m.cofac 0 0 2 2 * s, m.cofac 0 2 1 0 * s⟩,
   ⟨co.z * s, m.cofac 0 1 2 0 * s, m.cofac 0 0 1 1 * s⟩⟩
end Field

/-- `setEulerYPR(eulerZ, eulerY, eulerX)`, Matrix3x3.h:182-197. -/
noncomputable def ofEulerYPR (eulerZ eulerY eulerX : ℝ) : Mat3 ℝ :=
  let ci := Real.cos eulerX; let cj := Real.cos eulerY; let ch := Real.cos eulerZ
  let si := Real.sin eulerX; let sj := Real.sin eulerY; let sh := Real.sin eulerZ
  let cc := ci * ch; let cs := ci * sh; let sc := si * ch; let ss := si * sh
  ⟨⟨cj * ch, sj * sc - cs, sj * cc + ss⟩,
   ⟨cj * sh, sj * ss + cc, sj * cs - sc⟩,
   ⟨-sj, cj * si, cj * ci⟩⟩
/-- `setRPY(roll, pitch, yaw)`, Matrix3x3.h:205-207. -/
noncomputable def ofRPY (roll pitch yaw : ℝ) : Mat3 ℝ := ofEulerYPR yaw pitch roll

/-- `getRotation(q)`, Matrix3x3.h:245-279. -/
noncomputable def getRotation (m : Mat3 ℝ) : Quat ℝ :=
  let trace := m.r0.x + m.r1.y + m.r2.z
  if trace > 0 then
    let s := Real.sqrt (trace + 1)
    let t3 := s * (1 / 2)
    let s := (1 / 2) / s
    ⟨(m.r2.y - m.r1.z) * s, (m.r0.z - m.r2.x) * s, (m.r1.x - m.r0.y) * s, t3⟩
  else
    let i : Fin 3 := if m.r0.x < m.r1.y then (if m.r1.y < m.r2.z then 2 else 1)
      else (if m.r0.x < m.r2.z then 2 else 0)
    let j : Fin 3 := i + 1
    let k : Fin 3 := i + 2
    let s := Real.sqrt (m.el i i - m.el j j - m.el k k + 1)
    let ti := s * (1 / 2)
    let s := (1 / 2) / s
    let t3 := (m.el k j - m.el j k) * s
    let tj := (m.el j i + m.el i j) * s
    let tk := (m.el k i + m.el i k) * s
    let temp := fun n : Fin 3 => if n = i then ti else if n = j then tj else tk
    ⟨temp 0, temp 1, temp 2, t3⟩

/-- Yaw, pitch, roll as written by `getEulerYPR` (the local `struct Euler`, Matrix3x3.h:296-301). -/
structure Euler where
  yaw : ℝ
  pitch : ℝ
  roll : ℝ

/-- `getEulerYPR(yaw, pitch, roll, solution_number)`, Matrix3x3.h:294-359. -/
noncomputable def getEulerYPR (m : Mat3 ℝ) (solution : Nat) : Euler :=
  let out : Euler × Euler :=
    if |m.r2.x| ≥ 1 then
      let delta := tf2Atan2 m.r2.y m.r2.z
      if m.r2.x < 0 then
        (⟨0, Real.pi / 2, delta⟩, ⟨0, Real.pi / 2, delta⟩)
      else
        (⟨0, -Real.pi / 2, delta⟩, ⟨0, -Real.pi / 2, delta⟩)
    else
      let p1 := - tf2Asin m.r2.x
      let p2 := Real.pi - p1
      (⟨tf2Atan2 (m.r1.x / Real.cos p1) (m.r0.x / Real.cos p1), p1,
        tf2Atan2 (m.r2.y / Real.cos p1) (m.r2.z / Real.cos p1)⟩,
       ⟨tf2Atan2 (m.r1.x / Real.cos p2) (m.r0.x / Real.cos p2), p2,
        tf2Atan2 (m.r2.y / Real.cos p2) (m.r2.z / Real.cos p2)⟩)
  if solution = 1 then out.1 else out.2

end Mat3

namespace Xform
variable {K : Type} [CommRing K]

/-- `operator()(x)`, Transform.h:91-96 (and `operator*(x)`, 99-102). -/
def apply (t : Xform K) (v : Vec3 K) : Vec3 K :=
  ⟨t.basis.r0.dot v + t.origin.x, t.basis.r1.dot v + t.origin.y, t.basis.r2.dot v + t.origin.z⟩
/-- `operator*(t)`, Transform.h:236-241 (`mult`, 78-81). -/
def mul (a b : Xform K) : Xform K := ⟨a.basis.mul b.basis, a.apply b.origin⟩
/-- `operator*=(t)`, Transform.h:179-184. -/
def mulAssign (a b : Xform K) : Xform K :=
  ⟨a.basis.mul b.basis, a.origin.add (a.basis.mulVec b.origin)⟩
/-- `inverse`, Transform.h:187-191. -/
def inverse (t : Xform K) : Xform K :=
  let inv := t.basis.transpose
  ⟨inv, inv.mulVec t.origin.neg⟩
/-- `invXform`, Transform.h:221-226. -/
def invXform (t : Xform K) (v : Vec3 K) : Vec3 K := t.basis.transpose.mulVec (v.sub t.origin)
/-- `inverseTimes`, Transform.h:228-234. -/
def inverseTimes (a b : Xform K) : Xform K :=
  ⟨a.basis.transposeTimes b.basis, Mat3.vecMul (b.origin.sub a.origin) a.basis⟩
/-- `getIdentity`, Transform.h:202-206. -/
def identity : Xform K := ⟨Mat3.identity, Vec3.zero⟩
/-- constructor from quaternion and origin, Transform.h:46-50. -/
def ofQuat {F : Type} [Field F] (q : Quat F) (v : Vec3 F) : Xform F := ⟨Mat3.ofQuat q, v⟩
/-- `getRotation()`, Transform.h:121-125. -/
noncomputable def getRotation (t : Xform ℝ) : Quat ℝ := t.basis.getRotation
/-- `operator*(q)`, Transform.h:105-108. -/
noncomputable def mulQuat (t : Xform ℝ) (q : Quat ℝ) : Quat ℝ := t.getRotation.mul q

end Xform

/-- `tf2::impl::getEulerYPR(q, yaw, pitch, roll)`, tf2/include/tf2/impl/utils.h:86-114. -/
noncomputable def utilGetEulerYPR (q : Quat ℝ) : Mat3.Euler :=
  let sqx := q.x * q.x; let sqy := q.y * q.y; let sqz := q.z * q.z; let sqw := q.w * q.w
  let sarg := -2 * (q.x * q.z - q.w * q.y) / (sqx + sqy + sqz + sqw)
  if sarg ≤ -0.99999 then ⟨-2 * tf2Atan2 q.y q.x, -0.5 * Real.pi, 0⟩
  else if sarg ≥ 0.99999 then ⟨2 * tf2Atan2 q.y q.x, 0.5 * Real.pi, 0⟩
  else
    ⟨tf2Atan2 (2 * (q.x * q.y + q.w * q.z)) (sqw + sqx - sqy - sqz), Real.arcsin sarg,
     tf2Atan2 (2 * (q.y * q.z + q.w * q.x)) (sqw - sqx - sqy + sqz)⟩

/-- `tf2::impl::getYaw(q)`, tf2/include/tf2/impl/utils.h:122-148. -/
noncomputable def utilGetYaw (q : Quat ℝ) : ℝ :=
  let sqx := q.x * q.x; let sqy := q.y * q.y; let sqz := q.z * q.z; let sqw := q.w * q.w
  let sarg := -2 * (q.x * q.z - q.w * q.y) / (sqx + sqy + sqz + sqw)
  if sarg ≤ -0.99999 then -2 * tf2Atan2 q.y q.x
  else if sarg ≥ 0.99999 then 2 * tf2Atan2 q.y q.x
  else tf2Atan2 (2 * (q.x * q.y + q.w * q.z)) (sqw + sqx - sqy - sqz)

end Tf2
