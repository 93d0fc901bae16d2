import Verif.Model.LinearMath

/-!
# More of `tf2/include/tf2/LinearMath`: angles between vectors and quaternions, shortest arcs
-/
namespace Tf2

/-- `Vector3::angle(v)`, Vector3.h:165-170. -/
noncomputable def Vec3.angle (a v : Vec3 ℝ) : ℝ := tf2Acos (a.dot v / Real.sqrt (a.length2 * v.length2))

/-- `Vector3::normalize` / `normalized`, Vector3.h:150-153, 472-475 (division by zero asserts in debug builds
only; here `1/0 = 0`). -/
noncomputable def Vec3.normalize (a : Vec3 ℝ) : Vec3 ℝ := a.scale (1 / a.length)

namespace Quat

/-- `operator+`, Quaternion.h:266-271. -/
def add (a b : Quat ℝ) : Quat ℝ := ⟨a.x + b.x, a.y + b.y, a.z + b.z, a.w + b.w⟩
/-- binary `operator-`, Quaternion.h:275-280. -/
def sub (a b : Quat ℝ) : Quat ℝ := ⟨a.x - b.x, a.y - b.y, a.z - b.z, a.w - b.w⟩
/-- `Quaternion::angle(q)`, Quaternion.h:212-217. -/
noncomputable def angle (a q : Quat ℝ) : ℝ := tf2Acos (a.dot q / Real.sqrt (a.length2 * q.length2))
/-- `farthest(qd)`, Quaternion.h:290-298. -/
noncomputable def farthest (a qd : Quat ℝ) : Quat ℝ :=
  if (a.sub qd).dot (a.sub qd) > (a.add qd).dot (a.add qd) then qd else qd.neg
/-- `nearest(qd)`, Quaternion.h:301-309. -/
noncomputable def nearest (a qd : Quat ℝ) : Quat ℝ :=
  if (a.sub qd).dot (a.sub qd) < (a.add qd).dot (a.add qd) then qd else qd.neg

end Quat

/-- `TF2SIMDSQRT12`, Scalar.h:197. -/
noncomputable def sqrt12 : ℝ := 0.7071067811865475244008443621048490

/-- `tf2PlaneSpace1(n, p, q)`, Vector3.h:656-673: the pair (p, q). -/
noncomputable def planeSpace1 (n : Vec3 ℝ) : Vec3 ℝ × Vec3 ℝ :=
  if |n.z| > sqrt12 then
    let a := n.y * n.y + n.z * n.z
    let k := 1 / Real.sqrt a
    let p : Vec3 ℝ := ⟨0, -n.z * k, n.y * k⟩
    (p, ⟨a * k, -n.x * p.z, n.x * p.y⟩)
  else
    let a := n.x * n.x + n.y * n.y
    let k := 1 / Real.sqrt a
    let p : Vec3 ℝ := ⟨-n.y * k, n.x * k, 0⟩
    (p, ⟨-n.z * p.y, n.z * p.x, a * k⟩)

/-- `shortestArcQuat(v0, v1)`, Quaternion.h:446-462; `eps` is `TF2SIMD_EPSILON`. -/
noncomputable def shortestArcQuat (eps : ℝ) (v0 v1 : Vec3 ℝ) : Quat ℝ :=
  let c := v0.cross v1
  let d := v0.dot v1
  if d < -1 + eps then
    let n := (planeSpace1 v0).1
    ⟨n.x, n.y, n.z, 0⟩
  else
    let s := Real.sqrt ((1 + d) * 2)
    let rs := 1 / s
    ⟨c.x * rs, c.y * rs, c.z * rs, s * (1 / 2)⟩

/-- `shortestArcQuatNormalize2(v0, v1)`, Quaternion.h:465-470 (the normalised arguments are written back to the
caller's vectors; only the returned value is modelled). -/
noncomputable def shortestArcQuatNormalize2 (eps : ℝ) (v0 v1 : Vec3 ℝ) : Quat ℝ :=
  shortestArcQuat eps v0.normalize v1.normalize

end Tf2
