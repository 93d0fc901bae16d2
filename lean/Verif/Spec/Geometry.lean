import Verif.Model.LinearMath
import Mathlib.Algebra.Quaternion
import Mathlib.LinearAlgebra.UnitaryGroup
import Mathlib.LinearAlgebra.Matrix.Notation
import Mathlib.LinearAlgebra.Matrix.Determinant.Basic
import Mathlib.LinearAlgebra.CrossProduct

/-!
# Specification vocabulary for geometry: the same objects as Mathlib defines them

The statements about `tf2::Quaternion`, `tf2::Matrix3x3` and `tf2::Vector3` are made against
Mathlib's quaternions, matrices and vectors through these plain re-packagings.
-/
namespace Tf2

/-- The three coordinates of a vector. -/
def Vec3.toV {K : Type} (v : Vec3 K) : Fin 3 → K := ![v.x, v.y, v.z]

/-- The 3×3 matrix with the given rows. -/
def Mat3.toM {K : Type} (m : Mat3 K) : Matrix (Fin 3) (Fin 3) K :=
  !![m.r0.x, m.r0.y, m.r0.z; m.r1.x, m.r1.y, m.r1.z; m.r2.x, m.r2.y, m.r2.z]

/-- The quaternion `w + xi + yj + zk`. -/
def Quat.toH {K : Type} [CommRing K] (q : Quat K) : Quaternion K := ⟨q.w, q.x, q.y, q.z⟩

/-- The pure quaternion `xi + yj + zk` of a vector. -/
def Vec3.toH {K : Type} [CommRing K] (v : Vec3 K) : Quaternion K := ⟨0, v.x, v.y, v.z⟩

/-- Unit quaternion. -/
def Quat.Unit {K : Type} [CommRing K] (q : Quat K) : Prop :=
  q.x ^ 2 + q.y ^ 2 + q.z ^ 2 + q.w ^ 2 = 1

/-- A rotation matrix: orthogonal with determinant 1. -/
def Mat3.IsRotation (m : Mat3 ℝ) : Prop := m.toM ∈ Matrix.specialOrthogonalGroup (Fin 3) ℝ

/-- Rotation about the x axis. -/
noncomputable def rotX (a : ℝ) : Matrix (Fin 3) (Fin 3) ℝ :=
  !![1, 0, 0; 0, Real.cos a, -Real.sin a; 0, Real.sin a, Real.cos a]

/-- Rotation about the y axis. -/
noncomputable def rotY (a : ℝ) : Matrix (Fin 3) (Fin 3) ℝ :=
  !![Real.cos a, 0, Real.sin a; 0, 1, 0; -Real.sin a, 0, Real.cos a]

/-- Rotation about the z axis. -/
noncomputable def rotZ (a : ℝ) : Matrix (Fin 3) (Fin 3) ℝ :=
  !![Real.cos a, -Real.sin a, 0; Real.sin a, Real.cos a, 0; 0, 0, 1]

/-- The rigid motion `v ↦ M v + o` of a transform, as a function on coordinates. -/
def Xform.act (t : Xform ℝ) (v : Fin 3 → ℝ) : Fin 3 → ℝ := t.basis.toM.mulVec v + t.origin.toV

/-- The sine of the pitch as the utility function computes it. -/
noncomputable def sarg (q : Quat ℝ) : ℝ :=
  -2 * (q.x * q.z - q.w * q.y) / (q.x ^ 2 + q.y ^ 2 + q.z ^ 2 + q.w ^ 2)

end Tf2

namespace Tf2

/-- The quaternion of a turn by `θ` about the axis `n`. -/
noncomputable def axisTurn (n : Fin 3 → ℝ) (θ : ℝ) : Quaternion ℝ :=
  ⟨Real.cos (θ / 2), Real.sin (θ / 2) * n 0, Real.sin (θ / 2) * n 1, Real.sin (θ / 2) * n 2⟩

end Tf2
