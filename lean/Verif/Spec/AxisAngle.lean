import Verif.Spec.Geometry

/-! # Specification vocabulary: turns about an axis -/
namespace Tf2
open Matrix

/-- Turning the vector `v` by the angle `θ` about the unit axis `u` (right hand rule): the part along the axis
stays, the part across it turns in its plane. -/
noncomputable def turn (u : Fin 3 → ℝ) (θ : ℝ) (v : Fin 3 → ℝ) : Fin 3 → ℝ :=
  (u ⬝ᵥ v) • u + Real.cos θ • (v - (u ⬝ᵥ v) • u) + Real.sin θ • (crossProduct u v)

/-- The direction of a vector. -/
noncomputable def direction (n : Fin 3 → ℝ) : Fin 3 → ℝ := (1 / Real.sqrt (n ⬝ᵥ n)) • n

end Tf2
