import Verif.Model.Diagonalize
import Mathlib.Analysis.SpecialFunctions.Sqrt
import Mathlib.LinearAlgebra.Matrix.Trace

/-!
# Specification vocabulary for `diagonalize`
-/
namespace Tf2.Diag

/-- The size of a matrix: the square root of the sum of the squares of its elements. -/
noncomputable def size (m : M3) : ℝ := Real.sqrt (∑ i, ∑ j, m i j ^ 2)

/-- How far a matrix is from being diagonal: the sum of the squares of its elements off the diagonal. -/
def off (m : M3) : ℝ := ∑ i, ∑ j, if i = j then 0 else m i j ^ 2

end Tf2.Diag
