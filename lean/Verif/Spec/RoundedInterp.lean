import Verif.Model.RoundedInterp
import Verif.Spec.Rounded
import Verif.Spec.Cache

/-!
# Specification vocabulary: accurate libraries, half turns
-/
namespace Tf2

/-- The library's functions are good to about four units in the last place, on the arguments that occur. -/
structure Libm.Accurate (M : Libm) : Prop where
  sin : ∀ x, |x| ≤ 2 → |M.sin x - Real.sin x| ≤ 5 / 10 ^ 16 * |Real.sin x|
  acos : ∀ x, 0 ≤ x → x ≤ 1 → |M.acos x - Real.arccos x| ≤ 5 / 10 ^ 16 * Real.arccos x
  sqrt : ∀ x, 0 ≤ x → x ≤ 8 → |M.sqrt x - Real.sqrt x| ≤ 5 / 10 ^ 16 * Real.sqrt x

/-- The quaternion has unit length up to `τ` (squared), and the translation is at most `L` long. -/
def NormalTo (τ L : ℝ) (p : Pose) : Prop := |p.rot.length2 - 1| ≤ τ ∧ p.trans.length ≤ L

/-- The two rotations do not differ by half a turn, up to some 1e-12 of a turn. -/
def NotOpposite (a b : Pose) : Prop := 1 / 10 ^ 12 ≤ |a.rot.dot b.rot|

/-- No two transforms that follow one another in the buffer differ by half a turn. -/
def NoHalfTurn (b : Buf Pose) : Prop :=
  ∀ f D st, b.getFrame f = some (.dyn D st) → ∀ o n, Adjacent st o n → NotOpposite o.xf n.xf

end Tf2
