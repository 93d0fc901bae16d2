import Verif.Spec.Rounded
import Verif.Spec.Drift

/-!
# Specification vocabulary: how fast published frames move
-/
namespace Tf2

/-- The angle of the turn that takes the orientation `a` to the orientation `b`, the short way round. -/
noncomputable def turnAngle (a b : Quat ℝ) : ℝ := 2 * Real.arccos |a.dot b|

/-- No frame is published as moving faster than `v` metres and turning faster than `w` radians per nanosecond: from one
message that counts to the next one for the same frame, it moves and turns at most that much. -/
def SpeedLimit (D : Duration) (ops : List (Op Pose)) (v w : ℝ) : Prop :=
  ∀ n m0 r o k, offersFor n ops = (m0, false) :: r → Effective D ops n o → Effective D ops n k → o.stamp < k.stamp →
    (∀ j, Effective D ops n j → j.stamp ≤ o.stamp ∨ k.stamp ≤ j.stamp) →
    o.xf.trans.apart k.xf.trans ≤ v * ((k.stamp : ℝ) - o.stamp) ∧
    turnAngle o.xf.rot k.xf.rot ≤ w * ((k.stamp : ℝ) - o.stamp)

/-- The frame `k` steps up from `a` in a tree. -/
def ancestor (par : Name → Option Name) : Nat → Name → Option Name
  | 0, a => some a
  | k + 1, a => (ancestor par k a).bind par

end Tf2
