import Verif.Model.RoundedProduct
import Verif.Spec.Rounded
import Verif.Spec.RoundedInterp

/-!
# Specification vocabulary: the five-argument lookup with rounding
-/
namespace Tf2

/-- The accuracy of the library's square root: about five units in the last place. -/
def SqrtNear (F : Rounding) (sqrt : ℝ → ℝ) : Prop :=
  ∀ x, 0 ≤ x → x ≤ 8 → |sqrt x - Real.sqrt x| ≤ 5 * F.u * Real.sqrt x + F.η

/-- Distance of two rotations given by quaternions: `q` and `-q` are the same rotation. -/
noncomputable def Quat.gap (a b : Quat ℝ) : ℝ := min (a.apart b) (a.apart b.neg)

/-- `lookupTransform(target, source, t)` goes over `N` stored transforms. -/
def Steps (b : Buf Pose) (target source : Name) (t : Time) (N : ℕ) : Prop :=
  (target = source ∧ N = 0) ∨ ∃ m s g r x y n k, b.lookupTransform target source t = .ok m ∧ IsFrame b source s ∧
    IsFrame b target g ∧ Chain b m.stamp s r x n ∧ Chain b m.stamp g r y k ∧ n ≤ 1000 ∧ k ≤ 1000 ∧ N = n + k

/-- The answers of two machines to one five-argument lookup: the same exception, or messages with the same names and stamp
whose transforms are close. `N` and `M` are the numbers of transforms on the two legs. -/
def AgreeFixed (F : Rounding) (sqrt : ℝ → ℝ) (L dq dt : ℝ) (D : Duration) (ops : List (Op Pose)) (target : Name) (ttime : Time)
    (source : Name) (stime : Time) (fixed : Name) : Prop :=
  (∃ e, F.lookup5 sqrt (F.run D ops) target ttime source stime fixed = .throw e ∧
    ((Buf.init D).run ops).lookupTransform5 target ttime source stime fixed = .throw e) ∨
  ∃ m m', F.lookup5 sqrt (F.run D ops) target ttime source stime fixed = .ok m ∧
    ((Buf.init D).run ops).lookupTransform5 target ttime source stime fixed = .ok m' ∧
    m.parent = m'.parent ∧ m.child = m'.child ∧ m.stamp = m'.stamp ∧
    ∃ N M : ℕ, Steps ((Buf.init D).run ops) fixed source stime N ∧ Steps ((Buf.init D).run ops) target fixed ttime M ∧
      m.xf.rot.gap m'.xf.rot ≤ (5 * (N + M + 2) + 280) * (10 * F.u + dq + 16 * F.η) ∧
      m.xf.trans.apart m'.xf.trans ≤ (5 * (N + M + 2) ^ 2 + 31 * (N + M + 2)) * (10 * F.u + dq + 16 * F.η) * L +
        3 * (N + M + 2) * (dt + 40 * F.η)

end Tf2
