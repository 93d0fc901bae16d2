import Verif.Spec.Floats
import Verif.Spec.RoundedProduct

/-!
# Specification vocabulary: a history of doubles read as a history of real numbers
-/
namespace Tf2

/-- The message cannot describe a transform: NaN somewhere, an infinite number in the rotation, or a rotation that is no
unit quaternion (up to 0.0101 in the squared length). -/
def FPose.Broken (p : FPose) : Prop := p.SomeNaN ∨ p.InfiniteRotation ∨ ¬ p.UnitRotation

/-- The seven doubles are the numbers of `x`. -/
def FPose.Is (p : FPose) (x : Pose) : Prop :=
  p.1 = ⟨.fin x.rot.x, .fin x.rot.y, .fin x.rot.z, .fin x.rot.w⟩ ∧ p.2 = ⟨.fin x.trans.x, .fin x.trans.y, .fin x.trans.z⟩

/-- The same message, with real numbers. -/
def Msg.Is (m : Msg FPose) (m' : Msg Pose) : Prop :=
  m.parent = m'.parent ∧ m.child = m'.child ∧ m.stamp = m'.stamp ∧ m.xf.Is m'.xf

/-- The history `ops` of doubles is the history `ops'` of real numbers, each of which satisfies `P`, interspersed with
arbitrary broken messages. -/
inductive Reads (P : Pose → Prop) : List (Op FPose) → List (Op Pose) → Prop
  | nil : Reads P [] []
  | clear {ops ops'} : Reads P ops ops' → Reads P (.clear :: ops) (.clear :: ops')
  | broken {m a s ops ops'} : m.xf.Broken → Reads P ops ops' → Reads P (.set m a s :: ops) ops'
  | set {m m' a s ops ops'} : m.Is m' → P m'.xf → Reads P ops ops' → Reads P (.set m a s :: ops) (.set m' a s :: ops')

/-- The outcome of a lookup with doubles, next to the one in exact arithmetic: the same exception, or the same names and
stamp, seven numbers (no infinity, no NaN), and these are near the exact ones. -/
def CloseTo (near : Pose → Pose → Prop) (answer : Res (Msg FPose)) (exact : Res (Msg Pose)) : Prop :=
  (∃ e, answer = .throw e ∧ exact = .throw e) ∨
  ∃ m m' x, answer = .ok m ∧ exact = .ok m' ∧ m.parent = m'.parent ∧ m.child = m'.child ∧ m.stamp = m'.stamp ∧
    m.xf.Is x ∧ near x m'.xf

end Tf2
