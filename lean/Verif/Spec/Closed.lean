import Verif.Spec.Buffer
import Verif.Model.Pose
import Verif.Spec.Geometry

/-! # Families of transforms that the buffer cannot leave -/
namespace Tf2

variable {X : Type}

/-- A family of transforms that contains the identity and is closed under composition, inverse,
interpolation between two members (ratio between 0 and 1) and the product of the fixed-frame lookup. -/
structure ClosedFamily [Rigid X] (U : X → Prop) : Prop where
  one : U Rigid.one
  comp : ∀ {a b}, U a → U b → U (Rigid.comp a b)
  inv : ∀ {a}, U a → U (Rigid.inv a)
  interp : ∀ {a b} {num den : Int}, U a → U b → 0 ≤ num → num ≤ den → 0 < den → U (Rigid.interp a b num den)
  mulMsg : ∀ {a b}, U a → U b → U (Rigid.mulMsg a b)

/-- A motion of the plane: the rotation is a unit quaternion about the z axis, and nothing moves along z. -/
def Pose.Planar (p : Pose) : Prop := p.rot.Unit ∧ p.rot.x = 0 ∧ p.rot.y = 0 ∧ p.trans.z = 0

end Tf2
