import Verif.Model.Pose
import Verif.Spec.Denote

/-!
# Specification vocabulary: quaternions that are not of unit length
-/
namespace Tf2

/-- What a pose does to a point when poses are composed: `quatRotate(rot, v) + trans`. -/
noncomputable def Pose.act (p : Pose) (v : Vec3 ℝ) : Vec3 ℝ := (p.rot.rotate v).add p.trans

/-- Every valid message offered has a quaternion whose squared length is between `lo` and `hi`. -/
def LengthsIn (lo hi : ℝ) (ops : List (Op Pose)) : Prop :=
  ∀ m a s, Op.set m a s ∈ ops → ValidMsg m → lo ≤ m.xf.rot.length2 ∧ m.xf.rot.length2 ≤ hi

/-- Every valid message offered has a translation of length at most `L`. -/
def ShiftsWithin (L : ℝ) (ops : List (Op Pose)) : Prop :=
  ∀ m a s, Op.set m a s ∈ ops → ValidMsg m → m.xf.trans.length ≤ L

end Tf2
