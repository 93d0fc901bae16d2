import Verif.Model.StaticProgram
import Verif.Spec.Geometry
import Verif.Spec.Late

/-!
# Specification vocabulary for `static_transform_publisher`
-/
namespace Tf2.Geo

/-- The program runs on and has published exactly `m`, once, on the latched static topic. -/
def ProgramOut.Publishes (o : ProgramOut) (m : Msg Pose) : Prop :=
  ∃ b, o = .spinning b ∧ b.published = [[m]] ∧ b.latched = some [m]

/-- A buffer with this history has received `m` from the static topic, and about the child frame of `m` nothing
else that is well formed. -/
def Receives (ops : List (Op Pose)) (m : Msg Pose) : Prop :=
  (∃ a, Op.set m a true ∈ ops) ∧
  ∀ m' a s, Op.set m' a s ∈ ops → ValidMsg m' → stripSlash m'.child = stripSlash m.child → m' = m ∧ s = true

/-- A description of a static transform as it is written into a parameter, with given numbers. -/
def paramOf (frame child : Name) (x y z qx qy qz qw : Xml) : Xml :=
  .struct [("child_frame_id".toList, .string child), ("header".toList, .struct [("frame_id".toList, .string frame)]),
    ("transform".toList, .struct
      [("translation".toList, .struct [("x".toList, x), ("y".toList, y), ("z".toList, z)]),
       ("rotation".toList, .struct [("x".toList, qx), ("y".toList, qy), ("z".toList, qz), ("w".toList, qw)])])]

end Tf2.Geo
