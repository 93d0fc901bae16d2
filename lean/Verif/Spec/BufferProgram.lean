import Verif.Model.BufferProgram
import Verif.Spec.Arrival
import Verif.Spec.BufferServer

/-!
# Specification vocabulary for the program `buffer_server`
-/
namespace Tf2.BufProg

variable {X : Type}

/-- The program from its start. -/
def history [Rigid X] (D : Duration) (now : Time) (ops : List (POp X)) : Process X × List (PEv X) :=
  Process.run ops (Process.init D now)

/-- What the server does. -/
def serving : List (PEv X) → List (SEv X) := List.filterMap fun | .served e => some e | .heard _ => none

/-- What the listener does. -/
def hearing : List (PEv X) → List (Spin.Ev X) := List.filterMap fun | .heard e => some e | .served _ => none

/-- What the ROS clock shows at the end. -/
def clockOf (now : Time) : List (POp X) → Time
  | [] => now
  | .clock t :: r => clockOf t r
  | _ :: r => clockOf now r

/-- The steps of the listener. -/
def heard (now : Time) : List (POp X) → List (Spin.Op X)
  | [] => []
  | .arrive st p :: r => .arrive st p :: heard now r
  | .thread :: r => .thread now :: heard now r
  | .ready :: r => .ready :: heard now r
  | .clock t :: r => heard t r
  | _ :: r => heard now r

/-- How many steps the listener's thread makes. -/
def threadCount (ops : List (POp X)) : Nat := ops.countP fun | .thread => true | _ => false

/-- How many steps the main thread makes in callbacks. -/
def spinCount (ops : List (POp X)) : Nat := ops.countP fun | .spin _ => true | _ => false

/-- After the steps `p0` the callback of goal `id` has begun and the main thread makes its first step in it. -/
def GoalStarts [Rigid X] (D : Duration) (now : Time) (id : Nat) (g : Goal) (p0 ops : List (POp X)) : Prop :=
  ∃ a b text, p0 = a ++ .goal g :: b ∧ p0 ++ [.spin text] <+: ops ∧ spinCount b = 0 ∧
    PEv.served (.accepted id g) ∉ (history D now a).2 ∧ PEv.served (.accepted id g) ∈ (history D now (a ++ [.goal g])).2

/-- The deadline of the goal: what the ROS clock shows then, and the timeout. -/
def GoalDeadline [Rigid X] (D : Duration) (now : Time) (id : Nat) (g : Goal) (e : Time) (ops : List (POp X)) : Prop :=
  ∃ p0, GoalStarts D now id g p0 ops ∧ timeAdd (clockOf now p0) g.timeout = some e

/-- What a goal needs is published in time: the transform it asks for, or the two halves through its fixed frame. -/
def GoalInTime [Rigid X] (D : Duration) (ops : List (Spin.Op X)) (i : Nat) (par : Name → Option Name) (depth : Name → Nat)
    (g : Goal) : Prop :=
  if g.advanced then
    Spin.InTime D ops i par depth g.fixed g.source g.stime ∧ Spin.InTime D ops i par depth g.target g.fixed g.ttime
  else Spin.InTime D ops i par depth g.target g.source g.stime

end Tf2.BufProg
