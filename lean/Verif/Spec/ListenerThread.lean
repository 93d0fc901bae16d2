import Verif.Model.ListenerThread
import Verif.Spec.Ros

/-!
# Specification vocabulary for the listener with its own thread
-/
namespace Tf2.Spin

variable {X : Type}

/-- A program with a listener: its buffer keeps data for `D`. -/
def history [Rigid X] (D : Duration) (ops : List (Op X)) : St X × List (Ev X) := St.run ops (St.init D)

/-- The messages that arrived for a topic, oldest first. -/
def arrived (st : Bool) : List (Ev X) → List (Packet X)
  | [] => []
  | .arrived st' p :: r => if st' = st then p :: arrived st r else arrived st r
  | _ :: r => arrived st r

/-- The messages of a topic a callback was started for, oldest first. -/
def handled (st : Bool) : List (Ev X) → List (Packet X)
  | [] => []
  | .did (.received _ ms a st') :: r => if st' = st then ⟨ms, a⟩ :: handled st r else handled st r
  | _ :: r => handled st r

/-- The messages of a topic pushed out, oldest first. -/
def dropped (st : Bool) : List (Ev X) → List (Packet X)
  | [] => []
  | .dropped st' p :: r => if st' = st then p :: dropped st r else dropped st r
  | _ :: r => dropped st r

/-- The events of the callback and of other users of the buffer. -/
def inner : List (Ev X) → List (LEv X)
  | [] => []
  | .did e :: r => e :: inner r
  | _ :: r => inner r

/-- How many steps of the thread there are in a history. -/
def threadSteps : List (Op X) → Nat
  | [] => 0
  | .thread _ :: r => threadSteps r + 1
  | _ :: r => threadSteps r

end Tf2.Spin
