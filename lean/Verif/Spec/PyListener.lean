import Verif.Model.PyListener
import Verif.Spec.Ros

/-!
# Specification vocabulary for the Python listener
-/
namespace Tf2.Py

variable {X : Type}

/-- A program with a listener made when the clock showed `now`. -/
def pyHistory [Rigid X] (fl : ℚ → ℚ) (D : Duration) (now : Time) (ops : List (PyLOp X)) : Option (PyListener X × List (PyLEv X)) :=
  PyListener.run fl ops (PyListener.init D now) []

/-- All calls of the buffer, in order. -/
def pyCalls : List (PyLEv X) → List (Op X)
  | [] => []
  | .did _ op :: r => op :: pyCalls r
  | .other op :: r => op :: pyCalls r
  | _ :: r => pyCalls r

/-- The transforms stored by callback `id`, in order, each as the call made. -/
def setsBy (id : Nat) : List (PyLEv X) → List (Op X)
  | [] => []
  | .did j (.set m a st) :: r => if j = id then .set m a st :: setsBy id r else setsBy id r
  | _ :: r => setsBy id r

/-- The callbacks that cleared the buffer, in order. -/
def clearsMade : List (PyLEv X) → List Nat
  | [] => []
  | .did j .clear :: r => j :: clearsMade r
  | _ :: r => clearsMade r

/-- The callbacks whose reading of the clock was earlier than the reading before it, by whichever callback; the first
is compared with `last`. -/
def jumpsSeen : Time → List (PyLEv X) → List Nat
  | _, [] => []
  | last, .checked j now :: r => if now < last then j :: jumpsSeen now r else jumpsSeen now r
  | last, _ :: r => jumpsSeen last r

/-- The steps that handle the message of callback `id` without interruption. -/
def handle (id : Nat) (d : Time × List (Msg X) × Option Name × Bool) : List (PyLOp X) :=
  .receive d.2.1 d.2.2.1 d.2.2.2 :: .check id d.1 :: List.replicate (d.2.1.length + 1) (.store id)

/-- Messages handled one after the other, the first by callback `id`. -/
def handleAll : Nat → List (Time × List (Msg X) × Option Name × Bool) → List (PyLOp X)
  | _, [] => []
  | id, d :: r => handle id d ++ handleAll (id + 1) r

/-- A call of the buffer, as the C++ model writes it. -/
def asROp : Op X → ROp X
  | .set m a st => .set m a st
  | .clear => .clear

/-- The name a publisher goes by: that of its connection header, or a default. -/
def publisherName : Option Name → Name
  | some n => n
  | none => "default_authority".toList

/-- A message received, as the C++ model writes it. -/
def asReceived (d : Time × List (Msg X) × Option Name × Bool) : LEv X := .received d.1 d.2.1 (publisherName d.2.2.1) d.2.2.2

end Tf2.Py
