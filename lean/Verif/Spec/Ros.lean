import Verif.Model.Ros
import Verif.Spec.BufferServer
import Verif.Spec.History

/-!
# Specification vocabulary for the ROS front end
-/
namespace Tf2

variable {X : Type}

/-! ### Static broadcaster -/

/-- The last transform sent for a child frame. -/
def lastSent (sent : List (Msg X)) (child : Name) : Option (Msg X) := sent.reverse.find? (fun m => m.child = child)

/-- A broadcaster after a sequence of calls. -/
def SBroadcaster.after (calls : List (List (Msg X))) : SBroadcaster X := calls.foldl SBroadcaster.send {}

/-- The Python broadcaster after a sequence of calls. -/
def SBroadcaster.afterPy (calls : List (List (Msg X))) : SBroadcaster X := calls.foldl SBroadcaster.sendPy {}

/-! ### Listener -/

/-- A program with a listener. -/
def Listener.history [Rigid X] (D : Duration) (ops : List (LOp X)) : Listener X × List (LEv X) :=
  Listener.run ops (Listener.init D) []

/-- The calls of the buffer made by the listener, in order. -/
def listenerCalls : List (LEv X) → List (ROp X)
  | [] => []
  | .did op :: r => op :: listenerCalls r
  | _ :: r => listenerCalls r

/-- All calls of the buffer, in order. -/
def bufferCalls : List (LEv X) → List (ROp X)
  | [] => []
  | .did op :: r => op :: bufferCalls r
  | .other op :: r => op :: bufferCalls r
  | _ :: r => bufferCalls r

/-- The calls one message asks for, when the clock showed `last` at the message before. -/
def callsOf (last now : Time) (msgs : List (Msg X)) (auth : Name) (isStatic : Bool) : List (ROp X) :=
  (if now < last then [.clear] else []) ++ msgs.map (fun m => .set m auth isStatic)

/-- The calls the messages received ask for. -/
def callsDue : Time → List (LEv X) → List (ROp X)
  | _, [] => []
  | last, .received now msgs auth st :: r => callsOf last now msgs auth st ++ callsDue now r
  | last, _ :: r => callsDue last r

/-- The calls still to be made for the message being handled. -/
def Listener.remaining (s : Listener X) : List (ROp X) :=
  match s.cur with
  | none => []
  | some (ms, auth, st) => ms.map (fun m => .set m auth st)

/-! ### Blocking waits -/

/-- The `i`-th poll (its first reading is sample `5 i + 1`) goes to sleep: before the deadline, transform not
available, no jump back by more than three seconds, ROS running. -/
def PollSleeps (g : Goal) (W : Nat → World X) (start : Time) (i : Nat) : Prop :=
  (∃ e, timeAdd start g.timeout = some e ∧ (W (5 * i + 1)).now < e) ∧
  g.can (W (5 * i + 2)).buf = .ok false ∧
  (∃ e, timeAdd (W (5 * i + 3)).now threeSeconds = some e ∧ start ≤ e) ∧
  (W (5 * i + 4)).up = true

/-- The `k`-th poll ends the waiting with its reading at sample `m`: the deadline has passed; or the transform
is available; or the clock has jumped back by more than three seconds; or ROS is shutting down. -/
inductive PollStops (g : Goal) (W : Nat → World X) (start : Time) (k : Nat) : Nat → Prop where
  | deadline {e} (h : timeAdd start g.timeout = some e) (h1 : e ≤ (W (5 * k + 1)).now) : PollStops g W start k (5 * k + 1)
  | available {e} (h : timeAdd start g.timeout = some e) (h1 : (W (5 * k + 1)).now < e)
      (h2 : g.can (W (5 * k + 2)).buf = .ok true) : PollStops g W start k (5 * k + 2)
  | jump {e e3} (h : timeAdd start g.timeout = some e) (h1 : (W (5 * k + 1)).now < e)
      (h2 : g.can (W (5 * k + 2)).buf = .ok false)
      (h3 : timeAdd (W (5 * k + 3)).now threeSeconds = some e3) (h4 : e3 < start) : PollStops g W start k (5 * k + 3)
  | down {e e3} (h : timeAdd start g.timeout = some e) (h1 : (W (5 * k + 1)).now < e)
      (h2 : g.can (W (5 * k + 2)).buf = .ok false)
      (h3 : timeAdd (W (5 * k + 3)).now threeSeconds = some e3) (h4 : start ≤ e3)
      (h5 : (W (5 * k + 4)).up = false) : PollStops g W start k (5 * k + 4)

end Tf2
