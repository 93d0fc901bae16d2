import Verif.Spec.ListenerThread
import Verif.Spec.SameData

/-!
# Specification vocabulary: nodes that listen to the same topics
-/
namespace Tf2.Spin

variable {X : Type}

/-- The transforms in the messages that arrived for a topic, as calls of `setTransform`. -/
def deliveriesOn (st : Bool) (evs : List (Ev X)) : List (Tf2.Op X) :=
  (arrived st evs).flatMap (fun p => p.msgs.map (fun m => .set m p.auth st))

/-- The transforms that arrived on both topics. -/
def deliveries (evs : List (Ev X)) : List (Tf2.Op X) := deliveriesOn false evs ++ deliveriesOn true evs

/-- The clock readings of the callbacks, in order. -/
def clocks : List (LEv X) → List Time
  | [] => []
  | .received now _ _ _ :: r => now :: clocks r
  | _ :: r => clocks r

/-- Everything that arrived has been handled to the end: nothing waits, nothing was pushed out, no exception. -/
structure CaughtUp [Rigid X] (D : Duration) (ops : List (Op X)) : Prop where
  all : ∀ st, handled st (history D ops).2 = arrived st (history D ops).2
  done : (history D ops).1.lis.cur = none
  fine : LEv.escaped ∉ inner (history D ops).2

/-- The clock did not go back from one callback to the next, and the listener is the only one to change the buffer. -/
structure Calm [Rigid X] (D : Duration) (ops : List (Op X)) : Prop where
  clock : (clocks (inner (history D ops).2)).Pairwise (· ≤ ·)
  noSet : ∀ m a s, LEv.other (.set m a s) ∉ inner (history D ops).2
  noClear : LEv.other .clear ∉ inner (history D ops).2

end Tf2.Spin
