import Verif.Model.MessageFilter
import Verif.Spec.Requests

/-!
# Specification vocabulary for the message filter
-/
namespace Tf2

variable {X : Type}

/-- The message an event disposes of for good: it was ignored (no target frames), the user was told
(passed or failed), it was thrown away by `clear`, or `add` ended with an exception. -/
def FEv.disposes : FEv → Option Nat
  | .ignored id => some id
  | .signalled id _ => some id
  | .discarded id => some id
  | .addThrew id => some id
  | _ => none

/-- The messages disposed of, in order, with repetitions. -/
def disposed (evs : List FEv) : List Nat := evs.filterMap FEv.disposes

/-- The messages in the filter's queue, oldest first. -/
def Filt.queued (s : Filt X) : List Nat := s.msgs.map (fun m => m.msg.id)

/-- The messages in the hands of calls of `add` that have not returned. -/
def Filt.beingAdded (s : Filt X) : List Nat := s.adding.map (fun a => a.msg.id)

/-- The messages decided upon that wait in the callback queue. -/
def Filt.waiting (s : Filt X) : List Nat := (s.cbq.getD []).map Out.id

/-- A program with one filter: some history of the buffer, the constructor, then any steps. -/
def Filt.history [Rigid X] (D : Duration) (pre : List (ROp X)) (target : Name) (qsize : Nat) (queued : Bool)
    (ops : List (FOp X)) : Filt X × List FEv :=
  Filt.run ops (Filt.init (RBuf.history D pre).1 (RBuf.history D pre).2 target qsize queued) []

/-- No step changes the queue size. -/
def ConstantQueue (ops : List (FOp X)) : Prop := ∀ n, FOp.setQueueSize n ∉ ops

/-- No step removes a transformable callback. -/
def KeepsCallbacks (ops : List (FOp X)) : Prop :=
  FOp.clear ∉ ops ∧ ∀ c, FOp.buffer (.removeCallback c) ∉ ops

/-- The headers of the messages received, in order: number, frame, stamp. -/
def received : List FEv → List (Nat × Name × Time)
  | [] => []
  | .received id f t :: r => (id, f, t) :: received r
  | _ :: r => received r

/-- No step changes the target frames or the tolerance. -/
def ConstantTargets (ops : List (FOp X)) : Prop :=
  (∀ ts, FOp.setTargets ts ∉ ops) ∧ ∀ tol, FOp.setTolerance tol ∉ ops

/-- The target frames the program set last, as it wrote them; the constructor sets `first`. -/
def targetsSet (first : Name) (ops : List (FOp X)) : List Name :=
  (ops.filterMap (fun | .setTargets ts => some ts | _ => none)).getLast?.getD [first]

/-- The tolerance the program set last; zero at construction. -/
def toleranceSet (ops : List (FOp X)) : Duration :=
  (ops.filterMap (fun | .setTolerance d => some d | _ => none)).getLast?.getD 0

/-- At some moment during the steps `ops` from `s`, `frame` could be transformed to `target` at `time`. -/
def Filt.WasReady [Rigid X] (s : Filt X) (ops : List (FOp X)) (target frame : Name) (time : Time) : Prop :=
  ∃ p q, ops = p ++ q ∧ (Filt.run p s []).1.rb.buf.canTransform target frame time = .ok true

/-- The frame can be transformed to every target frame the stamp and, if there is a tolerance, at stamp plus tolerance. -/
def AllReady (b : Buf X) (targets : List Name) (tol : Duration) (frame : Name) (stamp : Time) : Prop :=
  ∀ t ∈ targets, b.canTransform t frame stamp = .ok true ∧
    (tol ≠ 0 → ∃ t2, timeAdd stamp tol = some t2 ∧ b.canTransform t frame t2 = .ok true)

end Tf2
