import Verif.Model.Requests
import Verif.Spec.Buffer

/-!
# Specification vocabulary for transformable requests: what the events say
-/
namespace Tf2

variable {X : Type}

/-- The request is older than the cache window: its time plus the storage duration lies before the
latest common time of the two frames. -/
def TooOld (b : Buf X) (target source : Name) (time : Time) : Prop :=
  ∃ i j l e, IsFrame b target i ∧ IsFrame b source j ∧ b.latestCommonTime i j = .ok l ∧ l ≠ 0 ∧
    timeAdd time b.cacheTime = some e ∧ e < l

/-- The handles returned for pending requests, in order. -/
def addedHandles : List REv → List Nat
  | [] => []
  | .added h _ _ _ _ :: r => h :: addedHandles r
  | _ :: r => addedHandles r

/-- The handles passed to user callbacks (or to what used to be one), in order. -/
def calledHandles : List REv → List Nat
  | [] => []
  | .invoked _ h _ _ :: r => h :: calledHandles r
  | .danglingInvoke _ h :: r => h :: calledHandles r
  | _ :: r => calledHandles r

/-- The handles of requests that were answered without telling anybody: their callback was not
registered, or an exception destroyed the collected answers. -/
def droppedHandles : List REv → List Nat
  | [] => []
  | .dropped h :: r => h :: droppedHandles r
  | _ :: r => droppedHandles r

/-- The handles of the requests still pending. -/
def RBuf.pending (s : RBuf X) : List Nat := s.reqs.map Request.handle

/-- The handles of the requests answered whose callback has not yet been called. -/
def RBuf.scheduled (s : RBuf X) : List Nat := s.inflight.map Call.handle

/-- A history from a new buffer. -/
def RBuf.history [Rigid X] (D : Duration) (ops : List (ROp X)) : RBuf X × List REv :=
  RBuf.run ops (RBuf.init D) []

end Tf2
