import Verif.Model.Requests

/-!
# The transforms-changed listeners of `tf2::BufferCore`

Models tf2/src/buffer_core.cpp:1355-1366 and 1490.  The signal (`boost::signals2::signal`) is a library object: it keeps the
connected slots, an emission works on the slots connected when it begins, and a slot that is disconnected in the meantime
is not called.
-/
namespace Tf2

/-- `BufferCore` with `_transforms_changed_` (tf2/include/tf2/buffer_core.h:362-364): the connections, the number of calls of
`setTransform` that have stored their transform and have not yet reached line 1490 of buffer_core.cpp, and the calls of
slots still to be made by emissions under way (in any thread). -/
structure SigBuf (X : Type) where
  core : RBuf X
  slots : List Nat
  next : Nat
  due : Nat
  ringing : List Nat

/-- A step: one of `RBuf`, connecting or disconnecting a listener, some `setTransform` reaching the emission, or one call of
an emission under way. -/
inductive SigOp (X : Type) where
  | core (op : ROp X)
  | listen
  | unlisten (c : Nat)
  | emit
  | ring (k : Nat)

/-- Observable events. -/
inductive SigEv where
  | core (e : REv)
  | listening (c : Nat)
  | rang (c : Nat)
deriving DecidableEq, Repr

/-- The events of `setTransform` when it returns normally after storing: it goes on to
tf2/src/buffer_core.cpp:1490.  An exception thrown while requests are tested leaves before that line. -/
def stored : List REv → Bool
  | .setDone .accepted :: r => r.all fun e => match e with | .testThrew _ => false | .undefined => false | _ => true
  | _ => false

namespace SigBuf

/-- Constructor. -/
def init {X : Type} (D : Duration) : SigBuf X := { core := RBuf.init D, slots := [], next := 0, due := 0, ringing := [] }

variable {X : Type}

/-- One step. -/
def step [Rigid X] (s : SigBuf X) : SigOp X → SigBuf X × List SigEv
  | .core op =>
    let r := s.core.step op
    ({ s with core := r.1, due := if stored r.2 then s.due + 1 else s.due }, r.2.map .core)
  | .listen =>                                           -- `connect`, 1355-1359
    ({ s with slots := s.slots ++ [s.next], next := s.next + 1 }, [.listening s.next])
  | .unlisten c =>                                       -- `disconnect`, 1361-1365
    ({ s with slots := s.slots.filter (· ≠ c) }, [])
  | .emit =>                                             -- `_transforms_changed_()`, 1490
    if s.due = 0 then (s, []) else ({ s with due := s.due - 1, ringing := s.ringing ++ s.slots }, [])
  | .ring k =>
    match s.ringing[k]? with
    | none => (s, [])
    | some c => ({ s with ringing := s.ringing.eraseIdx k }, if c ∈ s.slots then [.rang c] else [])

/-- A history. -/
def run [Rigid X] : List (SigOp X) → SigBuf X → SigBuf X × List SigEv
  | [], s => (s, [])
  | op :: r, s => ((run r (s.step op).1).1, (s.step op).2 ++ (run r (s.step op).1).2)

end SigBuf
end Tf2
