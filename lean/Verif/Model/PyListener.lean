import Verif.Model.PyBuffer

/-!
# The Python transform listener

Models tf2_ros/src/tf2_ros/transform_listener.py. `rospy` calls the two callbacks from a thread per connection
(external), so that any number of callbacks can be running. The interpreter lock makes each call of the buffer one
step; `check_for_reset` holds `last_update_lock` and is one step too: what other threads do between its reading of the clock
and its `clear` can be taken to come before it.
-/
namespace Tf2.Py

variable {X : Type}

/-- A running callback: whether it is past `check_for_reset`, the transforms still to be stored, `who`, and which of the
two callbacks it is. -/
structure PyCb (X : Type) where
  checked : Bool
  rest : List (Msg X)
  who : Name
  isStatic : Bool

/-- `TransformListener`: the buffer, `last_update`, the callbacks started so far and those running. -/
structure PyListener (X : Type) where
  buf : Buf X
  last : Time
  next : Nat
  cbs : Nat → Option (PyCb X)

/-- Constructor, transform_listener.py:53-57: `last_update` is the time now. -/
def PyListener.init (D : Duration) (now : Time) : PyListener X := { buf := Buf.init D, last := now, next := 0, cbs := fun _ => none }

/-- Events of a program with a listener. -/
inductive PyLEv (X : Type) where
  | started (id : Nat) (msgs : List (Msg X)) (callerid : Option Name) (isStatic : Bool)
  | checked (id : Nat) (now : Time)
  | did (id : Nat) (op : Op X)
  | finished (id : Nat)
  | other (op : Op X)

/-- Steps: a message arrives and its callback starts; a callback runs `check_for_reset`; a callback stores its next
transform or returns; somebody else calls the buffer. -/
inductive PyLOp (X : Type) where
  | receive (msgs : List (Msg X)) (callerid : Option Name) (isStatic : Bool)
  | check (id : Nat) (now : Time)
  | store (id : Nat)
  | other (op : Op X)

/-- `data._connection_header.get('callerid', "default_authority")`, transform_listener.py:81 and 87. -/
def whoOf (callerid : Option Name) : Name := callerid.getD "default_authority".toList

/-- The table of running callbacks with the entry of one replaced; a dictionary of threads kept by `rospy` (external). -/
def PyListener.update (s : PyListener X) (id : Nat) (c : Option (PyCb X)) : Nat → Option (PyCb X) :=
  fun j => if j = id then c else s.cbs j

/-- `check_for_reset`, transform_listener.py:69-77. -/
def PyListener.check (s : PyListener X) (id : Nat) (now : Time) (c : PyCb X) : PyListener X × List (PyLEv X) :=
  let s' := { s with last := now, cbs := s.update id (some { c with checked := true }) }
  if now < s.last then ({ s' with buf := s.buf.clear }, [.checked id now, .did id .clear])
  else (s', [.checked id now])

/-- One iteration of the loop, or its end, transform_listener.py:82-83 and 88-89; `none`: the process ended. -/
def PyListener.store [Rigid X] (fl : ℚ → ℚ) (s : PyListener X) (id : Nat) (c : PyCb X) : Option (PyListener X × List (PyLEv X)) :=
  match c.rest with
  | [] => some ({ s with cbs := s.update id none }, [.finished id])
  | m :: ms =>
    match stepCore fl s.buf (.set m c.who c.isStatic) with
    | none => none
    | some b => some ({ s with buf := b, cbs := s.update id (some { c with rest := ms }) }, [.did id (.set m c.who c.isStatic)])

/-- One step, transform_listener.py:79-89. -/
def PyListener.step [Rigid X] (fl : ℚ → ℚ) (s : PyListener X) : PyLOp X → Option (PyListener X × List (PyLEv X))
  | .receive msgs callerid st =>
    some ({ s with next := s.next + 1,
                   cbs := s.update s.next (some { checked := false, rest := msgs, who := whoOf callerid, isStatic := st }) },
      [.started s.next msgs callerid st])
  | .check id now =>
    match s.cbs id with
    | some c => if c.checked then some (s, []) else some (s.check id now c)
    | none => some (s, [])
  | .store id =>
    match s.cbs id with
    | some c => if c.checked then s.store fl id c else some (s, [])
    | none => some (s, [])
  | .other op =>
    match stepCore fl s.buf op with
    | none => none
    | some b => some ({ s with buf := b }, [.other op])

/-- A history; events in order. `none`: the process ended. -/
def PyListener.run [Rigid X] (fl : ℚ → ℚ) : List (PyLOp X) → PyListener X → List (PyLEv X) → Option (PyListener X × List (PyLEv X))
  | [], s, evs => some (s, evs)
  | op :: r, s, evs =>
    match s.step fl op with
    | none => none
    | some (s', e) => PyListener.run fl r s' (evs ++ e)

end Tf2.Py
