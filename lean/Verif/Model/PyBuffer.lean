import Verif.Model.PyTime

/-!
# The Python buffer

Models the binding tf2_py/src/tf2_py.cpp (`tf2_py.BufferCore`) and tf2_ros/src/tf2_ros/buffer.py
(`tf2_ros.Buffer`). Not modelled: argument parsing (frame names are taken to be strings without NUL
characters, messages to have the attributes read), warnings about types, reference counts, the
`~tf2_frames` service, `all_frames_as_*` and `_allFramesAsDot` (their C++ sides are in `Model/FrameReport.lean`).
-/
namespace Tf2.Py

variable {X : Type}

/-- Outcome of a call from Python. `raised` is one of the Python classes of tf2_py.cpp:574-579, written with the C++
class it stands for; `typeError` is Python's `TypeError`,
`interrupted` an exception of `rospy.sleep`; `crash` is the end of the process: a C++ exception that
leaves a C function called by the interpreter, or a null pointer used. -/
inductive PyRes (α : Type) where
  | ok (v : α)
  | raised (e : Exc)
  | typeError
  | interrupted
  | crash
deriving DecidableEq, Repr

/-- The handlers of `WRAP`, tf2_py.cpp:10-46, in order: C++ class caught, Python class raised. -/
def wrapHandlers : List (Exc × Exc) :=
  [(.connectivity, .connectivity), (.lookup, .lookup), (.extrapolation, .extrapolation),
   (.invalidArgument, .invalidArgument), (.timeout, .timeout), (.transform, .transform)]

/-- `WRAP(x)`, tf2_py.cpp:10-46. -/
def wrap {α : Type} : Res α → PyRes α
  | .ok v => .ok v
  | .throw e =>
    match wrapHandlers.find? (fun h => e.caughtBy h.1) with
    | some h => .raised h.2
    | none => .crash
  | .ub => .crash

/-- A C++ call outside `WRAP`. -/
def bare {α : Type} : Res α → PyRes α
  | .ok v => .ok v
  | .throw _ => .crash
  | .ub => .crash

/-- `O&` with `rostime_converter` in `PyArg_ParseTupleAndKeywords`, then the rest of the function. -/
def withTime {α : Type} (fl : ℚ → ℚ) (t : Time) (k : Time → PyRes α) : PyRes α :=
  match timeIn fl t with
  | none => .crash
  | some t' => k t'

/-- `transform_converter`, tf2_py.cpp:71-149. When `rospy.Time` raises, `time_obj` is NULL and
`Py_DECREF(time_obj)` (107) dereferences it. -/
def outMsg (m : Msg X) : PyRes (Msg X) :=
  match timeOut m.stamp with
  | none => .crash
  | some t => .ok { m with stamp := t }

/-- A converted result, or the exception. -/
def thenOut : PyRes (Msg X) → PyRes (Msg X)
  | .ok m => outMsg m
  | r => r

/-- `canTransformCore`, tf2_py.cpp:213-226; the flag of the tuple. -/
def canCore (fl : ℚ → ℚ) (b : Buf X) (target source : Name) (t : Time) : PyRes Bool :=
  withTime fl t fun t => bare (b.canTransform target source t)

/-- `canTransformFullCore`, tf2_py.cpp:228-248. -/
def canFullCore (fl : ℚ → ℚ) (b : Buf X) (target : Name) (ttime : Time) (source : Name) (stime : Time) (fixed : Name) :
    PyRes Bool :=
  withTime fl ttime fun tt => withTime fl stime fun st => bare (b.canTransform5 target tt source st fixed)

/-- `lookupTransformCore`, tf2_py.cpp:308-326. -/
def lookupCore [Rigid X] (fl : ℚ → ℚ) (b : Buf X) (target source : Name) (t : Time) : PyRes (Msg X) :=
  withTime fl t fun t => thenOut (wrap (b.lookupTransform target source t))

/-- `lookupTransformFullCore`, tf2_py.cpp:328-350. -/
def lookupFullCore [Rigid X] (fl : ℚ → ℚ) (b : Buf X) (target : Name) (ttime : Time) (source : Name) (stime : Time)
    (fixed : Name) : PyRes (Msg X) :=
  withTime fl ttime fun tt => withTime fl stime fun st =>
    thenOut (wrap (b.lookupTransform5 target tt source st fixed))

/-- `getLatestCommonTime`, tf2_py.cpp:282-306. A nonzero return code raises the base class
`TransformException`, whatever the code; a time `rospy.Time` refuses leaves its `TypeError` set. -/
def latestCommon (b : Buf X) (target source : Name) : PyRes Time :=
  match wrap (b.validateFrameId target) with
  | .ok g =>
    match wrap (b.validateFrameId source) with
    | .ok s =>
      match b.latestCommonTime g s with
      | .ok t =>
        match timeOut t with
        | some t => .ok t
        | none => .typeError
      | .err _ => .raised .transform
      | .ub => .crash
    | .raised e => .raised e
    | .typeError => .typeError
    | .interrupted => .interrupted
    | .crash => .crash
  | .raised e => .raised e
  | .typeError => .typeError
  | .interrupted => .interrupted
  | .crash => .crash

/-- `setTransform` and `setTransformStatic`, tf2_py.cpp:423-464 and 466-507: the boolean of the C++ function is
dropped, `None` is returned. (No transformable requests exist on a buffer made by Python: the binding does not
offer them.) -/
def setCore [Rigid X] (fl : ℚ → ℚ) (b : Buf X) (m : Msg X) (auth : Name) (isStatic : Bool) : Buf X × PyRes Unit :=
  match timeIn fl m.stamp with
  | none => (b, .crash)
  | some t =>
    match b.setTransform { m with stamp := t } auth isStatic with
    | (b', .threw) => (b', .crash)
    | (b', .ub) => (b', .crash)
    | (b', _) => (b', .ok ())

/-- One call that changes the buffer; `none`: the process ended. -/
def stepCore [Rigid X] (fl : ℚ → ℚ) (b : Buf X) : Op X → Option (Buf X)
  | .set m a s =>
    match setCore fl b m a s with
    | (b', .ok _) => some b'
    | _ => none
  | .clear => some b.clear

/-- A history of calls. -/
def runCore [Rigid X] (fl : ℚ → ℚ) : List (Op X) → Buf X → Option (Buf X)
  | [], b => some b
  | o :: r, b =>
    match stepCore fl b o with
    | none => none
    | some b' => runCore fl r b'

/-! ### `tf2_ros.Buffer`: waiting -/

/-- The two versions of the check, buffer.py:125-128 and 155-158. -/
def Goal.canPy (fl : ℚ → ℚ) (g : Goal) (b : Buf X) : PyRes Bool :=
  if g.advanced then canFullCore fl b g.target g.ttime g.source g.stime g.fixed
  else canCore fl b g.target g.source g.stime

/-- What a Python thread sees: the buffer, the clock, and how a `rospy.sleep` that ends now ends: normally, or with
`ROSInterruptException` (shutdown) or `ROSTimeMovedBackwardsException` (external, rospy). -/
structure PyWorld (X : Type) where
  buf : Buf X
  now : Time
  sleepOk : Bool := true

/-- Where a call of `Buffer.can_transform` or `Buffer.can_transform_full` is. -/
inductive PyPhase where
  | enter
  | deadline (start : Time)
  | available (start : Time)
  | jump (start : Time)
  | sleeping (start : Time)
  | final
  | returned (v : Bool)
  | typeError
  | interrupted
  | crash
deriving DecidableEq, Repr

/-- One step of `Buffer.can_transform(..., timeout)`, buffer.py:109-131 (and `can_transform_full`, 133-161): the
three operands of the loop condition are evaluated one after the other. Sums of times are Python integers: they do
not overflow, and a negative one raises `TypeError` (external, genpy). The length of the sleep is not modelled. -/
def pystep (fl : ℚ → ℚ) (g : Goal) (w : PyWorld X) : PyPhase → PyPhase
  | .enter => if g.timeout ≠ 0 then .deadline w.now else .final
  | .deadline st =>
    if (st : Int) + g.timeout < 0 then .typeError
    else if (w.now : Int) < (st : Int) + g.timeout then .available st else .final
  | .available st =>
    match Goal.canPy fl g w.buf with
    | .ok true => .final
    | .ok false => .jump st
    | _ => .crash
  | .jump st => if st ≤ w.now + 3000000000 then .sleeping st else .final
  | .sleeping st => if w.sleepOk then .deadline st else .interrupted
  | .final =>
    match Goal.canPy fl g w.buf with
    | .ok v => .returned v
    | _ => .crash
  | p => p

/-- The call after `n` steps, when its `i`-th step sees `W i`. -/
def pyWait (fl : ℚ → ℚ) (g : Goal) (W : Nat → PyWorld X) : Nat → PyPhase
  | 0 => .enter
  | n + 1 => pystep fl g (W n) (pyWait fl g W n)

/-- The lookup after the wait, buffer.py:90 and 106; its two critical sections (five-argument version) see one
state, as the interpreter lock is held during the call (external). -/
def Goal.lookPy [Rigid X] (fl : ℚ → ℚ) (g : Goal) (b : Buf X) : PyRes (Msg X) :=
  if g.advanced then lookupFullCore fl b g.target g.ttime g.source g.stime g.fixed
  else lookupCore fl b g.target g.source g.stime

/-- Outcome of `Buffer.lookup_transform(..., timeout)` and `lookup_transform_full`, buffer.py:77-106, when its wait
ends at step `n`: the result of the wait is dropped and the lookup is made; exceptions of the wait leave. `none`:
still waiting. -/
def pyLookup [Rigid X] (fl : ℚ → ℚ) (g : Goal) (W : Nat → PyWorld X) (n : Nat) : Option (PyRes (Msg X)) :=
  match pyWait fl g W n with
  | .returned _ => some (Goal.lookPy fl g (W n).buf)
  | .typeError => some .typeError
  | .interrupted => some .interrupted
  | .crash => some .crash
  | _ => none

/-! ### `tf2_ros.BufferClient` -/

/-- `BufferClient.__process_result`, tf2_ros/src/tf2_ros/buffer_client.py:177-196. `none` is Python's `None`. A
message object is never false, so the second test (180) never fires (external, genpy). -/
def pyProcessResult : Option (Result X) → ClientOut X
  | none => .raise .transform "The BufferServer returned None for result!"
  | some r =>
    if r.error ≠ NO_ERROR then
      if r.error = LOOKUP_ERROR then .raise .lookup r.text
      else if r.error = CONNECTIVITY_ERROR then .raise .connectivity r.text
      else if r.error = EXTRAPOLATION_ERROR then .raise .extrapolation r.text
      else if r.error = INVALID_ARGUMENT_ERROR then .raise .invalidArgument r.text
      else if r.error = TIMEOUT_ERROR then .raise .timeout r.text
      else .raise .transform r.text
    else .ret r.transform

/-- `BufferClient.__process_goal`, buffer_client.py:165-175; the texts are shortened. -/
def pyProcessGoal : ActionOut X → ClientOut X
  | .noResult => .raise .timeout "did not come back in the specified time"
  | .notSucceeded => .raise .timeout "did not come back with SUCCEEDED status"
  | .succeeded r => pyProcessResult (some r)

/-- `BufferClient.can_transform` and `can_transform_full`, buffer_client.py:123-163: `none` is an exception that leaves
it. -/
def pyClientCan (r : ActionOut X) : Option Bool :=
  match pyProcessGoal r with
  | .ret _ => some true
  | .raise e _ => if e.caughtBy .transform then some false else none

/-- The goal of `BufferClient.lookup_transform`, buffer_client.py:88-93. -/
def pySimpleGoal (target source : Name) (time : Time) (timeout : Duration) : Goal :=
  { target := target, source := source, stime := time, timeout := timeout, advanced := false }

/-- The goal of `BufferClient.lookup_transform_full`, buffer_client.py:111-118. -/
def pyAdvancedGoal (target : Name) (ttime : Time) (source : Name) (stime : Time) (fixed : Name) (timeout : Duration) : Goal :=
  { target := target, source := source, stime := stime, timeout := timeout, ttime := ttime, fixed := fixed, advanced := true }

end Tf2.Py
