import Verif.Model.Requests
import Verif.Model.BufferServer

/-!
# The ROS front end: static broadcaster, listener, blocking waits

Models tf2_ros/src/static_transform_broadcaster.cpp, tf2_ros/src/transform_listener.cpp and
tf2_ros/src/buffer.cpp.  The ROS transport is external: a publisher is the list of messages it has
published, a subscription is a sequence of callbacks.
-/
namespace Tf2

variable {X : Type}

/-! ### Static broadcaster -/

/-- One iteration of the loop of `StaticTransformBroadcaster::sendTransform`,
tf2_ros/src/static_transform_broadcaster.cpp:49-59: `find_if` by exact `child_frame_id`, then overwrite or
append. -/
def netUpsert : List (Msg X) → Msg X → List (Msg X)
  | [], m => [m]
  | e :: r, m => if m.child = e.child then m :: r else e :: netUpsert r m

/-- `StaticTransformBroadcaster`: `net_message_.transforms` and what has been published on the latched topic,
oldest first; tf2_ros/include/tf2_ros/static_transform_broadcaster.h:50-70. -/
structure SBroadcaster (X : Type) where
  net : List (Msg X) := []
  published : List (List (Msg X)) := []

/-- `StaticTransformBroadcaster::sendTransform`, static_transform_broadcaster.cpp:47-62. The version for one
transform (static_transform_broadcaster.h:57-59) calls this one with a list of one. -/
def SBroadcaster.send (b : SBroadcaster X) (msgs : List (Msg X)) : SBroadcaster X :=
  let net := msgs.foldl netUpsert b.net
  { net := net, published := b.published ++ [net] }

/-- `StaticTransformBroadcaster.sendTransform` of the Python package,
tf2_ros/src/tf2_ros/static_transform_broadcaster.py:46-49: publishes the argument, keeps nothing. -/
def SBroadcaster.sendPy (b : SBroadcaster X) (msgs : List (Msg X)) : SBroadcaster X :=
  { b with published := b.published ++ [msgs] }

/-- What a latched topic delivers to a subscriber that connects now: the last message published (external). -/
def SBroadcaster.latched (b : SBroadcaster X) : Option (List (Msg X)) := b.published.getLast?

/-! ### Listener -/

/-- `ros::Time operator-(ros::Time)` (external): throws `std::runtime_error` when the number of seconds does
not fit in 32 signed bits; the throw is `none`. -/
def timeSub (t u : Time) : Option Duration :=
  let d : Int := (t : Int) - u
  if -(2147483649 * 1000000000) < d ∧ d < 2147483648 * 1000000000 then some d else none

/-- `TransformListener`: the buffer, `last_update_`, and the message being handled: the transforms still to be
set, the publisher's name, the static flag; tf2_ros/include/tf2_ros/transform_listener.h:48-89. -/
structure Listener (X : Type) where
  rb : RBuf X
  last : Time
  cur : Option (List (Msg X) × Name × Bool)

/-- Constructor: `last_update_` is the zero time. -/
def Listener.init (D : Duration) : Listener X := { rb := RBuf.init D, last := 0, cur := none }

/-- Events of a program with a listener. -/
inductive LEv (X : Type) where
  | received (now : Time) (msgs : List (Msg X)) (auth : Name) (isStatic : Bool)
  | did (op : ROp X)                   -- a call of the buffer by the listener
  | other (op : ROp X)                 -- a call of the buffer by somebody else
  | escaped                            -- an exception left the subscription callback

/-- Whether an exception of a class other than `TransformException` left `setTransform`. -/
def setEscapes (evs : List REv) : Bool :=
  evs.any fun
    | .setDone .threw => true
    | .testThrew e => !e.caughtBy .transform
    | _ => false

/-- `subscription_callback_impl` up to the loop, tf2_ros/src/transform_listener.cpp:106-117. The subtraction is
in the arguments of a `ROS_WARN_STREAM`; logging is taken to be enabled at that level. -/
def Listener.receive (s : Listener X) (now : Time) (msgs : List (Msg X)) (auth : Name) (isStatic : Bool) :
    Listener X × List (LEv X) :=
  if now < s.last then
    match timeSub s.last now with
    | none => (s, [.received now msgs auth isStatic, .escaped])
    | some _ =>
      ({ rb := { s.rb with buf := s.rb.buf.clear }, last := now, cur := some (msgs, auth, isStatic) },
       [.received now msgs auth isStatic, .did .clear])
  else
    ({ s with last := now, cur := some (msgs, auth, isStatic) }, [.received now msgs auth isStatic])

/-- One iteration of the loop, or its end, transform_listener.cpp:118-131. -/
def Listener.apply [Rigid X] (s : Listener X) : Listener X × List (LEv X) :=
  match s.cur with
  | none => (s, [])
  | some ([], _, _) => ({ s with cur := none }, [])
  | some (m :: ms, auth, st) =>
    let r := s.rb.setTransform m auth st
    if setEscapes r.2 then ({ s with rb := r.1, cur := none }, [.did (.set m auth st), .escaped])
    else ({ s with rb := r.1, cur := some (ms, auth, st) }, [.did (.set m auth st)])

/-- A step of a program with a listener: a message arrives; the listener goes on; somebody else calls the
buffer. The callbacks of one listener run one at a time (one callback queue served by one thread). -/
inductive LOp (X : Type) where
  | receive (now : Time) (msgs : List (Msg X)) (auth : Name) (isStatic : Bool)
  | apply
  | other (op : ROp X)

/-- One step. A message is taken from the callback queue only when no callback is running. -/
def Listener.step [Rigid X] (s : Listener X) : LOp X → Listener X × List (LEv X)
  | .receive now msgs auth st => if s.cur.isSome then (s, []) else s.receive now msgs auth st
  | .apply => s.apply
  | .other op => ({ s with rb := (s.rb.step op).1 }, [.other op])

/-- A history; events in order. -/
def Listener.run [Rigid X] : List (LOp X) → Listener X → List (LEv X) → Listener X × List (LEv X)
  | [], s, evs => (s, evs)
  | op :: r, s, evs => Listener.run r (s.step op).1 (evs ++ (s.step op).2)

/-! ### Blocking waits -/

/-- What a waiting thread can see: the buffer, the clock, `ros::ok() || !ros::isInitialized()`. -/
structure World (X : Type) where
  buf : Buf X
  now : Time
  up : Bool

/-- Three seconds, tf2_ros/src/buffer.cpp:136, 166. -/
def threeSeconds : Duration := 3000000000

/-- Where a call of `Buffer::canTransform` with a timeout is, tf2_ros/src/buffer.cpp:118-142 and 147-174: the
four operands of the loop condition are evaluated one after the other. `start` is `start_time`. -/
inductive WPhase where
  | enter
  | deadline (start : Time)
  | available (start : Time)
  | jump (start : Time)
  | alive (start : Time)
  | sleeping (start : Time)
  | final (start : Time)
  | info (start : Time) (v : Bool)
  | returned (v : Bool)
  | threw
  | ub
deriving DecidableEq, Repr

/-- Continues with the value of an addition of times, or with its exception. -/
def afterAdd (t : Option Time) (k : Time → WPhase) : WPhase :=
  match t with
  | none => .threw
  | some e => k e

/-- One step of `Buffer::canTransform(..., timeout, errstr)`, buffer.cpp:118-142 and 147-174, the overload
given by `g.advanced`; `dedicated` is `isUsingDedicatedThread()` (tf2_ros/src/buffer.cpp:185-198), `errstr`
whether the last argument is not null. The length of the sleep is not modelled: it may end at any time. -/
def wstep (g : Goal) (dedicated errstr : Bool) (w : World X) : WPhase → WPhase
  | .enter => if dedicated then .deadline w.now else .returned false
  | .deadline st => afterAdd (timeAdd st g.timeout) fun e => if w.now < e then .available st else .final st
  | .available st =>
    match g.can w.buf with
    | .ok true => .final st
    | .ok false => .jump st
    | .throw _ => .threw
    | .ub => .ub
  | .jump st => afterAdd (timeAdd w.now threeSeconds) fun e => if st ≤ e then .alive st else .final st
  | .alive st => if w.up then .sleeping st else .final st
  | .sleeping st => .deadline st
  | .final st =>
    match g.can w.buf with
    | .ok v => if errstr then .info st v else .returned v
    | .throw _ => .threw
    | .ub => .ub
  | .info st v =>                                      -- `conditionally_append_timeout_info`, 106-116
    match timeSub w.now st with
    | none => .threw
    | some _ => .returned v
  | p => p

/-- The call after `n` steps, when its `i`-th step sees the world `W i`. -/
def wait (g : Goal) (dedicated errstr : Bool) (W : Nat → World X) : Nat → WPhase
  | 0 => .enter
  | n + 1 => wstep g dedicated errstr (W n) (wait g dedicated errstr W n)

/-- Where a call of `Buffer::lookupTransform` with a timeout is, tf2_ros/src/buffer.cpp:53-69. -/
inductive BPhase (X : Type) where
  | waiting (p : WPhase)
  | second (m1 : Msg X)
  | done (r : Res (Msg X))

/-- One step of `Buffer::lookupTransform(..., timeout)`, buffer.cpp:53-69: the wait (its result is ignored),
then the lookup. -/
def bstep [Rigid X] (g : Goal) (dedicated : Bool) (w : World X) : BPhase X → BPhase X
  | .waiting (.returned _) =>
    match g.look1 w.buf with
    | .inl r => .done r
    | .inr m1 => .second m1
  | .waiting .threw => .done (.throw .runtime)
  | .waiting .ub => .done .ub
  | .waiting p => .waiting (wstep g dedicated false w p)
  | .second m1 => .done (g.look2 m1 w.buf)
  | .done r => .done r

/-- The call after `n` steps. -/
def blockingLookup [Rigid X] (g : Goal) (dedicated : Bool) (W : Nat → World X) : Nat → BPhase X
  | 0 => .waiting .enter
  | n + 1 => bstep g dedicated (W n) (blockingLookup g dedicated W n)

end Tf2
