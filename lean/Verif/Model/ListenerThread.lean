import Verif.Model.Ros

/-!
# The listener with its own thread, from construction to destruction

Models `TransformListener` with `spin_thread = true` (the default): `initWithThread`, `dedicatedListenerThread`, the
destructor (tf2_ros/src/transform_listener.cpp:38-104, tf2_ros/include/tf2_ros/transform_listener.h:48-89), around
the subscription callback of Model/Ros.

External, after roscpp: a subscription keeps its last 100 messages, a message that finds it full pushes out the
oldest; every message that finds it not full adds an entry for its topic to the callback queue;
`CallbackQueue::callAvailable(timeout)` waits for an entry or the timeout, takes all entries present, and for each
one calls the callback with the oldest message of the topic; an exception in a thread ends the process; destroying a
`ros::Subscriber` and the callback queue drops what waits.

Simplified: `using_dedicated_thread_` of the listener is a plain `bool` written by one thread and read by the other;
it is taken to be read and written atomically. Without a thread (`spin_thread = false`, `init`) the callbacks run on
the queue of the node handle, whose threads belong to the caller: not modelled.
-/
namespace Tf2.Spin

variable {X : Type}

/-- A message with the name of its publisher. -/
structure Packet (X : Type) where
  msgs : List (Msg X)
  auth : Name
deriving DecidableEq, Repr

/-- The second argument of the two subscriptions, transform_listener.cpp:85, 89. -/
def queueSize : Nat := 100

/-- Where `dedicatedListenerThread` is (transform_listener.h:80-86): before the test of the loop; in `callAvailable`
before it has looked at the queue; in `callAvailable`, calling; returned; the process is dead. -/
inductive Phase where
  | test | grab | calling | ended | crashed
deriving DecidableEq, Repr

/-- Where the owner is: in the constructor, the thread started and the buffer not yet told
(transform_listener.cpp:92-95); using the listener; in the destructor, in `join` (62-70); the listener is gone. -/
inductive Owner where
  | starting | using | joining | gone
deriving DecidableEq, Repr

/-- The listener (with the buffer it feeds), its subscriptions and its thread. -/
structure St (X : Type) where
  /-- the buffer, `last_update_`, and the message being handled -/
  lis : Listener X
  /-- messages waiting at `/tf` -/
  tf : List (Packet X) := []
  /-- messages waiting at `/tf_static` -/
  static : List (Packet X) := []
  /-- `tf_message_callback_queue_`: topics, `true` for `/tf_static` -/
  queue : List Bool := []
  /-- entries taken by the running `callAvailable` -/
  batch : List Bool := []
  phase : Phase := .test
  /-- `using_dedicated_thread_` of the listener -/
  keep : Bool := true
  owner : Owner := .starting
  /-- `using_dedicated_thread_` of the buffer (tf2/include/tf2/buffer_core.h:243) -/
  dedicated : Bool := false

/-- `initWithThread` up to the start of the thread, transform_listener.cpp:82-92. The buffer is new. -/
def St.init (D : Duration) : St X := { lis := Listener.init D }

/-- The messages waiting at a topic. -/
def St.waiting (s : St X) : Bool → List (Packet X)
  | false => s.tf
  | true => s.static

/-- Replaces the messages waiting at a topic. -/
def St.setWaiting (s : St X) (st : Bool) (q : List (Packet X)) : St X :=
  match st with
  | false => { s with tf := q }
  | true => { s with static := q }

/-- What happens. -/
inductive Ev (X : Type) where
  | arrived (st : Bool) (p : Packet X)        -- roscpp has a message for the topic
  | dropped (st : Bool) (p : Packet X)        -- pushed out of the subscription
  | did (e : LEv X)                           -- an event of the callback or of another user of the buffer
  | returned                                  -- the destructor returns

/-- A message arrives (external: `SubscriptionQueue::push`, `Subscription::handleMessage`). -/
def St.arrive (s : St X) (st : Bool) (p : Packet X) : St X × List (Ev X) :=
  if s.owner = .gone ∨ s.phase = .crashed then (s, [])
  else if queueSize ≤ (s.waiting st).length then
    (s.setWaiting st ((s.waiting st).drop 1 ++ [p]),
     .arrived st p :: ((s.waiting st).take 1).map (.dropped st))
  else
    let s1 := s.setWaiting st (s.waiting st ++ [p])
    ({ s1 with queue := s1.queue ++ [st] }, [.arrived st p])

/-- Whether an exception left the callback. -/
def escapes (evs : List (LEv X)) : Bool := evs.any fun | .escaped => true | _ => false

/-- The listener after a piece of a callback; the process dies if an exception left it. -/
def St.after (s : St X) (r : Listener X × List (LEv X)) : St X × List (Ev X) :=
  ({ s with lis := r.1, phase := if escapes r.2 then .crashed else s.phase }, r.2.map .did)

/-- One step of `dedicatedListenerThread`, transform_listener.h:80-86, with `callAvailable` (external) and the
subscription callback (transform_listener.cpp:98-132). `now` is the clock, read by a callback that starts. -/
def St.thread [Rigid X] (s : St X) (now : Time) : St X × List (Ev X) :=
  match s.phase with
  | .test => ({ s with phase := if s.keep then .grab else .ended }, [])
  | .grab =>
    if s.queue = [] then ({ s with phase := .test }, [])              -- the timeout, 0.01 s
    else ({ s with batch := s.queue, queue := [], phase := .calling }, [])
  | .calling =>
    if s.lis.cur.isSome then s.after s.lis.apply
    else
      match s.batch with
      | [] => ({ s with phase := .test }, [])
      | st :: r =>
        match s.waiting st with
        | [] => ({ s with batch := r }, [])
        | p :: ps => ({ s with batch := r }.setWaiting st ps).after (s.lis.receive now p.msgs p.auth st)
  | .ended => (s, [])
  | .crashed => (s, [])

/-- Steps: a message arrives; the thread goes on; the constructor ends (transform_listener.cpp:95); the destructor
is called (64); `join` returns, then the members are destroyed (67-68); somebody else calls the buffer. -/
inductive Op (X : Type) where
  | arrive (st : Bool) (p : Packet X)
  | thread (now : Time)
  | ready
  | destroy
  | join
  | other (op : ROp X)

/-- One step; what is not possible in a state does nothing. -/
def St.step [Rigid X] (s : St X) : Op X → St X × List (Ev X)
  | .arrive st p => s.arrive st p
  | .thread now => s.thread now
  | .ready =>
    if s.owner = .starting ∧ s.phase ≠ .crashed then ({ s with owner := .using, dedicated := true }, []) else (s, [])
  | .destroy =>
    if s.owner = .using ∧ s.phase ≠ .crashed then ({ s with owner := .joining, keep := false }, []) else (s, [])
  | .join =>
    if s.owner = .joining ∧ s.phase = .ended then
      ({ s with owner := .gone, tf := [], static := [], queue := [], batch := [] }, [.returned])
    else (s, [])
  | .other op =>
    if s.phase = .crashed then (s, [])
    else ({ s with lis := (s.lis.step (.other op)).1 }, (s.lis.step (.other op)).2.map .did)

/-- A history; events in order. -/
def St.run [Rigid X] : List (Op X) → St X → St X × List (Ev X)
  | [], s => (s, [])
  | op :: r, s => ((St.run r (s.step op).1).1, (s.step op).2 ++ (St.run r (s.step op).1).2)

end Tf2.Spin
