import Verif.Model.Requests

/-!
# `tf2_ros::MessageFilter`

Models tf2_ros/include/tf2_ros/message_filter.h on top of the buffer with requests.  The messages'
contents are not modelled, only their header (frame, stamp); each message gets a serial number so that
it can be followed.  Warnings and statistics counters are not modelled; the uint32 counters
`message_count_`, `success_count`, `expected_success_count_` are natural numbers (no wrap-around).

`add` releases all locks between its requests and before it queues the message, so it is a sequence of
steps (`addStart`, then `addNext` until the message is disposed of) between which anything else may
happen; run without interruption they are the sequential call (`addWhole`).  The callback `transformable`
runs under `messages_mutex_` and is one step, as is the end of `add`: their calls of the buffer
(`canTransform`, `cancelTransformableRequest`) are not interleaved with other threads' changes of the buffer.
-/
namespace Tf2

/-- Header of a message and its serial number. -/
structure FMsg where
  id : Nat
  frame : Name
  stamp : Time
deriving DecidableEq, Repr

/-- `FilterFailureReason`, tf2_ros/include/tf2_ros/message_filter.h:60-70. -/
inductive Reason where
  | unknown | outTheBack | emptyFrameID
deriving DecidableEq, Repr

/-- `MessageInfo`, message_filter.h:664-673. -/
structure MInfo where
  msg : FMsg
  handles : List Nat
  success : Nat
deriving DecidableEq, Repr

/-- Local variables of a call of `add` in progress, message_filter.h:313-341: the message, the target
frames still to be asked for, whether the request for `stamp + tolerance` is next, and `info`. -/
structure Adding where
  msg : FMsg
  rest : List Name
  second : Bool
  handles : List Nat
  success : Nat
deriving DecidableEq, Repr

/-- A decision on its way to the user: `CBQueueCallback`, message_filter.h:583-612; `none` is success. -/
structure Out where
  id : Nat
  fail : Option Reason
deriving DecidableEq, Repr

/-- Events. -/
inductive FEv where
  | received (id : Nat) (frame : Name) (stamp : Time) -- `add` was called with this header
  | ignored (id : Nat)                        -- `add` with no target frames
  | decided (id : Nat) (fail : Option Reason) -- messageReady / messageDropped
  | signalled (id : Nat) (fail : Option Reason) -- the user's callback
  | discarded (id : Nat)                      -- thrown away by `clear`
  | addThrew (id : Nat)                       -- exception from `stamp + tolerance` or the buffer
  | callbackThrew
  | undefined
deriving DecidableEq, Repr

/-- State: the buffer, the members of `MessageFilter` (message_filter.h:652-716), the calls of `add` in
progress, the filter's entries in the callback queue (`none`: no queue, direct calls), the next serial
number and the log of buffer events (both only for bookkeeping). -/
structure Filt (X : Type) where
  rb : RBuf X
  revs : List REv
  targets : List Name
  tol : Duration
  expected : Nat
  qsize : Nat
  cb : Nat
  msgs : List MInfo
  count : Nat
  adding : List Adding
  cbq : Option (List Out)
  next : Nat

variable {X : Type}

namespace Filt

/-- A call on the buffer, with its events. -/
def buf (s : Filt X) (r : RBuf X × List REv) : Filt X := { s with rb := r.1, revs := s.revs ++ r.2 }

/-- `time_tolerance_.isZero() ? 1 : 2`, message_filter.h:253, 279: requests per target frame. -/
def perTarget (tol : Duration) : Nat := if tol = 0 then 1 else 2

/-- `setTargetFrames`, message_filter.h:247-262; also `setTargetFrame`, 237-242. -/
def setTargets (s : Filt X) (ts : List Name) : Filt X :=
  { s with targets := ts.map stripSlash, expected := ts.length * perTarget s.tol }

/-- `setTolerance`, message_filter.h:275-280. -/
def setTolerance (s : Filt X) (tol : Duration) : Filt X :=
  { s with tol := tol, expected := s.targets.length * perTarget tol }

/-- `addTransformableCallback` as called by the filter: the handle it returned. -/
def register (s : Filt X) : Filt X :=
  match s.rb.addCallback with
  | (rb, [.registered c]) => { s with rb := rb, revs := s.revs ++ [.registered c], cb := c }
  | (rb, evs) => { s with rb := rb, revs := s.revs ++ evs }

/-- Constructor: `init`, message_filter.h:444-457, and `setTargetFrame`. `queued` tells whether there is
a callback queue. -/
def init (rb : RBuf X) (revs : List REv) (target : Name) (qsize : Nat) (queued : Bool) : Filt X :=
  (register
    { rb := rb, revs := revs, targets := [], tol := 0, expected := 1, qsize := qsize, cb := 0, msgs := []
      count := 0, adding := [], cbq := if queued then some [] else none, next := 0 }).setTargets [target]

/-- `messageReady` / `messageDropped`, message_filter.h:614-638. -/
def deliver (s : Filt X) (o : Out) : Filt X × List FEv :=
  match s.cbq with
  | some q => ({ s with cbq := some (q ++ [o]) }, [.decided o.id o.fail])
  | none => (s, [.decided o.id o.fail, .signalled o.id o.fail])

/-- The callback queue runs the filter's first entry: `CBQueueCallback::call`, message_filter.h:592-604. -/
def runQueued (s : Filt X) : Filt X × List FEv :=
  match s.cbq with
  | some (o :: r) => ({ s with cbq := some r }, [.signalled o.id o.fail])
  | _ => (s, [])

/-- `clear`, message_filter.h:285-302. -/
def clear (s : Filt X) : Filt X × List FEv :=
  let s1 := (s.buf (s.rb.removeCallback s.cb)).register
  ({ s1 with msgs := [], count := 0, cbq := s.cbq.map (fun _ => []) },
   (s.msgs.map (fun i => .discarded i.msg.id)) ++
     (match s.cbq with | some q => q.map (fun o => .discarded o.id) | none => []))

/-- `add`, message_filter.h:304-331, up to the first request. -/
def addStart (s : Filt X) (frame : Name) (stamp : Time) : Filt X × List FEv :=
  let s1 := { s with next := s.next + 1 }
  if s.targets = [] then (s1, [.received s.next frame stamp, .ignored s.next])
  else if stripSlash frame = [] then
    let d := s1.deliver ⟨s.next, some .emptyFrameID⟩
    (d.1, .received s.next frame stamp :: d.2)
  else
    ({ s1 with adding := s.adding ++
        [{ msg := ⟨s.next, stripSlash frame, stamp⟩, rest := s.targets, second := false, handles := [], success := 0 }] },
     [.received s.next frame stamp])

/-- Cancels the requests of a message pushed out of the queue, message_filter.h:389-395. -/
def cancelAll (s : Filt X) : List Nat → Filt X
  | [] => s
  | h :: r => cancelAll (s.buf (s.rb.cancelRequest h)) r

/-- The end of `add`, message_filter.h:374-407. -/
def addFinish (s : Filt X) (a : Adding) : Filt X × List FEv :=
  if a.success = s.expected then s.deliver ⟨a.msg.id, none⟩                     -- 374-378
  else
    let info : MInfo := { msg := a.msg, handles := a.handles, success := a.success }
    if s.qsize ≠ 0 ∧ s.count + 1 > s.qsize then                                -- 383
      match s.msgs with
      | [] => (s, [.undefined])                                                -- `front()` of an empty list
      | f :: r =>
        let d := (s.cancelAll f.handles).deliver ⟨f.msg.id, some .unknown⟩
        ({ d.1 with msgs := r ++ [info], count := s.count - 1 + 1 }, d.2)
    else ({ s with msgs := s.msgs ++ [info], count := s.count + 1 }, [])

/-- The outcome of one request of `add`. -/
def addAnswer (s : Filt X) (i : Nat) (a a' : Adding) (r : RBuf X × List REv) : Filt X × List FEv :=
  let s1 := s.buf r
  match r.2 with
  | [.never _ _ _] =>                                                          -- 338-342, 355-359
    ({ s1 with adding := s.adding.eraseIdx i }).deliver ⟨a.msg.id, some .outTheBack⟩
  | [.immediate _ _ _] => ({ s1 with adding := s.adding.set i { a' with success := a.success + 1 } }, [])
  | [.added h _ _ _ _] => ({ s1 with adding := s.adding.set i { a' with handles := a.handles ++ [h] } }, [])
  | [.addThrew] => ({ s1 with adding := s.adding.eraseIdx i }, [.addThrew a.msg.id])
  | _ => (s1, [.undefined])

/-- The next step of the `i`-th call of `add` in progress, message_filter.h:333-410. -/
def addNext (s : Filt X) (i : Nat) : Filt X × List FEv :=
  match s.adding[i]? with
  | none => (s, [])
  | some a =>
    match a.rest with
    | [] => ({ s with adding := s.adding.eraseIdx i }).addFinish a
    | t :: ts =>
      if a.second then
        match timeAdd a.msg.stamp s.tol with
        | none => ({ s with adding := s.adding.eraseIdx i }, [.addThrew a.msg.id])
        | some t2 => s.addAnswer i a { a with rest := ts, second := false }
            (s.rb.addRequest s.cb t a.msg.frame t2)
      else
        let a' := if s.tol = 0 then { a with rest := ts, second := false } else { a with second := true }
        s.addAnswer i a a' (s.rb.addRequest s.cb t a.msg.frame a.msg.stamp)

/-- The remaining steps of the `i`-th call of `add`, without interruption; the number of them is bounded
by the first argument. -/
def addRest : Nat → Nat → Filt X → List FEv → Filt X × List FEv
  | 0, _, s, evs => (s, evs)
  | k + 1, i, s, evs => addRest k i (s.addNext i).1 (evs ++ (s.addNext i).2)

/-- A whole call of `add`: at most two requests per target frame and the end. -/
def addWhole (s : Filt X) (frame : Name) (stamp : Time) : Filt X × List FEv :=
  let r := s.addStart frame stamp
  addRest (2 * s.targets.length + 1) s.adding.length r.1 r.2

/-- The re-check of `transformable`, message_filter.h:499-522. -/
def recheck (b : Buf X) (tol : Duration) (frame : Name) (stamp : Time) : List Name → Res Bool
  | [] => .ok true
  | t :: ts =>
    match b.canTransform t frame stamp with
    | .ok true =>
      if tol = 0 then recheck b tol frame stamp ts
      else match timeAdd stamp tol with
        | none => .throw .runtime
        | some t2 =>
          match b.canTransform t frame t2 with
          | .ok true => recheck b tol frame stamp ts
          | r => r
    | r => r

/-- `transformable`, message_filter.h:459-549. `avail` is what the callback reads as its result
argument. -/
def transformable (s : Filt X) (h : Nat) (avail : Bool) : Filt X × List FEv :=
  match s.msgs.findIdx? (fun m => decide (h ∈ m.handles)) with
  | none => (s, [])                                                            -- 482-485
  | some i =>
    match s.msgs[i]? with
    | none => (s, [.undefined])
    | some m0 =>
      let m : MInfo := { m0 with success := m0.success + 1 }
      let s1 := { s with msgs := s.msgs.set i m }
      if m.success < s.expected then (s1, [])                                  -- 488-491
      else
        let can := if avail then recheck s.rb.buf s.tol m.msg.frame m.msg.stamp s.targets else .ok false
        match can with
        | .throw _ => (s1, [.callbackThrew])
        | .ub => (s1, [.undefined])
        | .ok v =>
          ({ s1 with msgs := s.msgs.eraseIdx i, count := s.count - 1 }).deliver
            ⟨m.msg.id, if v then none else some .unknown⟩

/-- A collected callback invocation of the buffer is made. If it is the filter's, `transformable` runs with
`avail` as the value read through the dangling result reference (C34). -/
def invoke (s : Filt X) (k : Nat) (avail : Bool) : Filt X × List FEv :=
  let r := s.rb.invoke k
  let s1 := s.buf r
  match r.2 with
  | [.invoked c h _ _] => if c = s.cb then s1.transformable h avail else (s1, [])
  | [.danglingInvoke _ _] => (s1, [.undefined])
  | _ => (s1, [])

end Filt

/-- A step of a program with one message filter. -/
inductive FOp (X : Type) where
  | setTargets (ts : List Name)
  | setTolerance (tol : Duration)
  | setQueueSize (n : Nat)
  | clear
  | addStart (frame : Name) (stamp : Time)
  | addNext (i : Nat)
  | invoke (k : Nat) (avail : Bool)
  | runQueued
  | buffer (op : ROp X)

/-- Runs one step. Other users of the same buffer may do anything but invoke callbacks outside `invoke`
or remove the filter's callback. -/
def Filt.step [Rigid X] (s : Filt X) : FOp X → Filt X × List FEv
  | .setTargets ts => (s.setTargets ts, [])
  | .setTolerance tol => (s.setTolerance tol, [])
  | .setQueueSize n => ({ s with qsize := n }, [])                             -- message_filter.h:432-435
  | .clear => s.clear
  | .addStart f t => s.addStart f t
  | .addNext i => s.addNext i
  | .invoke k avail => s.invoke k avail
  | .runQueued => s.runQueued
  | .buffer (.invoke _) => (s, [])
  | .buffer op => (s.buf (s.rb.step op), [])

/-- Runs a program; events in order. -/
def Filt.run [Rigid X] : List (FOp X) → Filt X → List FEv → Filt X × List FEv
  | [], s, evs => (s, evs)
  | op :: r, s, evs => Filt.run r (s.step op).1 (evs ++ (s.step op).2)

end Tf2
