import Verif.Model.BufferCore

/-!
# `tf2_ros::BufferServer` and `tf2_ros::BufferClient`

Models tf2_ros/src/buffer_server.cpp and tf2_ros/src/buffer_client.cpp.  actionlib itself is external:
a goal is accepted, and later receives at most one of `setSucceeded` and `setCanceled`, which are events
here; serial numbers stand for goal handles.  The ROS clock and the buffer are shared with other threads,
so every read of the clock, every call of the buffer and every critical section of `mutex_` is one step.
The first step of the five-argument `lookupTransform` includes its three argument checks.
-/
namespace Tf2

variable {X : Type}

/-- `tf2_msgs/LookupTransformGoal`, tf2_msgs/action/LookupTransform.action:1-12. -/
structure Goal where
  target : Name
  source : Name
  stime : Time
  timeout : Duration
  ttime : Time := 0
  fixed : Name := []
  advanced : Bool := false
deriving DecidableEq, Repr

/-- `tf2_msgs/LookupTransformResult` with its `TF2Error`, LookupTransform.action:14-15,
tf2_msgs/msg/TF2Error.msg. `transform = none` is the default-constructed message. -/
structure Result (X : Type) where
  transform : Option (Msg X)
  error : Nat
  text : String
deriving DecidableEq, Repr

/-- The constants of tf2_msgs/msg/TF2Error.msg:1-7. -/
def NO_ERROR : Nat := 0
def LOOKUP_ERROR : Nat := 1
def CONNECTIVITY_ERROR : Nat := 2
def EXTRAPOLATION_ERROR : Nat := 3
def INVALID_ARGUMENT_ERROR : Nat := 4
def TIMEOUT_ERROR : Nat := 5
def TRANSFORM_ERROR : Nat := 6

/-- Whether a handler for class `c` catches an exception of class `e`: the classes of
tf2/include/tf2/exceptions.h:43-104 derive from `TransformException`, and that from `std::runtime_error`. -/
def Exc.caughtBy (e c : Exc) : Bool :=
  e = c || (c = .transform && e ≠ .runtime) || c = .runtime

/-- The handlers around `lookupTransform`, tf2_ros/src/buffer_server.cpp:72-101 and 154-183, in order. -/
def handlers : List (Exc × Nat) :=
  [(.connectivity, CONNECTIVITY_ERROR), (.lookup, LOOKUP_ERROR), (.extrapolation, EXTRAPOLATION_ERROR),
   (.invalidArgument, INVALID_ARGUMENT_ERROR), (.timeout, TIMEOUT_ERROR), (.transform, TRANSFORM_ERROR)]

/-- The result message for the outcome of the lookup, buffer_server.cpp:65-101 and 149-183; `none`: no
handler catches the exception. `text` is the exception's text. -/
def serverResult (r : Res (Msg X)) (text : String) : Option (Result X) :=
  match r with
  | .ok m => some { transform := some m, error := NO_ERROR, text := "" }
  | .throw e => (handlers.find? (fun h => e.caughtBy h.1)).map (fun h => { transform := none, error := h.2, text := text })
  | .ub => none

/-- What `BufferClient::processResult` does, tf2_ros/src/buffer_client.cpp:98-122: return the transform or
throw. -/
inductive ClientOut (X : Type) where
  | ret (m : Option (Msg X))
  | raise (e : Exc) (text : String)
deriving DecidableEq, Repr

/-- `BufferClient::processResult`, buffer_client.cpp:98-122. -/
def processResult (r : Result X) : ClientOut X :=
  if r.error ≠ NO_ERROR then
    if r.error = LOOKUP_ERROR then .raise .lookup r.text
    else if r.error = CONNECTIVITY_ERROR then .raise .connectivity r.text
    else if r.error = EXTRAPOLATION_ERROR then .raise .extrapolation r.text
    else if r.error = INVALID_ARGUMENT_ERROR then .raise .invalidArgument r.text
    else if r.error = TIMEOUT_ERROR then .raise .timeout r.text
    else .raise .transform r.text
  else .ret r.transform

/-- What the action client reports: no result in time; a terminal state other than SUCCEEDED; a result. -/
inductive ActionOut (X : Type) where
  | noResult
  | notSucceeded
  | succeeded (r : Result X)

/-- `BufferClient::processGoal`, buffer_client.cpp:79-96; the texts are shortened. -/
def processGoal : ActionOut X → ClientOut X
  | .noResult => .raise .timeout "did not come back in the specified time"
  | .notSucceeded => .raise .timeout "did not come back with SUCCEEDED status"
  | .succeeded r => processResult r

/-- `BufferClient::canTransform`, buffer_client.cpp:124-161: exceptions of class `TransformException` become
`false`, others leave (`none`). -/
def clientCan (r : ActionOut X) : Option Bool :=
  match processGoal r with
  | .ret _ => some true
  | .raise e _ => if e.caughtBy .transform then some false else none

/-- The goals of `BufferClient::lookupTransform`, buffer_client.cpp:51-57. -/
def simpleGoal (target source : Name) (time : Time) (timeout : Duration) : Goal :=
  { target := target, source := source, stime := time, timeout := timeout }

/-- The goal of the five-argument `BufferClient::lookupTransform`, buffer_client.cpp:66-74. -/
def advancedGoal (target : Name) (ttime : Time) (source : Name) (stime : Time) (fixed : Name) (timeout : Duration) : Goal :=
  { target := target, source := source, stime := stime, timeout := timeout, ttime := ttime, fixed := fixed, advanced := true }

/-- `BufferServer::canTransform`, buffer_server.cpp:193-203. -/
def Goal.can (g : Goal) (b : Buf X) : Res Bool :=
  if g.advanced then b.canTransform5 g.target g.ttime g.source g.stime g.fixed
  else b.canTransform g.target g.source g.stime

/-- `BufferServer::lookupTransform` up to its first critical section of the buffer,
buffer_server.cpp:205-215: it is done, or (five-argument version) it goes on with the first transform. -/
def Goal.look1 [Rigid X] (g : Goal) (b : Buf X) : Res (Msg X) ⊕ Msg X :=
  if g.advanced then
    match b.validateFrameId g.target with
    | .throw e => .inl (.throw e)
    | .ub => .inl .ub
    | .ok _ =>
      match b.validateFrameId g.source with
      | .throw e => .inl (.throw e)
      | .ub => .inl .ub
      | .ok _ =>
        match b.validateFrameId g.fixed with
        | .throw e => .inl (.throw e)
        | .ub => .inl .ub
        | .ok _ =>
          match b.lookupTransform g.fixed g.source g.stime with
          | .throw e => .inl (.throw e)
          | .ub => .inl .ub
          | .ok m1 => .inr m1
  else .inl (b.lookupTransform g.target g.source g.stime)

/-- The second critical section of the five-argument `lookupTransform` and its end,
tf2/src/buffer_core.cpp:663-672. -/
def Goal.look2 [Rigid X] (g : Goal) (m1 : Msg X) (b : Buf X) : Res (Msg X) :=
  match b.lookupTransform g.target g.fixed g.ttime with
  | .throw e => .throw e
  | .ub => .ub
  | .ok m2 => .ok { parent := g.target, child := g.source, stamp := m2.stamp, xf := Rigid.mulMsg m2.xf m1.xf }

/-- `GoalInfo`, tf2_ros/include/tf2_ros/buffer_server.h:57-61. -/
structure Active where
  id : Nat
  goal : Goal
  endTime : Time
deriving DecidableEq, Repr

/-- Where a call of `goalCB` is, buffer_server.cpp:134-191. -/
inductive GPhase (X : Type) where
  | accepted                  -- after `setAccepted`
  | ending (e : Time)         -- `end_time` computed
  | late (e : Time)           -- the transform is not available
  | look                      -- about to look the transform up
  | look2 (m1 : Msg X)
  | push (e : Time)           -- about to take `mutex_`
deriving DecidableEq, Repr

/-- A call of `goalCB` in progress. -/
structure GCall (X : Type) where
  id : Nat
  goal : Goal
  phase : GPhase X
deriving DecidableEq, Repr

/-- Where `checkTransforms` is with the goal it looks at, buffer_server.cpp:53-111. -/
inductive CPhase (X : Type) where
  | fresh
  | late
  | look
  | look2 (m1 : Msg X)
deriving DecidableEq, Repr

/-- `checkTransforms` in progress (it holds `mutex_`): index of the iterator and phase. -/
structure Check (X : Type) where
  pos : Nat
  phase : CPhase X
deriving DecidableEq, Repr

/-- Events; the numbers are those of the goals. -/
inductive SEv (X : Type) where
  | accepted (id : Nat) (goal : Goal)
  | succeeded (id : Nat) (r : Result X)
  | canceled (id : Nat)
  | escaped (id : Nat)                       -- an exception leaves `goalCB`
  | checkEscaped                             -- an exception leaves `checkTransforms`
  | undefined
deriving DecidableEq, Repr

/-- The buffer, the clock, `active_goals_`, the running callbacks and the number of goals so far. -/
structure Server (X : Type) where
  buf : Buf X
  now : Time
  active : List Active
  calls : List (GCall X)
  check : Option (Check X)
  next : Nat

namespace Server

/-- Nothing has happened yet. -/
def init (D : Duration) (now : Time) : Server X :=
  { buf := Buf.init D, now := now, active := [], calls := [], check := none, next := 0 }

/-- `goalCB` begins, buffer_server.cpp:137. -/
def goal (s : Server X) (g : Goal) : Server X × List (SEv X) :=
  ({ s with next := s.next + 1, calls := s.calls ++ [{ id := s.next, goal := g, phase := .accepted }] },
   [.accepted s.next g])

/-- What leaves a callback if no handler caught the outcome of the lookup. -/
def leaves (r : Res (Msg X)) (e : SEv X) : SEv X :=
  match r with
  | .ub => .undefined
  | _ => e

/-- `setSucceeded` in `goalCB` and return, or the exception leaves, buffer_server.cpp:149-186. -/
def goalDone (s : Server X) (i : Nat) (c : GCall X) (r : Res (Msg X)) (text : String) : Server X × List (SEv X) :=
  match serverResult r text with
  | some m => ({ s with calls := s.calls.eraseIdx i }, [.succeeded c.id m])
  | none => ({ s with calls := s.calls.eraseIdx i }, [leaves r (.escaped c.id)])

/-- The next step of the `i`-th call of `goalCB`, buffer_server.cpp:139-190. -/
def goalStep [Rigid X] (s : Server X) (i : Nat) (text : String) : Server X × List (SEv X) :=
  match s.calls[i]? with
  | none => (s, [])
  | some c =>
    match c.phase with
    | .accepted =>                                                                      -- 143
      match timeAdd s.now c.goal.timeout with
      | some e => ({ s with calls := s.calls.set i { c with phase := .ending e } }, [])
      | none => ({ s with calls := s.calls.eraseIdx i }, [.escaped c.id])
    | .ending e =>                                                                      -- 147, left
      match c.goal.can s.buf with
      | .ok true => ({ s with calls := s.calls.set i { c with phase := .look } }, [])
      | .ok false => ({ s with calls := s.calls.set i { c with phase := .late e } }, [])
      | .throw _ => ({ s with calls := s.calls.eraseIdx i }, [.escaped c.id])
      | .ub => ({ s with calls := s.calls.eraseIdx i }, [.undefined])
    | .late e =>                                                                        -- 147, right
      if e ≤ s.now then ({ s with calls := s.calls.set i { c with phase := .look } }, [])
      else ({ s with calls := s.calls.set i { c with phase := .push e } }, [])
    | .look =>
      match c.goal.look1 s.buf with
      | .inl r => s.goalDone i c r text
      | .inr m1 => ({ s with calls := s.calls.set i { c with phase := .look2 m1 } }, [])
    | .look2 m1 => s.goalDone i c (c.goal.look2 m1 s.buf) text
    | .push e =>                                                                        -- 189-190
      match s.check with
      | some _ => (s, [])
      | none => ({ s with calls := s.calls.eraseIdx i
                          active := s.active ++ [{ id := c.id, goal := c.goal, endTime := e }] }, [])

/-- `cancelCB`, buffer_server.cpp:114-132; waits while `checkTransforms` runs. -/
def cancel (s : Server X) (id : Nat) : Server X × List (SEv X) :=
  match s.check with
  | some _ => (s, [])
  | none =>
    match s.active.findIdx? (fun a => a.id = id) with
    | none => (s, [])
    | some i => ({ s with active := s.active.eraseIdx i }, [.canceled id])

/-- The timer fires, buffer_server.cpp:53-57: takes `mutex_`. -/
def checkStart (s : Server X) : Server X × List (SEv X) :=
  match s.check with
  | some _ => (s, [])
  | none => ({ s with check := some { pos := 0, phase := .fresh } }, [])

/-- `setSucceeded`, erase and on to the next goal, or the exception leaves (and releases `mutex_`),
buffer_server.cpp:65-107. -/
def checkDone (s : Server X) (c : Check X) (a : Active) (r : Res (Msg X)) (text : String) : Server X × List (SEv X) :=
  match serverResult r text with
  | some m => ({ s with active := s.active.eraseIdx c.pos, check := some { c with phase := .fresh } }, [.succeeded a.id m])
  | none => ({ s with check := none }, [leaves r .checkEscaped])

/-- The next step of `checkTransforms`, buffer_server.cpp:57-111. -/
def checkStep [Rigid X] (s : Server X) (text : String) : Server X × List (SEv X) :=
  match s.check with
  | none => (s, [])
  | some c =>
    match s.active[c.pos]? with
    | none => ({ s with check := none }, [])
    | some a =>
      match c.phase with
      | .fresh =>                                                                       -- 63, left
        match a.goal.can s.buf with
        | .ok true => ({ s with check := some { c with phase := .look } }, [])
        | .ok false => ({ s with check := some { c with phase := .late } }, [])
        | .throw _ => ({ s with check := none }, [.checkEscaped])
        | .ub => ({ s with check := none }, [.undefined])
      | .late =>                                                                        -- 63, right
        if a.endTime < s.now then ({ s with check := some { c with phase := .look } }, [])
        else ({ s with check := some { pos := c.pos + 1, phase := .fresh } }, [])
      | .look =>
        match a.goal.look1 s.buf with
        | .inl r => s.checkDone c a r text
        | .inr m1 => ({ s with check := some { c with phase := .look2 m1 } }, [])
      | .look2 m1 => s.checkDone c a (a.goal.look2 m1 s.buf) text

/-- `n` further steps of `checkTransforms` without interruption. -/
def checkRest [Rigid X] (text : String) : Nat → Server X → List (SEv X) → Server X × List (SEv X)
  | 0, s, evs => (s, evs)
  | n + 1, s, evs => checkRest text n (s.checkStep text).1 (evs ++ (s.checkStep text).2)

/-- `checkTransforms` without interruption: at most four steps per goal, and the end. -/
def checkWhole [Rigid X] (s : Server X) (text : String) : Server X × List (SEv X) :=
  checkRest text (4 * s.active.length + 1) s.checkStart.1 []

end Server

/-- A step of a program with one buffer server. -/
inductive SOp (X : Type) where
  | goal (g : Goal)
  | goalStep (i : Nat) (text : String)
  | cancel (id : Nat)
  | checkStart
  | checkStep (text : String)
  | clock (t : Time)
  | buffer (op : Op X)

/-- Runs one step. -/
def Server.step [Rigid X] (s : Server X) : SOp X → Server X × List (SEv X)
  | .goal g => s.goal g
  | .goalStep i text => s.goalStep i text
  | .cancel id => s.cancel id
  | .checkStart => s.checkStart
  | .checkStep text => s.checkStep text
  | .clock t => ({ s with now := t }, [])
  | .buffer op => ({ s with buf := s.buf.step op }, [])

/-- Runs a program; events in order. -/
def Server.run [Rigid X] : List (SOp X) → Server X → List (SEv X) → Server X × List (SEv X)
  | [], s, evs => (s, evs)
  | op :: r, s, evs => Server.run r (s.step op).1 (evs ++ (s.step op).2)

end Tf2
