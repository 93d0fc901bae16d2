import Verif.Model.BufferCore

/-!
# Transformable requests and callbacks of `tf2::BufferCore`

Models tf2/src/buffer_core.cpp:1230-1350 and 1411-1486.  The extraction of answerable requests
(under `transformable_requests_mutex_`) and the invocation of the user's callbacks (after unlocking)
are separate steps, so that calls made by a callback or by other threads in between are covered.
Requests are tested by the thread that set the transform; the reads of the frame table inside
`testTransformableRequests` that happen without `frame_mutex_` are modelled as reads of the current
state (the data race is recorded in DESIGN.md).
-/
namespace Tf2

/-- `TransformableRequest`, tf2/include/tf2/buffer_core.h:343-352. -/
structure Request where
  time : Time
  handle : Nat
  cb : Nat
  tid : Nat
  sid : Nat
  tstr : Name
  sstr : Name
deriving DecidableEq, Repr

/-- One element of `transformables`, tf2/src/buffer_core.cpp:1416-1418: handle and names by value;
the callback, the time and the result **by reference**.  A reference to the time is a slot of the
request vector; a reference to the result names one of the loop's local variables. -/
structure Call where
  cb : Nat
  handle : Nat
  target : Name
  source : Name
  timeSlot : Nat
  resultVar : Nat
deriving DecidableEq, Repr

/-- `BufferCore` with its requests: `transformable_callbacks_` (keys), `transformable_callbacks_counter_`
(uint32), `transformable_requests_`, `transformable_requests_counter_` (uint64);
tf2/include/tf2/buffer_core.h:338-356.  `inflight` are the callback invocations that have been
collected and not yet made. -/
structure RBuf (X : Type) where
  buf : Buf X
  cbs : List Nat
  cbCounter : Nat
  reqs : List Request
  reqCounter : Nat
  inflight : List Call

/-- Observable events. -/
inductive REv where
  | registered (cb : Nat)
  | registerHangs                                                  -- no free callback handle: no return
  | added (handle cb : Nat) (target source : Name) (time : Time)   -- a pending request was created
  | immediate (target source : Name) (time : Time)                 -- `addTransformableRequest` returned 0
  | never (target source : Name) (time : Time)                     -- it returned 2^64-1
  | addThrew                                                       -- it threw
  | cancelled (handle : Nat)
  | removedCb (cb : Nat)
  | extracted (handle : Nat) (available : Bool)                    -- answered, callback scheduled
  | dropped (handle : Nat)                                         -- answered, but nobody is told
  | invoked (cb handle : Nat) (target source : Name)               -- user callback runs
  | danglingInvoke (cb handle : Nat)                               -- call through a dangling reference
  | setDone (r : Buf.SetRes)
  | testThrew (e : Exc)                                            -- `setTransform` threw after storing
  | undefined
deriving DecidableEq, Repr

/-- What becomes of an answer that was collected when the exception leaves
`testTransformableRequests`: nobody is told; tf2/src/buffer_core.cpp:1418 (the vector of tuples is a
local variable). -/
def REv.lost : REv → Option REv
  | .extracted h _ => some (.dropped h)
  | .dropped h => some (.dropped h)
  | _ => none

variable {X : Type}

/-- `getLatestCommonTime(target, source, latest_time, 0)` into a variable initialised to zero: on an
error the variable stays (or is set to) zero; tf2/src/buffer_core.cpp:1292-1297, 1434-1440. -/
def Buf.latestOrZero (b : Buf X) (tid sid : Nat) : Res Time :=
  match b.latestCommonTime tid sid with
  | .ok t => .ok t
  | .err _ => .ok 0
  | .ub => .ub

/-- `!latest_time.isZero() && time + cache_time_ < latest_time`, tf2/src/buffer_core.cpp:1298, 1441;
`operator+` may throw. -/
def Buf.tooOldFor (b : Buf X) (latest time : Time) : Res Bool :=
  if latest = 0 then .ok false
  else match timeAdd time b.cacheTime with
    | none => .throw .runtime
    | some s => .ok (decide (s < latest))

/-- What one iteration decides about a request with resolved ids. -/
inductive Verdict where
  | stay
  | failure
  | available
  | threw (e : Exc)
  | ub
deriving DecidableEq, Repr

/-- tf2/src/buffer_core.cpp:1434-1450. -/
def Buf.verdict (b : Buf X) (tid sid : Nat) (time : Time) : Verdict :=
  match b.latestOrZero tid sid with
  | .ub => .ub
  | .throw e => .threw e
  | .ok latest =>
    match b.tooOldFor latest time with
    | .ub => .ub
    | .throw e => .threw e
    | .ok true => .failure
    | .ok false =>
      match b.canTransformNoLock tid sid time with
      | .ub => .ub
      | .throw e => .threw e
      | .ok true => .available
      | .ok false => .stay

/-- tf2/src/buffer_core.cpp:1425-1433: ids of frames that did not exist when the request was made. -/
def Request.resolve (b : Buf X) (r : Request) : Request :=
  { r with
    tid := if r.tid = 0 then b.lookupFrameNumber r.tstr else r.tid
    sid := if r.sid = 0 then b.lookupFrameNumber r.sstr else r.sid }

/-- State of the loop of `testTransformableRequests`: the memory of the request vector (its first
`size` slots are the vector), the position, the collected calls, the local variables `result` (one
per iteration; `none` once its scope has been left), the events. -/
structure TestState where
  mem : List Request
  size : Nat
  i : Nat
  calls : List Call
  locals : List (Option Bool)
  evs : List REv
deriving DecidableEq, Repr

/-- Outcome of the loop. -/
inductive TestRes where
  | done (s : TestState)
  | threw (s : TestState) (e : Exc)     -- the exception leaves with the calls collected so far lost
  | ub
deriving DecidableEq, Repr

/-- One iteration, tf2/src/buffer_core.cpp:1420-1474; `none` when the position is past the end. -/
def testIter (b : Buf X) (cbs : List Nat) (s : TestState) : TestRes :=
  match s.mem[s.i]? with
  | none => .ub                                                        -- slot read out of range
  | some r0 =>
    let r := r0.resolve b
    let mem := s.mem.set s.i r
    match b.verdict r.tid r.sid r.time with
    | .ub => .ub
    | .threw e => .threw { s with mem := mem } e
    | .stay =>
      .done { s with mem := mem, i := s.i + 1, locals := s.locals ++ [none] }
    | v =>
      match mem[s.size - 1]? with
      | none => .ub                                                    -- `back()` of an empty vector
      | some back =>
        -- 1466-1471: overwrite the slot with the last element, erase the last element
        let mem' := if s.size > 1 then mem.set s.i back else mem
        if r.cb ∈ cbs then                                             -- 1452-1464
          match b.lookupFrameString r.tid, b.lookupFrameString r.sid with
          | .ok tn, .ok sn =>
            let call : Call := { cb := r.cb, handle := r.handle, target := tn, source := sn,
                                 timeSlot := s.i, resultVar := s.locals.length }
            .done { mem := mem', size := s.size - 1, i := s.i, calls := s.calls ++ [call]
                    locals := s.locals ++ [none]
                    evs := s.evs ++ [.extracted r.handle (decide (v = .available))] }
          | .throw e, _ => .threw { s with mem := mem } e
          | _, .throw e => .threw { s with mem := mem } e
          | _, _ => .ub
        else
          .done { mem := mem', size := s.size - 1, i := s.i, calls := s.calls
                  locals := s.locals ++ [none], evs := s.evs ++ [.dropped r.handle] }

/-- The loop, tf2/src/buffer_core.cpp:1420-1474. The second argument bounds the iterations; each one
either advances the position or shrinks the vector, so `size` of them are enough. -/
def testLoop (b : Buf X) (cbs : List Nat) : Nat → TestState → TestRes
  | 0, s => .done s
  | k + 1, s =>
    if s.i < s.size then
      match testIter b cbs s with
      | .done s' => testLoop b cbs k s'
      | r => r
    else .done s

/-- The loop as entered. -/
def testRun (b : Buf X) (cbs : List Nat) (reqs : List Request) : TestRes :=
  testLoop b cbs reqs.length
    { mem := reqs, size := reqs.length, i := 0, calls := [], locals := [], evs := [] }

namespace RBuf

/-- Constructor. -/
def init (D : Duration) : RBuf X :=
  { buf := Buf.init D, cbs := [], cbCounter := 0, reqs := [], reqCounter := 0, inflight := [] }

/-- `testTransformableRequests` up to the unlock, tf2/src/buffer_core.cpp:1411-1477. On an exception
the collected calls are destroyed with the stack frame: those requests are gone. -/
def test (s : RBuf X) : RBuf X × List REv :=
  match testRun s.buf s.cbs s.reqs with
  | .done t => ({ s with reqs := t.mem.take t.size, inflight := s.inflight ++ t.calls }, t.evs)
  | .threw t e =>
    ({ s with reqs := t.mem.take t.size },
     t.evs.filterMap REv.lost ++ [.testThrew e])
  | .ub => (s, [.undefined])

/-- `setTransform`, tf2/src/buffer_core.cpp:202-287, with the call of `testTransformableRequests` at
line 284. -/
def setTransform [Rigid X] (s : RBuf X) (m : Msg X) (auth : Name) (isStatic : Bool) :
    RBuf X × List REv :=
  match s.buf.setTransform m auth isStatic with
  | (b, .accepted) =>
    let r := test { s with buf := b }
    (r.1, .setDone .accepted :: r.2)
  | (b, .ub) => ({ s with buf := b }, [.undefined])
  | (b, r) => ({ s with buf := b }, [.setDone r])

/-- The handle loop of `addTransformableCallback`, tf2/src/buffer_core.cpp:1230-1240: the counter is a
uint32; a handle in use is skipped. (With all 2^32 handles in use the code would not return.) -/
def nextCb (cbs : List Nat) : Nat → Nat → Option Nat
  | 0, _ => none
  | k + 1, c =>
    let c' := (c + 1) % 2 ^ 32
    if c' ∈ cbs then nextCb cbs k c' else some c'

/-- `addTransformableCallback`, tf2/src/buffer_core.cpp:1230-1240. -/
def addCallback (s : RBuf X) : RBuf X × List REv :=
  match nextCb s.cbs (s.cbs.length + 1) s.cbCounter with
  | none => (s, [.registerHangs])
  | some c => ({ s with cbs := s.cbs ++ [c], cbCounter := c }, [.registered c])

/-- `removeTransformableCallback`, tf2/src/buffer_core.cpp:1256-1272. -/
def removeCallback (s : RBuf X) (cb : Nat) : RBuf X × List REv :=
  ({ s with cbs := s.cbs.filter (· ≠ cb), reqs := s.reqs.filter (fun r => r.cb ≠ cb) }, [.removedCb cb])

/-- `++transformable_requests_counter_` (uint64) and the replacement of 0 and 2^64-1,
tf2/src/buffer_core.cpp:1306-1310: new counter and handle. -/
def nextHandle (c : Nat) : Nat × Nat :=
  let c' := (c + 1) % 2 ^ 64
  (c', if c' = 0 ∨ c' = 2 ^ 64 - 1 then 1 else c')

/-- `addTransformableRequest`, tf2/src/buffer_core.cpp:1274-1326. -/
def addRequest (s : RBuf X) (cb : Nat) (target source : Name) (time : Time) : RBuf X × List REv :=
  if target = source then (s, [.immediate target source time])
  else
    let tid := s.buf.lookupFrameNumber target
    let sid := s.buf.lookupFrameNumber source
    match s.buf.canTransformNoLock tid sid time with
    | .ub => (s, [.undefined])
    | .throw _ => (s, [.addThrew])
    | .ok true => (s, [.immediate target source time])
    | .ok false =>
      let old : Res Bool :=
        if tid ≠ 0 ∧ sid ≠ 0 then
          match s.buf.latestOrZero tid sid with
          | .ok latest => s.buf.tooOldFor latest time
          | .throw e => .throw e
          | .ub => .ub
        else .ok false
      match old with
      | .ub => (s, [.undefined])
      | .throw _ => (s, [.addThrew])
      | .ok true => (s, [.never target source time])
      | .ok false =>
        let (c, h) := nextHandle s.reqCounter
        let r : Request :=
          { time := time, handle := h, cb := cb, tid := tid, sid := sid
            tstr := if tid = 0 then target else [], sstr := if sid = 0 then source else [] }
        ({ s with reqs := s.reqs ++ [r], reqCounter := c }, [.added h cb target source time])

/-- `cancelTransformableRequest`, tf2/src/buffer_core.cpp:1328-1350. `RemoveRequestByID` stores the
uint64 handle in a `TransformableCallbackHandle`, a uint32 (line 1340). -/
def cancelRequest (s : RBuf X) (h : Nat) : RBuf X × List REv :=
  ({ s with reqs := s.reqs.filter (fun r => r.handle ≠ h % 2 ^ 32) }, [.cancelled h])

/-- One of the collected callbacks is invoked, tf2/src/buffer_core.cpp:1479-1482. The tuple holds a
reference to the function object in the callback map: it dangles if that entry has been erased. -/
def invoke (s : RBuf X) (k : Nat) : RBuf X × List REv :=
  match s.inflight[k]? with
  | none => (s, [])
  | some c =>
    ({ s with inflight := s.inflight.eraseIdx k },
     [if c.cb ∈ s.cbs then .invoked c.cb c.handle c.target c.source else .danglingInvoke c.cb c.handle])

end RBuf

/-- A step of a `BufferCore` with requests: an API call, or the invocation of a collected callback. -/
inductive ROp (X : Type) where
  | set (m : Msg X) (auth : Name) (isStatic : Bool)
  | clear
  | addCallback
  | removeCallback (cb : Nat)
  | addRequest (cb : Nat) (target source : Name) (time : Time)
  | cancelRequest (handle : Nat)
  | invoke (k : Nat)

/-- Runs one step. `clear` does not touch requests (tf2/src/buffer_core.cpp:185-200). -/
def RBuf.step [Rigid X] (s : RBuf X) : ROp X → RBuf X × List REv
  | .set m a st => s.setTransform m a st
  | .clear => ({ s with buf := s.buf.clear }, [])
  | .addCallback => s.addCallback
  | .removeCallback cb => s.removeCallback cb
  | .addRequest cb t src time => s.addRequest cb t src time
  | .cancelRequest h => s.cancelRequest h
  | .invoke k => s.invoke k

/-- Runs a history; events in order. -/
def RBuf.run [Rigid X] : List (ROp X) → RBuf X → List REv → RBuf X × List REv
  | [], s, evs => (s, evs)
  | op :: r, s, evs => RBuf.run r (s.step op).1 (evs ++ (s.step op).2)

end Tf2
