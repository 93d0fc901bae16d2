import Verif.Model.Requests

/-!
# Transformable requests with several threads

`setTransform`, `addTransformableRequest` and the other functions of `Model/Requests.lean`, cut into the pieces that other threads
may come between: the critical section of `frame_mutex_`, each look at the frame table or the caches that
`addTransformableRequest` and `testTransformableRequests` make, reading and writing the counter of the requests, the parts under
`transformable_requests_mutex_`.  Memory is sequentially consistent; the two frame numbers of a request are looked up in one step.
User callbacks do nothing.
-/
namespace Tf2.Par

variable {X : Type}

/-- Where a thread is inside a call. -/
inductive Stage (X : Type) where
  -- setTransform, tf2/src/buffer_core.cpp:207-287
  | store (m : Msg X) (auth : Name) (isStatic : Bool)
  | owing                                                        -- stored; before the mutex of the requests (1413)
  -- testTransformableRequests, 1411-1486, holding the mutex of the requests
  | look (t : TestState)                                         -- top of the loop (1420)
  | found (t : TestState) (r : Request)                          -- its frames looked up (1425-1433)
  | young (t : TestState) (r : Request)                          -- not older than the window (1434-1445)
  -- after the mutex is released
  | calling (cs : List Call)                                     -- 1479-1486
  -- addTransformableRequest, 1274-1326
  | ask (cb : Nat) (target source : Name) (time : Time)
  | asked (cb : Nat) (target source : Name) (time : Time) (tid sid : Nat)     -- frames looked up (1283-1284)
  | cannot (cb : Nat) (target source : Name) (time : Time) (tid sid : Nat)    -- not transformable (1287-1290)
  | fresh (cb : Nat) (target source : Name) (time : Time) (tid sid : Nat)     -- not too old (1293-1303)
  | counted (cb : Nat) (target source : Name) (time : Time) (tid sid : Nat) (c : Nat)    -- counter read (1307)
  | numbered (cb : Nat) (target source : Name) (time : Time) (tid sid : Nat) (h : Nat)   -- counter written (1307-1311)
  -- the others
  | clear                                                        -- 185-200
  | addCallback                                                  -- 1230-1240
  | remove (cb : Nat)                                            -- removeTransformableCallback, 1256-1272
  | removed (cb : Nat)                                           -- after its first block
  | cancel (h : Nat)                                             -- 1342-1350

/-- What happens. -/
inductive Ev where
  | stored (t : Nat)                                             -- setTransform put its transform into the buffer
  | touched (t : Nat)                                            -- setTransform was refused by the cache, or threw
  | invalid (t : Nat)                                            -- refused before the buffer was touched
  | cleared (t : Nat)
  | asked (t : Nat)                                              -- addTransformableRequest begins to look
  | added (t h cb : Nat) (target source : Name) (time : Time)    -- the request is pending
  | immediate (t : Nat)                                          -- returned 0
  | never (t : Nat)                                              -- returned 2^64-1
  | addThrew (t : Nat)
  | extracted (t h : Nat) (available : Bool)                     -- answered, callback scheduled
  | dropped (t h : Nat)                                          -- answered, its callback is not registered
  | tested (t : Nat)                                             -- the mutex is released
  | testThrew (t : Nat)                                          -- ... by an exception: setTransform throws
  | invoked (t cb h : Nat) (target source : Name)                -- the callback is called
  | dangling (t cb h : Nat)                                      -- the callback no longer exists
  | registered (t cb : Nat)
  | registerHangs (t : Nat)
  | removedCb (t cb : Nat)
  | cancelled (t h : Nat)
  | undefined (t : Nat)
deriving DecidableEq, Repr

/-- The buffer with its callbacks and requests (those of `RBuf`), who holds `transformable_requests_mutex_`, where each thread
is (`none`: outside of the library). While a thread tests the requests, they are in its `TestState`. -/
structure Sys (X : Type) where
  buf : Buf X
  cbs : List Nat
  cbCounter : Nat
  reqs : List Request
  reqCounter : Nat
  owner : Option Nat
  thr : Nat → Option (Stage X)

/-- Changes where one thread is. -/
def put (thr : Nat → Option (Stage X)) (t : Nat) (p : Option (Stage X)) : Nat → Option (Stage X) :=
  fun u => if u = t then p else thr u

/-- Moves a thread on. -/
def Sys.at (s : Sys X) (t : Nat) (p : Option (Stage X)) : Sys X := { s with thr := put s.thr t p }

/-- Constructor; no thread is inside. -/
def Sys.init (D : Duration) : Sys X :=
  { buf := Buf.init D, cbs := [], cbCounter := 0, reqs := [], reqCounter := 0, owner := none, thr := fun _ => none }

/-- The end of an iteration of the loop for a request that is answered, tf2/src/buffer_core.cpp:1450-1472: its names are looked up if
its callback is registered; the last request takes its place. -/
def answer (s : Sys X) (u : Nat) (t : TestState) (r : Request) (available : Bool) : Sys X × List Ev :=
  match t.mem[t.size - 1]? with
  | none => (s, [.undefined u])
  | some back =>
    let mem := if t.size > 1 then t.mem.set t.i back else t.mem
    if r.cb ∈ s.cbs then
      match s.buf.lookupFrameString r.tid, s.buf.lookupFrameString r.sid with
      | .ok tn, .ok sn =>
        let c : Call := { cb := r.cb, handle := r.handle, target := tn, source := sn, timeSlot := t.i, resultVar := t.locals.length }
        (s.at u (some (.look { t with mem := mem, size := t.size - 1, calls := t.calls ++ [c], locals := t.locals ++ [none] })),
         [.extracted u r.handle available])
      | _, _ => (s, [.undefined u])
    else
      (s.at u (some (.look { t with mem := mem, size := t.size - 1, locals := t.locals ++ [none] })), [.dropped u r.handle])

/-- An exception leaves `testTransformableRequests` (`time + cache_time_`, 1441): the calls collected are lost. -/
def giveUp (s : Sys X) (u : Nat) (t : TestState) : Sys X × List Ev :=
  ({ s with reqs := t.mem.take t.size, owner := none }.at u none, [.testThrew u])

/-- The next piece of what thread `u` is doing. Nothing happens if it needs the mutex of the requests and another has it. -/
def Sys.go [Rigid X] (s : Sys X) (u : Nat) : Sys X × List Ev :=
  match s.thr u with
  | none => (s, [])
  | some (.store m a st) =>                                                     -- 207-282
    match s.buf.setTransform m a st with
    | (b, .accepted) => ({ s with buf := b }.at u (some .owing), [.stored u])
    | (_, .invalid) => (s.at u none, [.invalid u])
    | (_, .ub) => (s, [.undefined u])
    | (b, _) => ({ s with buf := b }.at u none, [.touched u])
  | some .owing =>                                                              -- 1413-1418
    if s.owner.isSome then (s, [])
    else ({ s with owner := some u }.at u (some (.look
      { mem := s.reqs, size := s.reqs.length, i := 0, calls := [], locals := [], evs := [] })), [])
  | some (.look t) =>
    if t.i < t.size then
      match t.mem[t.i]? with
      | none => (s, [.undefined u])
      | some r0 => (s.at u (some (.found { t with mem := t.mem.set t.i (r0.resolve s.buf) } (r0.resolve s.buf))), [])   -- 1422-1433
    else
      ({ s with reqs := t.mem.take t.size, owner := none }.at u (some (.calling t.calls)), [.tested u])    -- 1477
  | some (.found t r) =>                                                        -- 1434-1445
    match s.buf.latestOrZero r.tid r.sid with
    | .ok latest =>
      match s.buf.tooOldFor latest r.time with
      | .ok true => answer s u t r false
      | .ok false => (s.at u (some (.young t r)), [])
      | .throw _ => giveUp s u t
      | .ub => (s, [.undefined u])
    | .throw _ => giveUp s u t
    | .ub => (s, [.undefined u])
  | some (.young t r) =>                                                        -- 1446-1450
    match s.buf.canTransformNoLock r.tid r.sid r.time with
    | .ok true => answer s u t r true
    | .ok false => (s.at u (some (.look { t with i := t.i + 1, locals := t.locals ++ [none] })), [])
    | .throw _ => giveUp s u t
    | .ub => (s, [.undefined u])
  | some (.calling []) => (s.at u none, [])
  | some (.calling (c :: cs)) =>                                                -- 1479-1486
    (s.at u (some (.calling cs)),
     [if c.cb ∈ s.cbs then .invoked u c.cb c.handle c.target c.source else .dangling u c.cb c.handle])
  | some (.ask cb tg src tm) =>                                                 -- 1277-1284
    if tg = src then (s.at u none, [.immediate u])
    else (s.at u (some (.asked cb tg src tm (s.buf.lookupFrameNumber tg) (s.buf.lookupFrameNumber src))), [.asked u])
  | some (.asked cb tg src tm tid sid) =>                                       -- 1286-1290
    match s.buf.canTransformNoLock tid sid tm with
    | .ok true => (s.at u none, [.immediate u])
    | .ok false => (s.at u (some (.cannot cb tg src tm tid sid)), [])
    | .throw _ => (s.at u none, [.addThrew u])
    | .ub => (s, [.undefined u])
  | some (.cannot cb tg src tm tid sid) =>                                      -- 1292-1303
    if tid ≠ 0 ∧ sid ≠ 0 then
      match s.buf.latestOrZero tid sid with
      | .ok latest =>
        match s.buf.tooOldFor latest tm with
        | .ok true => (s.at u none, [.never u])
        | .ok false => (s.at u (some (.fresh cb tg src tm tid sid)), [])
        | .throw _ => (s.at u none, [.addThrew u])
        | .ub => (s, [.undefined u])
      | .throw _ => (s.at u none, [.addThrew u])
      | .ub => (s, [.undefined u])
    else (s.at u (some (.fresh cb tg src tm tid sid)), [])
  | some (.fresh cb tg src tm tid sid) => (s.at u (some (.counted cb tg src tm tid sid s.reqCounter)), [])     -- 1307
  | some (.counted cb tg src tm tid sid c) =>                                   -- 1307-1311
    ({ s with reqCounter := (RBuf.nextHandle c).1 }.at u (some (.numbered cb tg src tm tid sid (RBuf.nextHandle c).2)), [])
  | some (.numbered cb tg src tm tid sid h) =>                                  -- 1313-1325
    if s.owner.isSome then (s, [])
    else
      let r : Request := { time := tm, handle := h, cb := cb, tid := tid, sid := sid
                           tstr := if tid = 0 then tg else [], sstr := if sid = 0 then src else [] }
      ({ s with reqs := s.reqs ++ [r] }.at u none, [.added u h cb tg src tm])
  | some .clear => ({ s with buf := s.buf.clear }.at u none, [.cleared u])
  | some .addCallback =>
    match RBuf.nextCb s.cbs (s.cbs.length + 1) s.cbCounter with
    | none => (s, [.registerHangs u])
    | some c => ({ s with cbs := s.cbs ++ [c], cbCounter := c }.at u none, [.registered u c])
  | some (.remove cb) => ({ s with cbs := s.cbs.filter (· ≠ cb) }.at u (some (.removed cb)), [])
  | some (.removed cb) =>
    if s.owner.isSome then (s, [])
    else ({ s with reqs := s.reqs.filter (fun r => r.cb ≠ cb) }.at u none, [.removedCb u cb])
  | some (.cancel h) =>
    if s.owner.isSome then (s, [])
    else ({ s with reqs := s.reqs.filter (fun r => r.handle ≠ h % 2 ^ 32) }.at u none, [.cancelled u h])

/-- Where a call begins. -/
def start : ROp X → Option (Stage X)
  | .set m a st => some (.store m a st)
  | .clear => some .clear
  | .addCallback => some .addCallback
  | .removeCallback cb => some (.remove cb)
  | .addRequest cb tg src tm => some (.ask cb tg src tm)
  | .cancelRequest h => some (.cancel h)
  | .invoke _ => none                                                           -- not a function of the library

/-- A step of the scheduler: a thread outside of the library calls a function; a thread goes on. -/
inductive Op (X : Type) where
  | call (t : Nat) (op : ROp X)
  | go (t : Nat)

/-- One step. -/
def Sys.step [Rigid X] (s : Sys X) : Op X → Sys X × List Ev
  | .call t op =>
    match s.thr t with
    | some _ => (s, [])
    | none => (s.at t (start op), [])
  | .go t => s.go t

/-- Runs a schedule; what happens is appended. -/
def Sys.run [Rigid X] : List (Op X) → Sys X → List Ev → Sys X × List Ev
  | [], s, evs => (s, evs)
  | o :: r, s, evs => Sys.run r (s.step o).1 (evs ++ (s.step o).2)

/-- A schedule from a new buffer. -/
def Sys.history [Rigid X] (D : Duration) (sched : List (Op X)) : Sys X × List Ev := Sys.run sched (Sys.init D) []

end Tf2.Par
