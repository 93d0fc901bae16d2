/-!
# The locking structure of the library

For every public function of `BufferCore`, `MessageFilter` and `BufferServer`: which mutexes it holds
while it acquires which others.  Branches and loops are kept as "one of" and "any number of times";
everything else is dropped, so the sequences of lock operations of the code are among those of the model.
All locks of the code are scoped (`boost::mutex::scoped_lock`), or released once at the end of what is
here a scope.
-/
namespace Tf2

/-- The mutexes. `queue`, `calling` and `action` are external: the mutex of a callback queue, the lock a
callback queue holds while it runs a callback (shared there, exclusive here) and that `removeByID` takes to
wait for running callbacks, the lock of an action server. -/
inductive LockKind where
  | server      -- tf2_ros/include/tf2_ros/buffer_server.h:88, mutex_
  | messages    -- tf2_ros/include/tf2_ros/message_filter.h:688, messages_mutex_
  | targets     -- message_filter.h:670, target_frames_mutex_
  | requests    -- tf2/include/tf2/buffer_core.h:355, transformable_requests_mutex_
  | callbacks   -- buffer_core.h:341, transformable_callbacks_mutex_
  | frames      -- buffer_core.h:324, frame_mutex_
  | queue
  | calling
  | failure     -- message_filter.h:709, failure_signal_mutex_
  | action
deriving DecidableEq, Repr

/-- A mutex of one object. -/
structure Lock where
  kind : LockKind
  obj : Nat
deriving DecidableEq, Repr

/-- Locking structure of a piece of code. -/
inductive Sync where
  | nop
  | lock (l : Lock) (body : Sync)     -- a scope with a `scoped_lock`
  | seq (a b : Sync)
  | alt (a b : Sync)                  -- a branch
  | loop (a : Sync)                   -- any number of times
deriving Repr

infixr:60 " ;; " => Sync.seq

/-- A lock operation. -/
inductive LAct where
  | acq (l : Lock)
  | rel (l : Lock)
deriving DecidableEq, Repr

/-- The sequences of lock operations of a piece of code. Any part of it may be left out, as when an exception is thrown: the
scopes it leaves release their locks. -/
inductive Sync.Trace : Sync → List LAct → Prop where
  | skip {a} : Trace a []
  | nop : Trace .nop []
  | lock {l b t} (h : Trace b t) : Trace (.lock l b) (.acq l :: t ++ [.rel l])
  | seq {a b t u} (h : Trace a t) (h' : Trace b u) : Trace (.seq a b) (t ++ u)
  | left {a b t} (h : Trace a t) : Trace (.alt a b) t
  | right {a b t} (h : Trace b t) : Trace (.alt a b) t
  | stop {a} : Trace (.loop a) []
  | again {a t u} (h : Trace a t) (h' : Trace (.loop a) u) : Trace (.loop a) (t ++ u)

namespace Sync

/-- May be skipped. -/
def opt (a : Sync) : Sync := .alt .nop a

/-! ### BufferCore `b` -/

/-- Functions with one critical section of `frame_mutex_`: `clear` (tf2/src/buffer_core.cpp:190),
three-argument `lookupTransform` (599), `canTransformInternal` (799), both `canTransform` (815, 853, after early
returns), `allFramesAsString` (954), `_getLatestCommonTime` (buffer_core.h:286), `allFramesAsYAML` (1171),
`_frameExists` (1370), `_getParent` (1377), `_getFrameStrings` (1396), `_allFramesAsDot` (1498), `_chainAsVector`
(1590). -/
def frameOp (b : Nat) : Sync := opt (.lock ⟨.frames, b⟩ .nop)

/-- Five-argument `lookupTransform`, buffer_core.cpp:651-674. -/
def lookup5 (b : Nat) : Sync := opt (frameOp b ;; opt (frameOp b))

/-- `addTransformableCallback`, buffer_core.cpp:1230-1240. -/
def addCallback (b : Nat) : Sync := .lock ⟨.callbacks, b⟩ .nop

/-- `removeTransformableCallback`, buffer_core.cpp:1256-1272. -/
def removeCallback (b : Nat) : Sync := .lock ⟨.callbacks, b⟩ .nop ;; .lock ⟨.requests, b⟩ .nop

/-- `addTransformableRequest`, buffer_core.cpp:1274-1326. -/
def addRequest (b : Nat) : Sync := opt (frameOp b ;; opt (.lock ⟨.requests, b⟩ .nop))

/-- `cancelTransformableRequest` (1344), `_addTransformsChangedListener` (1357),
`_removeTransformsChangedListener` (1363). -/
def requestsOp (b : Nat) : Sync := .lock ⟨.requests, b⟩ .nop

/-! ### MessageFilter `f` on buffer `b`, user callbacks doing nothing with these locks -/

/-- `signalFailure`, message_filter.h:649-653, and `registerFailureCallback`, `disconnectFailure` (425-429,
643-647). -/
def failureOp (f : Nat) : Sync := .lock ⟨.failure, f⟩ .nop

/-- `messageDropped` and `messageReady`, message_filter.h:617-641: to the callback queue, or directly. -/
def emit (f : Nat) (queued : Bool) : Sync := if queued then .lock ⟨.queue, f⟩ .nop else opt (failureOp f)

/-- `CBQueueCallback::call` from a callback queue, message_filter.h:596-609. -/
def deliver (f : Nat) : Sync := .lock ⟨.queue, f⟩ .nop ;; .lock ⟨.calling, f⟩ (opt (failureOp f))

/-- `setTargetFrames`, `getTargetFramesString`, `setTolerance`, message_filter.h:241-273. -/
def targetsOp (f : Nat) : Sync := .lock ⟨.targets, f⟩ .nop

/-- `TF2_ROS_MESSAGEFILTER_DEBUG`, message_filter.h:52-53: with debug output enabled its arguments are evaluated, among them
`getTargetFramesString()`. -/
def logDebug (f : Nat) : Sync := opt (targetsOp f)

/-- `clear`, message_filter.h:278-296 (also the destructor, 210-221). -/
def filterClear (b f : Nat) (queued : Bool) : Sync :=
  .lock ⟨.messages, f⟩ (logDebug f ;; removeCallback b ;; addCallback b ;;
    (if queued then .lock ⟨.queue, f⟩ .nop ;; .lock ⟨.calling, f⟩ .nop else .nop))

/-- `add`, message_filter.h:298-404. -/
def filterAdd (b f : Nat) (queued : Bool) : Sync :=
  opt (.alt (emit f queued)
    (targetsOp f ;; .loop (addRequest b) ;;
      .alt (emit f queued)
        (.alt (emit f queued) (.lock ⟨.messages, f⟩ (opt (logDebug f ;; .loop (requestsOp b) ;; emit f queued))) ;; logDebug f)))

/-- `transformable`, message_filter.h:459-548. The upgrade lock excludes all other users of the mutex (there are
no plain shared locks), so the upgrade at 528 never waits. -/
def filterTransformable (b f : Nat) (queued : Bool) : Sync :=
  .lock ⟨.messages, f⟩ (opt (opt (.lock ⟨.targets, f⟩ (.loop (frameOp b))) ;; logDebug f ;; emit f queued))

/-- `testTransformableRequests`, buffer_core.cpp:1411-1486; the callbacks are those of the filters on this
buffer. -/
def test (b : Nat) (filters : List (Nat × Bool)) : Sync :=
  .lock ⟨.requests, b⟩ (.loop (frameOp b ;; opt (.lock ⟨.callbacks, b⟩ .nop))) ;;
  .loop (filters.foldr (fun f r => .alt (filterTransformable b f.1 f.2) r) .nop)

/-- `setTransform`, buffer_core.cpp:207-287. -/
def setTransform (b : Nat) (filters : List (Nat × Bool)) : Sync := opt (frameOp b ;; opt (test b filters))

/-! ### BufferServer `v` on buffer `b` -/

/-- A change of a goal's state (external). -/
def goalState (v : Nat) : Sync := .lock ⟨.action, v⟩ .nop

/-- `canTransform` and `lookupTransform` of the server, tf2_ros/src/buffer_server.cpp:193-215. -/
def serverLook (b : Nat) : Sync := .alt (frameOp b) (lookup5 b)

/-- `checkTransforms`, buffer_server.cpp:53-111. -/
def serverCheck (b v : Nat) : Sync := .lock ⟨.server, v⟩ (.loop (frameOp b ;; opt (serverLook b ;; goalState v)))

/-- `cancelCB`, buffer_server.cpp:113-132. -/
def serverCancel (v : Nat) : Sync := .lock ⟨.server, v⟩ (opt (goalState v))

/-- `goalCB`, buffer_server.cpp:134-191. -/
def serverGoal (b v : Nat) : Sync :=
  goalState v ;; frameOp b ;; .alt (serverLook b ;; goalState v) (.lock ⟨.server, v⟩ .nop)

end Sync

/-- The objects of a program: the buffer of each filter and whether it has a callback queue, the buffer of each
server. Any natural number may name a buffer. -/
structure Objects where
  filters : List (Nat × Nat × Bool)     -- filter, its buffer, queue
  servers : List (Nat × Nat)            -- server, its buffer

/-- The filters on a buffer. -/
def Objects.on (o : Objects) (b : Nat) : List (Nat × Bool) :=
  (o.filters.filter (fun f => f.2.1 = b)).map (fun f => (f.1, f.2.2))

/-- A call a thread may make. -/
inductive LibCall (o : Objects) : Sync → Prop where
  | frameOp (b) : LibCall o (.frameOp b)
  | lookup5 (b) : LibCall o (.lookup5 b)
  | setTransform (b) : LibCall o (.setTransform b (o.on b))
  | addCallback (b) : LibCall o (.addCallback b)
  | removeCallback (b) : LibCall o (.removeCallback b)
  | addRequest (b) : LibCall o (.addRequest b)
  | requestsOp (b) : LibCall o (.requestsOp b)
  | failureOp (f) : LibCall o (.failureOp f)
  | targetsOp (f) : LibCall o (.targetsOp f)
  | deliver (f) : LibCall o (.deliver f)
  | filterClear {f b q} (h : (f, b, q) ∈ o.filters) : LibCall o (.filterClear b f q)
  | filterAdd {f b q} (h : (f, b, q) ∈ o.filters) : LibCall o (.filterAdd b f q)
  | serverCheck {v b} (h : (v, b) ∈ o.servers) : LibCall o (.serverCheck b v)
  | serverCancel {v b} (h : (v, b) ∈ o.servers) : LibCall o (.serverCancel v)
  | serverGoal {v b} (h : (v, b) ∈ o.servers) : LibCall o (.serverGoal b v)

/-- A thread: the locks it holds, what it still does. -/
structure LThread where
  held : List Lock
  todo : List LAct

/-- Whether some thread holds a lock. -/
def heldBy (ts : List LThread) (l : Lock) : Prop := ∃ t ∈ ts, l ∈ t.held

/-- One step of thread `i`: it acquires a free lock, or releases one it holds. -/
inductive LStep : List LThread → List LThread → Prop where
  | acq {ts i h l r} (hi : ts[i]? = some ⟨h, .acq l :: r⟩) (free : ¬ heldBy ts l) : LStep ts (ts.set i ⟨l :: h, r⟩)
  | rel {ts i h l r} (hi : ts[i]? = some ⟨h, .rel l :: r⟩) : LStep ts (ts.set i ⟨h.erase l, r⟩)

/-- Reachability. -/
inductive LSteps : List LThread → List LThread → Prop where
  | refl {ts} : LSteps ts ts
  | tail {ts us vs} (h : LSteps ts us) (h' : LStep us vs) : LSteps ts vs

end Tf2
