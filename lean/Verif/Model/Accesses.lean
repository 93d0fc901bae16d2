import Verif.Model.Locks
import Verif.Model.Threads

/-!
# Which members are accessed under which mutexes

The functions of `Model/Locks.lean` again, with the accesses they make to the members of their objects.  Branches and loops are
kept as "one of" and "any number of times", so the sequences of accesses and lock operations of the code are among those of the
model.  A container is one location, however much of it an access touches, except where the comment on the location says
otherwise.  Constructors and destructors are not among the calls; an object outlives the calls made on it.  Reference counts of
`boost::shared_ptr` and `boost::signals2` are safe in themselves and are left out.
-/
namespace Tf2

/-- The members. -/
inductive MemKind where
  -- BufferCore, tf2/include/tf2/buffer_core.h:317-414
  | caches           -- frames_ and the contents of the caches it points to
  | frameIDs         -- frameIDs_
  | frameNames       -- frameIDs_reverse
  | authority        -- frame_authority_
  | cacheTime        -- cache_time_
  | callbacks        -- transformable_callbacks_, the map
  | callbackFn       -- the functions stored in it
  | callbackCounter  -- transformable_callbacks_counter_
  | requests         -- transformable_requests_, the vector with all fields of its elements but `time`
  | requestTime      -- the fields `time` of its elements
  | requestCounter   -- transformable_requests_counter_
  | dedicated        -- using_dedicated_thread_
  -- MessageFilter, tf2_ros/include/tf2_ros/message_filter.h:667-714
  | targetFrames     -- target_frames_
  | targetText       -- target_frames_string_
  | tolerance        -- time_tolerance_
  | expected         -- expected_success_count_
  | queueSize        -- queue_size_
  | callbackHandle   -- callback_handle_
  | messages         -- messages_ with its elements
  | messageCount     -- message_count_
  | warned           -- warned_about_empty_frame_id_
  | successCount     -- successful_transform_count_
  | droppedCount     -- dropped_message_count_
  | incomingCount    -- incoming_message_count_
  | failureSignal    -- failure_signal_
  -- BufferServer, tf2_ros/include/tf2_ros/buffer_server.h:87
  | activeGoals      -- active_goals_
  -- TransformListener, tf2_ros/include/tf2_ros/transform_listener.h:77-79
  | lastUpdate       -- last_update_
  | keepRunning      -- using_dedicated_thread_ of the listener
  -- StaticTransformBroadcaster, tf2_ros/include/tf2_ros/static_transform_broadcaster.h:69
  | netMessage       -- net_message_
deriving DecidableEq, Repr

/-- A member of one object. -/
structure Loc where
  kind : MemKind
  obj : Nat
deriving DecidableEq, Repr

/-- Locking and accesses of a piece of code. -/
inductive ASync where
  | nop
  | acc (x : Loc) (write : Bool)
  | lock (l : Lock) (body : ASync)
  | seq (a b : ASync)
  | alt (a b : ASync)
  | loop (a : ASync)
deriving Repr

infixr:60 " ;;; " => ASync.seq

/-- One action: acquire or release a lock, read or write a member. -/
inductive AAct where
  | acq (l : Lock)
  | rel (l : Lock)
  | acc (x : Loc) (write : Bool)
deriving DecidableEq, Repr

/-- The sequences of actions of a piece of code. Any part of it may be left out, as when an exception is thrown: the scopes it
leaves release their locks. -/
inductive ASync.Trace : ASync → List AAct → Prop where
  | skip {a} : Trace a []
  | nop : Trace .nop []
  | acc {x w} : Trace (.acc x w) [.acc x w]
  | lock {l b t} (h : Trace b t) : Trace (.lock l b) (.acq l :: t ++ [.rel l])
  | seq {a b t u} (h : Trace a t) (h' : Trace b u) : Trace (.seq a b) (t ++ u)
  | left {a b t} (h : Trace a t) : Trace (.alt a b) t
  | right {a b t} (h : Trace b t) : Trace (.alt a b) t
  | stop {a} : Trace (.loop a) []
  | again {a t u} (h : Trace a t) (h' : Trace (.loop a) u) : Trace (.loop a) (t ++ u)

namespace ASync

/-- May be skipped. -/
def opt (a : ASync) : ASync := .alt .nop a

/-- A read. -/
def rd (k : MemKind) (o : Nat) : ASync := .acc ⟨k, o⟩ false

/-- A write, or a read and a write (`++`, insertion into a container). -/
def wr (k : MemKind) (o : Nat) : ASync := .acc ⟨k, o⟩ true

/-! ### BufferCore `b` -/

/-- The functions with one critical section that only read (those listed at `Sync.frameOp`, except `clear`): any number of
reads of the frame table, the caches and the authorities. -/
def query (b : Nat) : ASync :=
  opt (.lock ⟨.frames, b⟩ (.loop (.alt (rd .caches b) (.alt (rd .frameIDs b) (.alt (rd .frameNames b) (rd .authority b))))))

/-- `clear`, tf2/src/buffer_core.cpp:185-200. -/
def clear (b : Nat) : ASync := .lock ⟨.frames, b⟩ (rd .caches b ;;; .loop (wr .caches b))

/-- `lookupOrInsertFrameNumber`, buffer_core.cpp:912-927. -/
def insertFrame (b : Nat) : ASync :=
  rd .frameIDs b ;;; opt (wr .caches b ;;; wr .frameIDs b ;;; wr .frameNames b)

/-- `lookupFrameNumber`, buffer_core.cpp:899-910: also the public `_lookupFrameNumber` and `_validateFrameId`,
buffer_core.h:276-292, without the mutex. -/
def findFrame (b : Nat) : ASync := rd .frameIDs b

/-- Five-argument `lookupTransform`, buffer_core.cpp:651-674: the three checks are made without the mutex. -/
def lookup5 (b : Nat) : ASync := opt (.loop (findFrame b) ;;; query b ;;; opt (query b))

/-- `getLatestCommonTime`, buffer_core.cpp:1017-1166, called without a place for the error text. -/
def latestCommon (b : Nat) : ASync := .loop (rd .caches b)

/-- `addTransformableCallback`, buffer_core.cpp:1230-1240. -/
def addCallback (b : Nat) : ASync :=
  .lock ⟨.callbacks, b⟩ (wr .callbackCounter b ;;; wr .callbacks b ;;; .loop (wr .callbackCounter b ;;; wr .callbacks b) ;;;
    wr .callbackFn b)

/-- `removeTransformableCallback`, buffer_core.cpp:1256-1272: `erase` destroys the function. -/
def removeCallback (b : Nat) : ASync :=
  .lock ⟨.callbacks, b⟩ (wr .callbacks b ;;; wr .callbackFn b) ;;;
  .lock ⟨.requests, b⟩ (wr .requests b ;;; wr .requestTime b)

/-- `addTransformableRequest`, buffer_core.cpp:1274-1326: the frame numbers, the latest common time and the counter are
accessed without any mutex. -/
def addRequest (b : Nat) : ASync :=
  opt (findFrame b ;;; findFrame b ;;; query b ;;;
    opt (opt (latestCommon b ;;; rd .cacheTime b) ;;;
      opt (wr .requestCounter b ;;; .lock ⟨.requests, b⟩ (wr .requests b ;;; wr .requestTime b))))

/-- `cancelTransformableRequest`, buffer_core.cpp:1342-1350. -/
def cancelRequest (b : Nat) : ASync := .lock ⟨.requests, b⟩ (wr .requests b ;;; wr .requestTime b)

/-- `_addTransformsChangedListener`, `_removeTransformsChangedListener`, buffer_core.cpp:1355-1365. -/
def listenersOp (b : Nat) : ASync := .lock ⟨.requests, b⟩ .nop

/-- `setUsingDedicatedThread`, buffer_core.h:243. -/
def setDedicated (b : Nat) : ASync := wr .dedicated b

/-- `isUsingDedicatedThread`, buffer_core.h:245, called by the waiting functions of `Buffer` (tf2_ros/src/buffer.cpp:187). -/
def isDedicated (b : Nat) : ASync := rd .dedicated b

/-! ### MessageFilter `f` on buffer `b` -/

/-- `signalFailure`, `registerFailureCallback`, `disconnectFailure`, message_filter.h:425-429, 643-653. -/
def failureOp (f : Nat) : ASync := .lock ⟨.failure, f⟩ (wr .failureSignal f)

/-- `messageDropped` and `messageReady`, message_filter.h:617-641. -/
def emit (f : Nat) (queued : Bool) : ASync := if queued then .lock ⟨.queue, f⟩ .nop else opt (failureOp f)

/-- `CBQueueCallback::call`, message_filter.h:596-609. -/
def deliver (f : Nat) : ASync := .lock ⟨.queue, f⟩ .nop ;;; .lock ⟨.calling, f⟩ (opt (failureOp f))

/-- `setTargetFrames`, message_filter.h:241-256. -/
def setTargets (f : Nat) : ASync :=
  .lock ⟨.targets, f⟩ (wr .targetFrames f ;;; rd .tolerance f ;;; wr .expected f ;;; wr .targetText f)

/-- `getTargetFramesString`, message_filter.h:260-264. -/
def getTargets (f : Nat) : ASync := .lock ⟨.targets, f⟩ (rd .targetText f)

/-- `setTolerance`, message_filter.h:269-274. -/
def setTolerance (f : Nat) : ASync :=
  .lock ⟨.targets, f⟩ (wr .tolerance f ;;; rd .targetFrames f ;;; rd .tolerance f ;;; wr .expected f)

/-- `setQueueSize`, message_filter.h:431-434. -/
def setQueueSize (f : Nat) : ASync := wr .queueSize f

/-- `getQueueSize`, message_filter.h:436-439. -/
def getQueueSize (f : Nat) : ASync := rd .queueSize f

/-- `TF2_ROS_MESSAGEFILTER_DEBUG`, message_filter.h:52-53, with debug output enabled; its other arguments are at most the number
of messages. -/
def logDebug (f : Nat) : ASync := opt (opt (rd .messageCount f) ;;; getTargets f)

/-- `clear`, message_filter.h:278-296. -/
def filterClear (b f : Nat) (queued : Bool) : ASync :=
  .lock ⟨.messages, f⟩ (logDebug f ;;; rd .callbackHandle f ;;; removeCallback b ;;; addCallback b ;;; wr .callbackHandle f ;;;
    wr .messages f ;;; wr .messageCount f ;;;
    (if queued then .lock ⟨.queue, f⟩ .nop ;;; .lock ⟨.calling, f⟩ .nop else .nop) ;;; wr .warned f)

/-- `add`, message_filter.h:298-404: `target_frames_.empty()`, the expected count, the tolerance and the callback handle are read
without any mutex; the number of incoming messages is counted without one. -/
def filterAdd (b f : Nat) (queued : Bool) : ASync :=
  rd .targetFrames f ;;;
  opt (.alt (emit f queued)
    (rd .expected f ;;; .lock ⟨.targets, f⟩ (rd .targetFrames f) ;;;
      .loop (opt (rd .callbackHandle f) ;;; addRequest b ;;; opt (rd .tolerance f)) ;;;
      .alt (emit f queued)
        (rd .expected f ;;;
          .alt (emit f queued)
            (.lock ⟨.messages, f⟩ (rd .queueSize f ;;; rd .messageCount f ;;;
              opt (wr .droppedCount f ;;; rd .messages f ;;; logDebug f ;;; .loop (cancelRequest b) ;;; emit f queued ;;;
                wr .messages f ;;; wr .messageCount f) ;;;
              wr .messages f ;;; wr .messageCount f)) ;;;
          logDebug f ;;; wr .incomingCount f)))

/-- `transformable`, message_filter.h:459-548. -/
def filterTransformable (b f : Nat) (queued : Bool) : ASync :=
  .lock ⟨.messages, f⟩ (rd .messages f ;;; opt (wr .messages f ;;; rd .expected f) ;;;
    opt (opt (.lock ⟨.targets, f⟩ (.loop (opt (rd .targetFrames f) ;;; query b ;;; opt (rd .tolerance f)))) ;;;
      .alt (wr .successCount f) (wr .droppedCount f) ;;; logDebug f ;;; emit f queued ;;;
      wr .messages f ;;; wr .messageCount f))

/-- `testTransformableRequests`, buffer_core.cpp:1411-1486: under the mutex of the requests, without that of the frames, it
looks up frame numbers and names and latest common times. After it has released the mutex it reads the callbacks and the times
through references into the map and the vector. -/
def test (b : Nat) (filters : List (Nat × Bool)) : ASync :=
  .lock ⟨.requests, b⟩ (.loop (rd .requests b ;;; opt (findFrame b ;;; wr .requests b) ;;; opt (findFrame b ;;; wr .requests b) ;;;
      latestCommon b ;;; opt (rd .requestTime b ;;; rd .cacheTime b) ;;; opt (rd .requestTime b) ;;; query b ;;;
      opt (.lock ⟨.callbacks, b⟩ (rd .callbacks b ;;; opt (rd .frameNames b ;;; rd .frameNames b)) ;;;
        wr .requests b ;;; wr .requestTime b))) ;;;
  .loop (opt (rd .callbackFn b ;;; rd .requestTime b) ;;;
    filters.foldr (fun f r => .alt (filterTransformable b f.1 f.2) r) .nop)

/-- `setTransform`, buffer_core.cpp:207-287. -/
def setTransform (b : Nat) (filters : List (Nat × Bool)) : ASync :=
  opt (.lock ⟨.frames, b⟩ (insertFrame b ;;; rd .caches b ;;; opt (rd .cacheTime b ;;; wr .caches b) ;;; insertFrame b ;;;
      wr .caches b ;;; opt (wr .authority b)) ;;;
    opt (test b filters))

/-! ### BufferServer `v` on buffer `b` -/

/-- A change of a goal's state (external). -/
def goalState (v : Nat) : ASync := .lock ⟨.action, v⟩ .nop

/-- `canTransform` and `lookupTransform` of the server, tf2_ros/src/buffer_server.cpp:193-215. -/
def serverLook (b : Nat) : ASync := .alt (query b) (lookup5 b)

/-- `checkTransforms`, buffer_server.cpp:53-111. -/
def serverCheck (b v : Nat) : ASync :=
  .lock ⟨.server, v⟩ (.loop (rd .activeGoals v ;;; query b ;;; opt (serverLook b ;;; goalState v ;;; wr .activeGoals v)))

/-- `cancelCB`, buffer_server.cpp:113-132. -/
def serverCancel (v : Nat) : ASync :=
  .lock ⟨.server, v⟩ (.loop (rd .activeGoals v) ;;; opt (goalState v ;;; wr .activeGoals v))

/-- `goalCB`, buffer_server.cpp:134-191. -/
def serverGoal (b v : Nat) : ASync :=
  goalState v ;;; query b ;;; .alt (serverLook b ;;; goalState v) (.lock ⟨.server, v⟩ (wr .activeGoals v))

/-! ### TransformListener `i` on buffer `b`, StaticTransformBroadcaster `s` -/

/-- `subscription_callback_impl`, tf2_ros/src/transform_listener.cpp:104-133, for both topics. -/
def receive (i b : Nat) (filters : List (Nat × Bool)) : ASync :=
  rd .lastUpdate i ;;; opt (rd .lastUpdate i ;;; clear b) ;;; wr .lastUpdate i ;;; .loop (setTransform b filters)

/-- A turn of `dedicatedListenerThread`, tf2_ros/include/tf2_ros/transform_listener.h:81-87. -/
def spinOnce (i b : Nat) (filters : List (Nat × Bool)) : ASync := rd .keepRunning i ;;; .loop (receive i b filters)

/-- The destructor of the listener tells its thread to stop, tf2_ros/src/transform_listener.cpp:61-68 (then it joins). -/
def stopListener (i : Nat) : ASync := wr .keepRunning i

/-- `StaticTransformBroadcaster::sendTransform`, tf2_ros/src/static_transform_broadcaster.cpp:45-62. -/
def sendStatic (s : Nat) : ASync := .loop (rd .netMessage s ;;; wr .netMessage s) ;;; rd .netMessage s

end ASync

/-- The calls of C45 with their accesses, and those that take no lock. -/
inductive ACall (o : Objects) : ASync → Prop where
  | query (b) : ACall o (.query b)
  | clear (b) : ACall o (.clear b)
  | findFrame (b) : ACall o (.findFrame b)
  | lookup5 (b) : ACall o (.lookup5 b)
  | setTransform (b) : ACall o (.setTransform b (o.on b))
  | addCallback (b) : ACall o (.addCallback b)
  | removeCallback (b) : ACall o (.removeCallback b)
  | addRequest (b) : ACall o (.addRequest b)
  | cancelRequest (b) : ACall o (.cancelRequest b)
  | listenersOp (b) : ACall o (.listenersOp b)
  | setDedicated (b) : ACall o (.setDedicated b)
  | isDedicated (b) : ACall o (.isDedicated b)
  | failureOp (f) : ACall o (.failureOp f)
  | setTargets (f) : ACall o (.setTargets f)
  | getTargets (f) : ACall o (.getTargets f)
  | setTolerance (f) : ACall o (.setTolerance f)
  | setQueueSize (f) : ACall o (.setQueueSize f)
  | getQueueSize (f) : ACall o (.getQueueSize f)
  | deliver (f) : ACall o (.deliver f)
  | filterClear {f b q} (h : (f, b, q) ∈ o.filters) : ACall o (.filterClear b f q)
  | filterAdd {f b q} (h : (f, b, q) ∈ o.filters) : ACall o (.filterAdd b f q)
  | serverCheck {v b} (h : (v, b) ∈ o.servers) : ACall o (.serverCheck b v)
  | serverCancel {v b} (h : (v, b) ∈ o.servers) : ACall o (.serverCancel v)
  | serverGoal {v b} (h : (v, b) ∈ o.servers) : ACall o (.serverGoal b v)
  | receive (i b) : ACall o (.receive i b (o.on b))
  | spinOnce (i b) : ACall o (.spinOnce i b (o.on b))
  | stopListener (i) : ACall o (.stopListener i)
  | sendStatic (s) : ACall o (.sendStatic s)

/-- A thread: the locks it holds, what it still does. -/
structure AThread where
  held : List Lock
  todo : List AAct
deriving DecidableEq, Repr

/-- One step of thread `i`, with what it does: it acquires a free lock, releases one, or accesses a member. -/
inductive AStep : List AThread → Nat × AAct → List AThread → Prop where
  | acq {ts i h l r} (hi : ts[i]? = some ⟨h, .acq l :: r⟩) (free : ¬ ∃ t ∈ ts, l ∈ t.held) :
      AStep ts (i, .acq l) (ts.set i ⟨l :: h, r⟩)
  | rel {ts i h l r} (hi : ts[i]? = some ⟨h, .rel l :: r⟩) : AStep ts (i, .rel l) (ts.set i ⟨h.erase l, r⟩)
  | acc {ts i h x w r} (hi : ts[i]? = some ⟨h, .acc x w :: r⟩) : AStep ts (i, .acc x w) (ts.set i ⟨h, r⟩)

/-- An execution and what happened in it. -/
inductive AExec : List AThread → List (Nat × AAct) → List AThread → Prop where
  | done {ts} : AExec ts [] ts
  | step {ts e us es vs} (h : AStep ts e us) (h' : AExec us es vs) : AExec ts (e :: es) vs

/-- `req.request_handle = ++transformable_requests_counter_` and returning the handle, buffer_core.cpp:1301-1325, without a
mutex: the counter is read, then written. Left out: wrapping around at 2^64. -/
def newHandle : Prog Nat Nat := .peek fun c => .step (fun _ => c + 1) fun _ => .ret (c + 1)

end Tf2
