import Verif.Model.Cache

/-!
# `tf2::BufferCore`: frame table, `setTransform`, tree walks, lookups

Models tf2/src/buffer_core.cpp.  Text of error messages: see Model/ErrorText.lean.  All functions here are the
bodies of critical sections of `frame_mutex_`; concurrency is in `Model/Threads.lean`.
-/
namespace Tf2

/-- `std::string` frame names, as character sequences. -/
abbrev Name := List Char

/-- The string "NO_PARENT", tf2/src/buffer_core.cpp:175-177. -/
def noParentName : Name := ['N', 'O', '_', 'P', 'A', 'R', 'E', 'N', 'T']

/-- `startsWithSlash`, tf2/src/buffer_core.cpp:104-110. -/
def startsWithSlash : Name → Bool
  | '/' :: _ => true
  | _ => false

/-- `stripSlash`, tf2/src/buffer_core.cpp:112-118: removes one leading slash. -/
def stripSlash : Name → Name
  | '/' :: r => r
  | n => n

/-- `geometry_msgs::TransformStamped` (header.seq not modelled). -/
structure Msg (X : Type) where
  parent : Name
  child : Name
  stamp : Time
  xf : X
deriving DecidableEq, Repr

/-- Exceptions: the six classes of tf2/include/tf2/exceptions.h:43-104 and `std::runtime_error`
from `ros::Time` arithmetic. -/
inductive Exc where
  | lookup | connectivity | extrapolation | invalidArgument | timeout | transform | runtime
deriving DecidableEq, Repr

/-- Outcome of an API call: a value, an exception, or undefined behaviour. -/
inductive Res (α : Type) where
  | ok (a : α)
  | throw (e : Exc)
  | ub
deriving DecidableEq, Repr

/-- `tf2_msgs/TF2Error` codes returned by the walks, tf2_msgs/msg/TF2Error.msg. -/
inductive Code where
  | noError | lookup | connectivity | extrapolation
deriving DecidableEq, Repr

/-- `BufferCore::MAX_GRAPH_DEPTH`, tf2/include/tf2/buffer_core.h:93. -/
def maxGraphDepth : Nat := 1000

/-- The members of `BufferCore` guarded by `frame_mutex_`: `cache_time_`, `frames_`, `frameIDs_`,
`frameIDs_reverse`, `frame_authority_`; tf2/include/tf2/buffer_core.h:318-336. The hash map
`frameIDs_` and the map `frame_authority_` are functions. -/
structure Buf (X : Type) where
  cacheTime : Duration
  frames : List (Option (Cache X))
  frameIDs : Name → Option Nat
  frameIDsReverse : List Name
  authority : Nat → Option Name

variable {X : Type}

namespace Buf

/-- Constructor, tf2/src/buffer_core.cpp:169-178. -/
def init (cacheTime : Duration) : Buf X :=
  { cacheTime := cacheTime
    frames := [none]
    frameIDs := fun n => if n = noParentName then some 0 else none
    frameIDsReverse := [noParentName]
    authority := fun _ => none }

/-- `getFrame`, tf2/src/buffer_core.cpp:889-897. -/
def getFrame (b : Buf X) (i : Nat) : Option (Cache X) := (b.frames[i]?).join

/-- `lookupFrameNumber`, tf2/src/buffer_core.cpp:899-910. -/
def lookupFrameNumber (b : Buf X) (n : Name) : Nat := (b.frameIDs n).getD 0

/-- `lookupOrInsertFrameNumber`, tf2/src/buffer_core.cpp:912-927. -/
def lookupOrInsertFrameNumber (b : Buf X) (n : Name) : Buf X × Nat :=
  match b.frameIDs n with
  | some i => (b, i)
  | none =>
    ({ b with
        frames := b.frames ++ [none]
        frameIDs := fun m => if m = n then some b.frames.length else b.frameIDs m
        frameIDsReverse := b.frameIDsReverse ++ [n] },
     b.frames.length)

/-- `lookupFrameString`, tf2/src/buffer_core.cpp:929-939: throws LookupException out of range. -/
def lookupFrameString (b : Buf X) (i : Nat) : Res Name :=
  match b.frameIDsReverse[i]? with
  | some n => .ok n
  | none => .throw .lookup

/-- `clear`, tf2/src/buffer_core.cpp:185-200: every cache but the one at index 0. -/
def clear (b : Buf X) : Buf X :=
  { b with frames := b.frames.take 1 ++ (b.frames.drop 1).map (Option.map Cache.clearList) }

/-- Outcome of `setTransform`: refused by validation (`false`), refused by the cache (`false`),
accepted (`true`), `std::runtime_error` thrown by the cache, or undefined behaviour
(`frames_[cfid]` out of range). -/
inductive SetRes where
  | invalid
  | tooOld
  | repeated
  | accepted
  | threw
  | ub
deriving DecidableEq, Repr

/-- The checks of `setTransform`, tf2/src/buffer_core.cpp:219-263; argument already stripped. -/
def msgValid [Rigid X] (m : Msg X) : Bool :=
  !(decide (m.child = m.parent)) && !(decide (m.child = [])) && !(decide (m.parent = [])) &&
    !(Rigid.hasNaN m.xf) && Rigid.normOK m.xf

/-- tf2/src/buffer_core.cpp:214-216. -/
def stripMsg (m : Msg X) : Msg X :=
  { m with parent := stripSlash m.parent, child := stripSlash m.child }

/-- The cache created by `allocateFrame`, tf2/src/buffer_core.cpp:289-299. -/
def newCache (b : Buf X) (isStatic : Bool) : Cache X :=
  if isStatic then .stat none else .dyn b.cacheTime []

/-- `setTransform` up to and including the critical section, tf2/src/buffer_core.cpp:202-282;
`testTransformableRequests` (284) is in `Model/Requests.lean`.  `frame` is a shared pointer, so
inserting the parent's name afterwards does not invalidate it. -/
def setTransform [Rigid X] (b : Buf X) (msg : Msg X) (auth : Name) (isStatic : Bool) :
    Buf X × SetRes :=
  let m := stripMsg msg
  if msgValid m then
    let (b1, cid) := b.lookupOrInsertFrameNumber m.child            -- 267
    let cache := (b1.getFrame cid).getD (b1.newCache isStatic)      -- 268-270
    let b2 := { b1 with frames := b1.frames.set cid (some cache) }
    let (b3, pid) := b2.lookupOrInsertFrameNumber m.parent          -- 273, argument
    if cid < b1.frames.length then
      let r := cache.insert { stamp := m.stamp, parent := pid, child := cid, xf := m.xf }
      let b4 := { b3 with frames := b3.frames.set cid (some r.1) }
      match r.2 with
      | .accepted =>
        ({ b4 with authority := fun i => if i = cid then some auth else b4.authority i }, .accepted)
      | .tooOld => (b4, .tooOld)
      | .repeated => (b4, .repeated)
      | .threw => (b4, .threw)
    else (b3, .ub)
  else (b, .invalid)

end Buf

/-- `WalkEnding`, tf2/src/buffer_core.cpp:301-307. -/
inductive WalkEnding where
  | identity | targetParentOfSource | sourceParentOfTarget | fullPath
deriving DecidableEq, Repr

/-- The template parameter `F` of `walkToTopParent`: state `A` with `gather`, `accum`, `finalize`. -/
structure Accum (X A : Type) where
  gather : Cache X → Time → A → ParRes × A
  accum : Bool → A → A
  finalize : WalkEnding → Time → A → A

/-- Fields of `TransformAccum`, tf2/src/buffer_core.cpp:584-592; each pair of a quaternion and a
vector is one `X`. -/
structure TAcc (X : Type) where
  st : Option (Sample X)
  time : Time
  sourceToTop : X
  targetToTop : X
  result : X
deriving DecidableEq, Repr

/-- `TransformAccum::TransformAccum`, tf2/src/buffer_core.cpp:518-526. -/
def TAcc.init [Rigid X] : TAcc X :=
  { st := none, time := 0, sourceToTop := Rigid.one, targetToTop := Rigid.one, result := Rigid.one }

/-- The current edge; before the first successful `gather` the member `st` is uninitialised, the
model reads the identity there (never reached: `accum` follows a successful `gather`). -/
def TAcc.edge [Rigid X] (a : TAcc X) : X :=
  match a.st with
  | some s => s.xf
  | none => Rigid.one

/-- `TransformAccum`, tf2/src/buffer_core.cpp:516-593. -/
def transformAccum [Rigid X] : Accum X (TAcc X) where
  gather c t a :=
    match c.getData t with
    | .fail => (.id 0, a)
    | .ok s => (.id s.parent, { a with st := some s })
    | .ub => (.ub, a)
  accum source a :=
    if source then { a with sourceToTop := Rigid.comp a.edge a.sourceToTop }
    else { a with targetToTop := Rigid.comp a.edge a.targetToTop }
  finalize e t a :=
    let a' := match e with
      | .identity => a
      | .targetParentOfSource => { a with result := a.sourceToTop }
      | .sourceParentOfTarget => { a with result := Rigid.inv a.targetToTop }
      | .fullPath => { a with result := Rigid.comp (Rigid.inv a.targetToTop) a.sourceToTop }
    { a' with time := t }

/-- `CanTransformAccum`, tf2/src/buffer_core.cpp:741-757. -/
def canAccum : Accum X Unit where
  gather c t a := (c.getParent t, a)
  accum _ a := a
  finalize _ _ a := a

/-- Exit of the first loop of `walkToTopParent`. -/
inductive Loop1 (A : Type) where
  /-- loop left with `top_parent`, `extrapolation_might_have_occurred`, accumulator, `frame_chain` -/
  | exit (top : Nat) (extrap : Bool) (a : A) (chain : List Nat)
  /-- early out at lines 372-376: target is an ancestor of source -/
  | early (a : A) (chain : List Nat)
  | tooDeep
  | ub

/-- Exit of the second loop of `walkToTopParent`. -/
inductive Loop2 (A : Type) where
  | exit (frame : Nat) (a : A) (revChain : List Nat)
  | extrap
  | early (a : A) (revChain : List Nat)
  | tooDeep
  | ub

variable {A : Type}

namespace Buf

/-- First loop of `walkToTopParent`, tf2/src/buffer_core.cpp:349-395.  `k` is
`MAX_GRAPH_DEPTH - depth`.  `top_parent` is `frame` at every exit (initially `source_id`, 343), so
it is not a separate variable; the loop condition can be false only at entry, as a zero parent
leaves the loop at 363-369. -/
def walkSource (b : Buf X) (f : Accum X A) (t : Time) (target : Nat) :
    (k : Nat) → (frame : Nat) → A → List Nat → Loop1 A
  | k, frame, a, chain =>
    if frame = 0 then .exit frame false a chain                     -- 349
    else
      let chain := chain ++ [frame]                                 -- 352-353
      match b.getFrame frame with
      | none => .exit frame false a chain                           -- 355-360
      | some c =>
        match f.gather c t a with
        | (.ub, _) => .ub
        | (.id 0, a) => .exit frame true a chain                    -- 363-369
        | (.id (p + 1), a) =>
          if frame = target then .early (f.finalize .targetParentOfSource t a) chain  -- 372-376
          else
            match k with
            | 0 => .tooDeep                                         -- 383-394
            | k + 1 => walkSource b f t target k (p + 1) (f.accum true a) chain

/-- Second loop of `walkToTopParent`, tf2/src/buffer_core.cpp:402-457. -/
def walkTarget (b : Buf X) (f : Accum X A) (t : Time) (source top : Nat) :
    (k : Nat) → (frame : Nat) → A → List Nat → Loop2 A
  | k, frame, a, rev =>
    if frame = top then .exit frame a rev                           -- 402
    else
      let rev := rev ++ [frame]                                     -- 405-406
      match b.getFrame frame with
      | none => .exit frame a rev                                   -- 408-411
      | some c =>
        match f.gather c t a with
        | (.ub, _) => .ub
        | (.id 0, _) => .extrap                                     -- 413-425
        | (.id (p + 1), a) =>
          if frame = source then .early (f.finalize .sourceParentOfTarget t a) rev    -- 428-439
          else
            match k with
            | 0 => .tooDeep                                         -- 445-456
            | k + 1 => walkTarget b f t source top k (p + 1) (f.accum false a) rev

end Buf

/-- Comparison loop of the pruning, tf2/src/buffer_core.cpp:489-497, on the two chains reversed:
drops the common prefix. -/
def stripCommon : List Nat → List Nat → List Nat × List Nat
  | c :: cs, r :: rs => if c = r then stripCommon cs rs else (c :: cs, r :: rs)
  | cs, rs => (cs, rs)

/-- Pruning and joining of the chains, tf2/src/buffer_core.cpp:486-508; `rev` already has
`top_parent` appended (480).  Erasing past the end would be undefined behaviour (`none`). -/
def pruneChain (chain rev : List Nat) : Option (List Nat) :=
  let r := stripCommon chain.reverse rev.reverse
  let n : Int := (r.1.length : Int) - 1
  if n > 0 then                                                     -- 497
    if n + 2 ≤ chain.length then some (chain.take (n + 2).toNat ++ r.2) else none
  else some (chain ++ r.2)

/-- Result of `getLatestCommonTime`: the return code with the `time` it assigned on success. -/
inductive LctRes where
  | ok (t : Time)
  | err (c : Code)
  | ub
deriving DecidableEq, Repr

/-- Exit of the first loop of `getLatestCommonTime`. -/
inductive Lct1 where
  | exit (lct : List (Time × Nat))
  | early (common : Time)
  | tooDeep
  | ub
deriving DecidableEq, Repr

/-- Exit of the second loop of `getLatestCommonTime`: `exit common_parent common_time`. -/
inductive Lct2 where
  | exit (commonParent : Nat) (common : Time)
  | early (common : Time)
  | tooDeep
  | ub
deriving DecidableEq, Repr

/-- `if (!latest.first.isZero()) common_time = std::min(latest.first, common_time)`,
tf2/src/buffer_core.cpp:1041-1044, 1096-1099, 1147-1150. -/
def minNonzero (latest common : Time) : Time :=
  if latest = 0 then common else min latest common

/-- `if (time == ros::TIME_MAX) time = ros::Time()`, tf2/src/buffer_core.cpp:1054-1057, 1114-1117,
1159-1162. -/
def unMax (t : Time) : Time := if t = TIME_MAX then 0 else t

namespace Buf

/-- First loop of `getLatestCommonTime`, tf2/src/buffer_core.cpp:1023-1073. -/
def lctSource (b : Buf X) (target : Nat) :
    (k : Nat) → (frame : Nat) → (common : Time) → List (Time × Nat) → Lct1
  | k, frame, common, lct =>
    if frame = 0 then .exit lct
    else match b.getFrame frame with
      | none => .exit lct                                           -- 1027-1031
      | some c =>
        match c.latestTimeAndParent with
        | none => .ub
        | some (_, 0) => .exit lct                                  -- 1035-1039
        | some (lt, p + 1) =>
          let common := minNonzero lt common
          let lct := lct ++ [(lt, p + 1)]
          if p + 1 = target then .early (unMax common)              -- 1051-1059
          else match k with
            | 0 => .tooDeep
            | k + 1 => lctSource b target k (p + 1) common lct

/-- Second loop of `getLatestCommonTime`, tf2/src/buffer_core.cpp:1080-1133. -/
def lctTarget (b : Buf X) (source : Nat) (lct : List (Time × Nat)) :
    (k : Nat) → (frame : Nat) → (common : Time) → Lct2
  | k, frame, common =>
    match b.getFrame frame with
    | none => .exit 0 common
    | some c =>
      match c.latestTimeAndParent with
      | none => .ub
      | some (_, 0) => .exit 0 common                               -- 1091-1094
      | some (lt, p + 1) =>
        let common := minNonzero lt common
        if lct.any (fun e => e.2 = p + 1) then .exit (p + 1) common -- 1101-1106
        else if p + 1 = source then .early (unMax common)           -- 1111-1119
        else match k with
          | 0 => .tooDeep
          | k + 1 => lctTarget b source lct k (p + 1) common

/-- Last loop of `getLatestCommonTime`, tf2/src/buffer_core.cpp:1142-1157. -/
def lctJoin (commonParent : Nat) : List (Time × Nat) → Time → Time
  | [], common => common
  | (lt, p) :: r, common =>
    let common := minNonzero lt common
    if p = commonParent then common else lctJoin commonParent r common

/-- `getLatestCommonTime`, tf2/src/buffer_core.cpp:999-1166. -/
def latestCommonTime (b : Buf X) (target source : Nat) : LctRes :=
  if source = 0 ∨ target = 0 then .err .lookup                      -- 1002
  else if source = target then                                      -- 1004-1013
    match b.getFrame source with
    | some c => .ok c.latestStamp
    | none => .ok 0
  else match b.lctSource target maxGraphDepth source TIME_MAX [] with
    | .ub => .ub
    | .tooDeep => .err .lookup
    | .early t => .ok t
    | .exit lct =>
      match b.lctTarget source lct maxGraphDepth target TIME_MAX with
      | .ub => .ub
      | .tooDeep => .err .lookup
      | .early t => .ok t
      | .exit 0 _ => .err .connectivity                             -- 1135-1139
      | .exit (p + 1) common => .ok (unMax (lctJoin (p + 1) lct common))

end Buf

/-- Result of `walkToTopParent`: return code, the accumulator, and `*frame_chain` (ignored by the
callers that pass NULL). -/
inductive WalkRes (A : Type) where
  | done (a : A) (chain : List Nat)
  | err (c : Code)
  | ub

namespace Buf

/-- `walkToTopParent` after the time has been fixed, tf2/src/buffer_core.cpp:341-512. -/
def walkAt (b : Buf X) (f : Accum X A) (a : A) (t : Time) (target source : Nat) : WalkRes A :=
  match b.walkSource f t target maxGraphDepth source a [] with
  | .ub => .ub
  | .tooDeep => .err .lookup
  | .early a chain => .done a chain
  | .exit top extrap a chain =>
    match b.walkTarget f t source top maxGraphDepth target a [] with
    | .ub => .ub
    | .tooDeep => .err .lookup
    | .extrap => .err .extrapolation
    | .early a rev => .done a rev.reverse
    | .exit frame a rev =>
      if frame = top then
        match pruneChain chain (rev ++ [frame]) with
        | some ch => .done (f.finalize .fullPath t a) ch
        | none => .ub
      else if extrap then .err .extrapolation else .err .connectivity

/-- `walkToTopParent`, tf2/src/buffer_core.cpp:316-512. -/
def walk (b : Buf X) (f : Accum X A) (a : A) (t : Time) (target source : Nat) : WalkRes A :=
  if source = target then .done (f.finalize .identity t a) []       -- 325-329
  else if t = 0 then                                                -- 332-339
    match b.latestCommonTime target source with
    | .ub => .ub
    | .err c => .err c
    | .ok t' => b.walkAt f a t' target source
  else b.walkAt f a t target source

/-- `validateFrameId`, tf2/src/buffer_core.cpp:142-167. -/
def validateFrameId (b : Buf X) (n : Name) : Res Nat :=
  if n = [] then .throw .invalidArgument
  else if startsWithSlash n then .throw .invalidArgument
  else match b.lookupFrameNumber n with
    | 0 => .throw .lookup
    | i + 1 => .ok (i + 1)

/-- `warnFrameId`, tf2/src/buffer_core.cpp:121-140. -/
def warnFrameId (n : Name) : Bool := decide (n = []) || startsWithSlash n

/-- The exception for a return code, tf2/src/buffer_core.cpp:629-643. -/
def codeExc : Code → Exc
  | .connectivity => .connectivity
  | .extrapolation => .extrapolation
  | .lookup => .lookup
  | .noError => .transform     -- `assert(0)`; never produced, `WalkRes.err` carries an error code

/-- `lookupTransform(target, source, time)`, tf2/src/buffer_core.cpp:595-648. -/
def lookupTransform [Rigid X] (b : Buf X) (target source : Name) (t : Time) : Res (Msg X) :=
  if target = source then
    .ok { parent := target, child := source, xf := Rigid.one
          stamp :=
            if t = 0 then
              match b.getFrame (b.lookupFrameNumber target) with
              | some c => c.latestStamp
              | none => t
            else t }
  else match b.validateFrameId target with
    | .throw e => .throw e
    | .ub => .ub
    | .ok tid =>
      match b.validateFrameId source with
      | .throw e => .throw e
      | .ub => .ub
      | .ok sid =>
        match b.walk transformAccum TAcc.init t tid sid with
        | .ub => .ub
        | .err c => .throw (codeExc c)
        | .done a _ => .ok { parent := target, child := source, stamp := a.time, xf := a.result }

/-- `lookupTransform(target, target_time, source, source_time, fixed)`,
tf2/src/buffer_core.cpp:651-673. -/
def lookupTransform5 [Rigid X] (b : Buf X) (target : Name) (ttime : Time) (source : Name)
    (stime : Time) (fixed : Name) : Res (Msg X) :=
  match b.validateFrameId target with
  | .throw e => .throw e
  | .ub => .ub
  | .ok _ =>
    match b.validateFrameId source with
    | .throw e => .throw e
    | .ub => .ub
    | .ok _ =>
      match b.validateFrameId fixed with
      | .throw e => .throw e
      | .ub => .ub
      | .ok _ =>
        match b.lookupTransform fixed source stime with
        | .throw e => .throw e
        | .ub => .ub
        | .ok m1 =>
          match b.lookupTransform target fixed ttime with
          | .throw e => .throw e
          | .ub => .ub
          | .ok m2 =>
            .ok { parent := target, child := source, stamp := m2.stamp, xf := Rigid.mulMsg m2.xf m1.xf }

/-- `canTransformNoLock`, tf2/src/buffer_core.cpp:759-794. -/
def canTransformNoLock (b : Buf X) (tid sid : Nat) (t : Time) : Res Bool :=
  if tid = 0 ∨ sid = 0 then .ok false
  else if tid = sid then .ok true
  else match b.walk canAccum () t tid sid with
    | .done _ _ => .ok true
    | .err _ => .ok false
    | .ub => .ub

/-- `canTransform(target, source, time)`, tf2/src/buffer_core.cpp:803-840. -/
def canTransform (b : Buf X) (target source : Name) (t : Time) : Res Bool :=
  if target = source then .ok true
  else if warnFrameId target then .ok false
  else if warnFrameId source then .ok false
  else if b.lookupFrameNumber target = 0 ∨ b.lookupFrameNumber source = 0 then .ok false
  else b.canTransformNoLock (b.lookupFrameNumber target) (b.lookupFrameNumber source) t

/-- `canTransform(target, target_time, source, source_time, fixed)`,
tf2/src/buffer_core.cpp:842-886. -/
def canTransform5 (b : Buf X) (target : Name) (ttime : Time) (source : Name) (stime : Time)
    (fixed : Name) : Res Bool :=
  if warnFrameId target then .ok false
  else if warnFrameId source then .ok false
  else if warnFrameId fixed then .ok false
  else
    let tid := b.lookupFrameNumber target
    let sid := b.lookupFrameNumber source
    let fid := b.lookupFrameNumber fixed
    if tid = 0 ∨ sid = 0 ∨ fid = 0 then .ok false
    else match b.canTransformNoLock tid fid ttime with
      | .ok true => b.canTransformNoLock fid sid stime
      | r => r

/-- `_getParent`, tf2/src/buffer_core.cpp:1374-1390: the parent's name, or `none` for `false`. -/
def getParent (b : Buf X) (n : Name) (t : Time) : Res (Option Name) :=
  match b.getFrame (b.lookupFrameNumber n) with
  | none => .ok none
  | some c =>
    match c.getParent t with
    | .ub => .ub
    | .id 0 => .ok none
    | .id (p + 1) =>
      match b.lookupFrameString (p + 1) with
      | .ok s => .ok (some s)
      | .throw e => .throw e
      | .ub => .ub

/-- `_frameExists`, tf2/src/buffer_core.cpp:1368-1372. -/
def frameExists (b : Buf X) (n : Name) : Bool := (b.frameIDs n).isSome

/-- `_getFrameStrings`, tf2/src/buffer_core.cpp:1392-1406. -/
def getFrameStrings (b : Buf X) : List Name := b.frameIDsReverse.drop 1

/-- One line of `allFramesAsStringNoLock`, tf2/src/buffer_core.cpp:967-980: the pair (frame, parent)
printed for index `i`, nothing if there is no cache, `ub` for an out-of-range index. -/
def frameLine [Rigid X] (b : Buf X) (i : Nat) : Res (Option (Name × Name)) :=
  match b.getFrame i with
  | none => .ok none
  | some c =>
    let line (p : Nat) : Res (Option (Name × Name)) :=
      match b.frameIDsReverse[i]?, b.frameIDsReverse[p]? with
      | some n, some q => .ok (some (n, q))
      | _, _ => .ub
    match c.getData 0 with
    | .ub => .ub
    | .ok s => line s.parent
    | .fail => line 0

/-- Collects the lines for a list of indices, stopping at undefined behaviour. -/
def frameLines [Rigid X] (b : Buf X) : List Nat → Res (List (Name × Name))
  | [] => .ok []
  | i :: r =>
    match b.frameLine i with
    | .ub => .ub
    | .throw e => .throw e
    | .ok l =>
      match frameLines b r with
      | .ub => .ub
      | .throw e => .throw e
      | .ok ls => .ok (l.toList ++ ls)

/-- `allFramesAsString`, tf2/src/buffer_core.cpp:952-983, as the list of (frame, parent) lines. -/
def allFrames [Rigid X] (b : Buf X) : Res (List (Name × Name)) :=
  b.frameLines (List.range' 1 (b.frames.length - 1))

/-- Maps `lookupFrameString` over a chain, tf2/src/buffer_core.cpp:1650-1653. -/
def chainNames (b : Buf X) : List Nat → Res (List Name)
  | [] => .ok []
  | i :: r =>
    match b.lookupFrameString i with
    | .throw e => .throw e
    | .ub => .ub
    | .ok n =>
      match chainNames b r with
      | .throw e => .throw e
      | .ub => .ub
      | .ok ns => .ok (n :: ns)

/-- `_chainAsVector`, tf2/src/buffer_core.cpp:1583-1654.  (The accumulator is shared between the two
walks; its contents are not used.) -/
def chainAsVector [Rigid X] (b : Buf X) (target : Name) (ttime : Time) (source : Name)
    (stime : Time) (fixed : Name) : Res (List Name) :=
  let sid := b.lookupFrameNumber source
  let fid := b.lookupFrameNumber fixed
  let tid := b.lookupFrameNumber target
  match b.walk transformAccum TAcc.init stime fid sid with
  | .ub => .ub
  | .err c => .throw (codeExc c)
  | .done a sc =>
    match b.walk transformAccum a ttime tid fid with
    | .ub => .ub
    | .err c => .throw (codeExc c)
    | .done _ tc =>
      let sc := if sc ≠ [] ∧ tc ≠ [] ∧ sc.getLast? = tc.head? then sc.dropLast else sc
      b.chainNames (sc ++ tc)

end Buf

/-- A call that changes a `BufferCore`: `setTransform` or `clear`. -/
inductive Op (X : Type) where
  | set (m : Msg X) (auth : Name) (isStatic : Bool)
  | clear

/-- Runs one call. -/
def Buf.step [Rigid X] (b : Buf X) : Op X → Buf X
  | .set m a s => (b.setTransform m a s).1
  | .clear => b.clear

/-- Runs a history of calls from a state. -/
def Buf.run [Rigid X] (b : Buf X) (ops : List (Op X)) : Buf X := ops.foldl Buf.step b

/-- States a `BufferCore` constructed with `cache_time` `D` can be in. -/
def Reachable [Rigid X] (D : Duration) (b : Buf X) : Prop := ∃ ops, b = (Buf.init D).run ops

end Tf2
