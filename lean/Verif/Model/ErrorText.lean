import Verif.Model.FrameReport

/-!
# The error text of lookups: `std::string* error_msg` and `what()`

The functions of `Model/Cache.lean` and `Model/BufferCore.lean` leave out the error text.  Here they
are again with the text, as the code writes it: a pointer to a string is an `Option Name` (`none` is
NULL, `some s` a string with contents `s`), and a function that may write it returns the new contents.

The texts for a time outside the stored data print a difference of two `ros::Time`s; the
subtraction throws when it does not fit a `ros::Duration`.  This throw, absent from the other files,
is part of the model here.
-/
namespace Tf2

variable {X A : Type}

/-- External text: `time t` is `t.toSec()` and `dur d` is `d.toSec()` printed with `%.09f`;
`range` is the text of the `std::runtime_error` of `ros::Time` subtraction. -/
structure Render where
  time : Time → Name
  dur : Duration → Name
  range : Name

/-- `snprintf(str, size, ...)` into an array of `size` characters (external): the terminating NUL takes
one, what does not fit is dropped.  `s` is the whole formatted text. -/
def snprintf (size : Nat) (s : Name) : Name := s.take (size - 1)

/-- `%s` of `s.c_str()`: up to the first NUL character. -/
def cstr (s : Name) : Name := s.takeWhile (fun c => c ≠ Char.ofNat 0)

/-- `createExtrapolationException1`, tf2/src/cache.cpp:65-73. -/
def extrapText1 (R : Render) (t0 t1 : Time) : Option Name → Option Name
  | none => none
  | some _ => some (snprintf 117 ("Lookup would require extrapolation at time ".toList ++ R.time t0 ++
      ", but only time ".toList ++ R.time t1 ++ " is in the buffer".toList))

/-- `createExtrapolationException2`, tf2/src/cache.cpp:75-89; the outer `none` is the throw of
`t0 - t1`. -/
def extrapText2 (R : Render) (t0 t1 : Time) : Option Name → Option (Option Name)
  | none => some none
  | some _ =>
    match timeDiff t0 t1 with
    | none => none
    | some d => some (some (snprintf 163 ("Lookup would require extrapolation ".toList ++ R.dur d ++
        "s into the future.  Requested time ".toList ++ R.time t0 ++
        " but the latest data is at time ".toList ++ R.time t1)))

/-- `createExtrapolationException3`, tf2/src/cache.cpp:91-103; the outer `none` is the throw of
`t1 - t0`. -/
def extrapText3 (R : Render) (t0 t1 : Time) : Option Name → Option (Option Name)
  | none => some none
  | some _ =>
    match timeDiff t1 t0 with
    | none => none
    | some d => some (some (snprintf 163 ("Lookup would require extrapolation ".toList ++ R.dur d ++
        "s into the past.  Requested time ".toList ++ R.time t0 ++
        " but the earliest data is at time ".toList ++ R.time t1)))

/-- What `TimeCache::findClosest` does to `*error_str`, tf2/src/cache.cpp:111-184 (branches as in
`findClosest`); the outer `none` is a thrown `std::runtime_error`. -/
def findClosestText (R : Render) (st : List (Sample X)) (t : Time) (e : Option Name) :
    Option (Option Name) :=
  match st with
  | [] => some e                                            -- 114-117
  | front :: rest =>
    if t = 0 then some e                                    -- 120-124
    else match rest with
      | [] => if front.stamp = t then some e else some (extrapText1 R t front.stamp e)  -- 127-140
      | second :: rest' =>
        let back := (second :: rest').getLast (List.cons_ne_nil _ _)
        if t = front.stamp then some e                      -- 145-149
        else if t = back.stamp then some e                  -- 150-154
        else if front.stamp < t then extrapText2 R t front.stamp e  -- 156-160
        else if t < back.stamp then extrapText3 R t back.stamp e    -- 161-165
        else some e

/-- What virtual `getData` and `getParent` do to `*error_str`: tf2/src/cache.cpp:208-253 and
tf2/src/static_cache.cpp:41-46, 61-64 (nothing). -/
def Cache.text (R : Render) : Cache X → Time → Option Name → Option (Option Name)
  | .dyn _ st, t, e => findClosestText R st t e
  | .stat _, _, e => some e

/-- Exit of the first loop of `walkToTopParent`, with `extrapolation_error_string`. -/
inductive Loop1T (A : Type) where
  | exit (top : Nat) (extrap : Bool) (a : A) (chain : List Nat) (loc : Option Name)
  | early (a : A) (chain : List Nat)
  | tooDeep
  | threw
  | ub

/-- Exit of the second loop of `walkToTopParent`, with `*error_string`. -/
inductive Loop2T (A : Type) where
  | exit (frame : Nat) (a : A) (rev : List Nat) (e : Option Name)
  | extrap (e : Option Name)
  | early (a : A) (rev : List Nat) (e : Option Name)
  | tooDeep (e : Option Name)
  | threw (e : Option Name)
  | ub

namespace Buf

/-- First loop of `walkToTopParent`, tf2/src/buffer_core.cpp:349-395, with the text passed to `gather`
at 362: `loc` is `error_string ? &extrapolation_error_string : NULL`. -/
def walkSourceT (R : Render) (b : Buf X) (f : Accum X A) (t : Time) (target : Nat) :
    (k : Nat) → (frame : Nat) → A → List Nat → (loc : Option Name) → Loop1T A
  | k, frame, a, chain, loc =>
    if frame = 0 then .exit frame false a chain loc
    else
      let chain := chain ++ [frame]
      match b.getFrame frame with
      | none => .exit frame false a chain loc
      | some c =>
        match c.text R t loc with
        | none => .threw
        | some loc =>
          match f.gather c t a with
          | (.ub, _) => .ub
          | (.id 0, a) => .exit frame true a chain loc
          | (.id (p + 1), a) =>
            if frame = target then .early (f.finalize .targetParentOfSource t a) chain
            else
              match k with
              | 0 => .tooDeep
              | k + 1 => walkSourceT R b f t target k (p + 1) (f.accum true a) chain loc

/-- Second loop of `walkToTopParent`, tf2/src/buffer_core.cpp:402-457: `gather` writes the caller's
string (413). -/
def walkTargetT (R : Render) (b : Buf X) (f : Accum X A) (t : Time) (source top : Nat) :
    (k : Nat) → (frame : Nat) → A → List Nat → (e : Option Name) → Loop2T A
  | k, frame, a, rev, e =>
    if frame = top then .exit frame a rev e
    else
      let rev := rev ++ [frame]
      match b.getFrame frame with
      | none => .exit frame a rev e
      | some c =>
        match c.text R t e with
        | none => .threw e
        | some e =>
          match f.gather c t a with
          | (.ub, _) => .ub
          | (.id 0, _) => .extrap e
          | (.id (p + 1), a) =>
            if frame = source then .early (f.finalize .sourceParentOfTarget t a) rev e
            else
              match k with
              | 0 => .tooDeep e
              | k + 1 => walkTargetT R b f t source top k (p + 1) (f.accum false a) rev e

/-- `"%s, when looking up transform from frame [%s] to frame [%s]"` into 1000 characters,
tf2/src/buffer_core.cpp:418-421, 465-468. -/
def whenLookingUp (b : Buf X) (reason : Name) (source target : Nat) : Res Name :=
  match b.lookupFrameString source, b.lookupFrameString target with
  | .ok s, .ok g => .ok (snprintf 1000 (cstr reason ++
      ", when looking up transform from frame [".toList ++ cstr s ++ "] to frame [".toList ++ cstr g ++
      "]".toList))
  | .throw e, _ => .throw e
  | _, .throw e => .throw e
  | _, _ => .ub

/-- `createConnectivityErrorString`, tf2/src/buffer_core.cpp:941-950, for a non-null pointer. -/
def connectivityText (b : Buf X) (source target : Nat) : Res Name :=
  match b.lookupFrameString source, b.lookupFrameString target with
  | .ok s, .ok g => .ok ("Could not find a connection between '".toList ++ g ++ "' and '".toList ++ s ++
      "' because they are not part of the same tree.".toList ++
      "Tf has two or more unconnected trees.".toList)
  | .throw e, _ => .throw e
  | _, .throw e => .throw e
  | _, _ => .ub

/-- The lines of `allFramesAsStringNoLock`, tf2/src/buffer_core.cpp:979, as text. -/
def listingText (ls : List (Name × Name)) : Name :=
  ls.flatMap fun l => "Frame ".toList ++ l.1 ++ " exists with parent ".toList ++ l.2 ++ ".\n".toList

/-- The text for a chain longer than the depth limit, tf2/src/buffer_core.cpp:387-391, 449-453, 1066-1069,
1126-1129. -/
def loopText [Rigid X] (b : Buf X) : Res Name :=
  match b.allFrames with
  | .ok ls => .ok ("The tf tree is invalid because it contains a loop.\n".toList ++ listingText ls ++
      "\n".toList)
  | .throw e => .throw e
  | .ub => .ub

end Buf

/-- Result of `walkToTopParent` with `*error_string` after it. -/
inductive WalkT (A : Type) where
  | done (a : A) (chain : List Nat) (e : Option Name)
  | err (c : Code) (e : Option Name)
  | throw (x : Exc) (e : Option Name)
  | ub

/-- Returns code `c` after `if (error_string) *error_string = w`. -/
def WalkT.say (c : Code) (w : Name → Res Name) : Option Name → WalkT A
  | none => .err c none
  | some old =>
    match w old with
    | .ok s => .err c (some s)
    | .throw x => .throw x (some old)
    | .ub => .ub

/-- Result of `getLatestCommonTime` with `*error_string` after it. -/
inductive LctT where
  | ok (t : Time) (e : Option Name)
  | err (c : Code) (e : Option Name)
  | throw (x : Exc) (e : Option Name)
  | ub

/-- Returns code `c` after `if (error_string) *error_string = w`. -/
def LctT.say (c : Code) (w : Res Name) : Option Name → LctT
  | none => .err c none
  | some old =>
    match w with
    | .ok s => .err c (some s)
    | .throw x => .throw x (some old)
    | .ub => .ub

namespace Buf

/-- `walkToTopParent` after the time has been fixed, tf2/src/buffer_core.cpp:341-512. -/
def walkAtT [Rigid X] (R : Render) (b : Buf X) (f : Accum X A) (a : A) (t : Time) (target source : Nat)
    (e : Option Name) : WalkT A :=
  match b.walkSourceT R f t target maxGraphDepth source a [] (e.map fun _ => []) with
  | .ub => .ub
  | .threw => .throw .runtime e
  | .tooDeep => .say .lookup (fun _ => b.loopText) e                             -- 383-394
  | .early a chain => .done a chain e
  | .exit top extrap a chain loc =>
    match b.walkTargetT R f t source top maxGraphDepth target a [] e with
    | .ub => .ub
    | .threw e => .throw .runtime e
    | .tooDeep e => .say .lookup (fun _ => b.loopText) e                         -- 445-456
    | .extrap e => .say .extrapolation (fun old => b.whenLookingUp old source target) e  -- 414-424
    | .early a rev e => .done a rev.reverse e
    | .exit frame a rev e =>
      if frame = top then
        match pruneChain chain (rev ++ [frame]) with
        | some ch => .done (f.finalize .fullPath t a) ch e
        | none => .ub
      else if extrap then                                                        -- 461-472
        .say .extrapolation (fun _ => b.whenLookingUp (loc.getD []) source target) e
      else .say .connectivity (fun _ => b.connectivityText source target) e      -- 474-475

/-- `getLatestCommonTime`, tf2/src/buffer_core.cpp:999-1166. -/
def latestCommonTimeT [Rigid X] (b : Buf X) (target source : Nat) (e : Option Name) : LctT :=
  if source = 0 ∨ target = 0 then .err .lookup e                    -- 1002: no text
  else if source = target then
    match b.getFrame source with
    | some c => .ok c.latestStamp e
    | none => .ok 0 e
  else match b.lctSource target maxGraphDepth source TIME_MAX [] with
    | .ub => .ub
    | .tooDeep => .say .lookup b.loopText e                         -- 1061-1072
    | .early t => .ok t e
    | .exit lct =>
      match b.lctTarget source lct maxGraphDepth target TIME_MAX with
      | .ub => .ub
      | .tooDeep => .say .lookup b.loopText e                       -- 1121-1132
      | .early t => .ok t e
      | .exit 0 _ => .say .connectivity (b.connectivityText source target) e  -- 1135-1139
      | .exit (p + 1) common => .ok (unMax (lctJoin (p + 1) lct common)) e

/-- `walkToTopParent`, tf2/src/buffer_core.cpp:316-512. -/
def walkT [Rigid X] (R : Render) (b : Buf X) (f : Accum X A) (a : A) (t : Time) (target source : Nat)
    (e : Option Name) : WalkT A :=
  if source = target then .done (f.finalize .identity t a) [] e
  else if t = 0 then
    match b.latestCommonTimeT target source e with
    | .ub => .ub
    | .err c e => .err c e
    | .throw x e => .throw x e
    | .ok t' e => b.walkAtT R f a t' target source e
  else b.walkAtT R f a t target source e

end Buf

/-- Outcome of a call that throws with a text (`what()`). -/
inductive TextRes (α : Type) where
  | ok (v : α)
  | throw (x : Exc) (what : Name)
  | ub
deriving DecidableEq

/-- Outcome of a call with an `error_msg` pointer: the returned value, or an exception, with the
string after the call. -/
inductive Spoken (α : Type) where
  | ok (v : α) (e : Option Name)
  | throw (x : Exc) (e : Option Name)
  | ub
deriving DecidableEq

namespace Buf

/-- `validateFrameId(function_name_arg, frame_id)`, tf2/src/buffer_core.cpp:142-167.  (`ss.str().c_str()`
cuts the text at a NUL.) -/
def validateFrameIdT (b : Buf X) (fn n : Name) : TextRes Nat :=
  if n = [] then
    .throw .invalidArgument (cstr ("Invalid argument passed to ".toList ++ fn ++
      " in tf2 frame_ids cannot be empty".toList))
  else if startsWithSlash n then
    .throw .invalidArgument (cstr ("Invalid argument \"".toList ++ n ++ "\" passed to ".toList ++ fn ++
      " in tf2 frame_ids cannot start with a '/' like: ".toList))
  else match b.lookupFrameNumber n with
    | 0 => .throw .lookup (cstr ("\"".toList ++ n ++ "\" passed to ".toList ++ fn ++
        " does not exist. ".toList))
    | i + 1 => .ok (i + 1)

/-- `lookupTransform(target, source, time)`, tf2/src/buffer_core.cpp:595-648, with the text of the
exception.  An exception thrown inside the walk that is not one of its return codes passes through. -/
def lookupTransformT [Rigid X] (R : Render) (b : Buf X) (target source : Name) (t : Time) :
    TextRes (Msg X) :=
  if target = source then
    .ok { parent := target, child := source, xf := Rigid.one
          stamp :=
            if t = 0 then
              match b.getFrame (b.lookupFrameNumber target) with
              | some c => c.latestStamp
              | none => t
            else t }
  else match b.validateFrameIdT "lookupTransform argument target_frame".toList target with
    | .throw x w => .throw x w
    | .ub => .ub
    | .ok tid =>
      match b.validateFrameIdT "lookupTransform argument source_frame".toList source with
      | .throw x w => .throw x w
      | .ub => .ub
      | .ok sid =>
        match b.walkT R transformAccum TAcc.init t tid sid (some []) with
        | .ub => .ub
        | .throw x _ => .throw x R.range
        | .err c e => .throw (codeExc c) (e.getD [])
        | .done a _ _ => .ok { parent := target, child := source, stamp := a.time, xf := a.result }

/-- `lookupTransform(target, target_time, source, source_time, fixed)`,
tf2/src/buffer_core.cpp:651-673, with the text of the exception. -/
def lookupTransform5T [Rigid X] (R : Render) (b : Buf X) (target : Name) (ttime : Time) (source : Name)
    (stime : Time) (fixed : Name) : TextRes (Msg X) :=
  match b.validateFrameIdT "lookupTransform argument target_frame".toList target with
  | .throw x w => .throw x w
  | .ub => .ub
  | .ok _ =>
    match b.validateFrameIdT "lookupTransform argument source_frame".toList source with
    | .throw x w => .throw x w
    | .ub => .ub
    | .ok _ =>
      match b.validateFrameIdT "lookupTransform argument fixed_frame".toList fixed with
      | .throw x w => .throw x w
      | .ub => .ub
      | .ok _ =>
        match b.lookupTransformT R fixed source stime with
        | .throw x w => .throw x w
        | .ub => .ub
        | .ok m1 =>
          match b.lookupTransformT R target fixed ttime with
          | .throw x w => .throw x w
          | .ub => .ub
          | .ok m2 =>
            .ok { parent := target, child := source, stamp := m2.stamp, xf := Rigid.mulMsg m2.xf m1.xf }

/-- `canTransformNoLock` for two known frames (its branch for id 0, 762-779, is not reached from the
functions below), tf2/src/buffer_core.cpp:781-794. -/
def canTransformNoLockT [Rigid X] (R : Render) (b : Buf X) (tid sid : Nat) (t : Time) (e : Option Name) :
    Spoken Bool :=
  if tid = sid then .ok true e
  else match b.walkT R canAccum () t tid sid e with
    | .done _ _ e => .ok true e
    | .err _ e => .ok false e
    | .throw x e => .throw x e
    | .ub => .ub

/-- The text of the three-argument `canTransform` for unknown frames, tf2/src/buffer_core.cpp:821-836:
appended to what the string holds. -/
def unknownText (target source : Name) (tid sid : Nat) : Name :=
  (if tid = 0 then "canTransform: target_frame ".toList ++ target ++ " does not exist.".toList else []) ++
  (if sid = 0 then
    (if tid = 0 then " ".toList else []) ++
      "canTransform: source_frame ".toList ++ source ++ " does not exist.".toList
   else [])

/-- `canTransform(target, source, time, error_msg)`, tf2/src/buffer_core.cpp:803-840. -/
def canTransformT [Rigid X] (R : Render) (b : Buf X) (target source : Name) (t : Time)
    (e : Option Name) : Spoken Bool :=
  if target = source then .ok true e
  else if warnFrameId target then .ok false e
  else if warnFrameId source then .ok false e
  else
    let tid := b.lookupFrameNumber target
    let sid := b.lookupFrameNumber source
    if tid = 0 ∨ sid = 0 then .ok false (e.map (· ++ unknownText target source tid sid))
    else b.canTransformNoLockT R tid sid t e

/-- `canTransform(target, target_time, source, source_time, fixed, error_msg)`,
tf2/src/buffer_core.cpp:842-886. -/
def canTransform5T [Rigid X] (R : Render) (b : Buf X) (target : Name) (ttime : Time) (source : Name)
    (stime : Time) (fixed : Name) (e : Option Name) : Spoken Bool :=
  if warnFrameId target then .ok false e
  else if warnFrameId source then .ok false e
  else if warnFrameId fixed then .ok false e
  else
    let tid := b.lookupFrameNumber target
    let sid := b.lookupFrameNumber source
    let fid := b.lookupFrameNumber fixed
    if tid = 0 ∨ sid = 0 ∨ fid = 0 then                             -- 860-885
      .ok false (e.map (· ++ unknownText target source tid sid ++
        (if fid = 0 then
          (if tid = 0 ∨ sid = 0 then " ".toList else []) ++
            "fixed_frame: ".toList ++ fixed ++ "does not exist.".toList
         else [])))
    else match b.canTransformNoLockT R tid fid ttime e with         -- 886
      | .ok true e => b.canTransformNoLockT R fid sid stime e
      | r => r

end Buf

/-- tf2_ros `Buffer::canTransform(..., timeout, errstr)` around the last call, tf2_ros/src/buffer.cpp:106-116,
122-126, 139-141: clears the string, calls `BufferCore::canTransform` (`last`), appends the
time taken.  The dedicated thread is present; the polling before it (no pointer) is in `Model/Ros.lean`.
`took` and `timeout` are the numbers as streamed. -/
def rosCanTransformT (last : Option Name → Spoken Bool) (took timeout : Name) (e : Option Name) :
    Spoken Bool :=
  match last (e.map fun _ => []) with
  | .ok v e => .ok v (e.map (· ++ ". canTransform returned after ".toList ++ took ++ " timeout was ".toList ++
      timeout ++ ".".toList))
  | .throw x e => .throw x e
  | .ub => .ub

end Tf2
