import Verif.Model.BufferCore

/-!
# Threads and `frame_mutex_`

The functions of `BufferCore` that work on the frame table, as programs of single accesses to the shared
members, run by any number of threads under any scheduler.  Memory is sequentially consistent.  What a
function does between two accesses (arithmetic, error texts) is part of the next access.  The mutexes of
requests and callbacks are in `Model/Locks.lean`; `setTransform` ends here where the frame mutex has been
released (its result is decided then; `testTransformableRequests` follows in the code).
-/
namespace Tf2

/-! ### Programs -/

/-- Crit that works on shared memory `σ` and ends with a value. -/
inductive Crit (σ α : Type) where
  | ret (a : α)
  | step (f : σ → σ) (k : σ → Crit σ α)      -- one access: the memory changes by `f`, what was read decides how to go on

variable {σ ρ α β ω X : Type}

namespace Crit

/-- Sequencing. -/
def bind (c : Crit σ α) (k : α → Crit σ β) : Crit σ β :=
  match c with
  | .ret a => k a
  | .step f g => .step f (fun s => (g s).bind k)

/-- Runs the code without interruption. -/
def run : Crit σ α → σ → σ × α
  | .ret a, s => (s, a)
  | .step f k, s => (k s).run (f s)

/-- One read. -/
def read (g : σ → α) : Crit σ α := .step id (fun s => .ret (g s))

/-- One write. -/
def write (f : σ → σ) : Crit σ Unit := .step f (fun _ => .ret ())

end Crit

/-- What a thread does: accesses to the memory, operations on the one mutex, reads without the mutex. -/
inductive Prog (σ ρ : Type) where
  | ret (r : ρ)
  | acq (k : Prog σ ρ)
  | rel (k : Prog σ ρ)
  | step (f : σ → σ) (k : σ → Prog σ ρ)
  | peek (k : σ → Prog σ ρ)

/-- Crit followed by a program. -/
def Crit.into (c : Crit σ α) (k : α → Prog σ ρ) : Prog σ ρ :=
  match c with
  | .ret a => k a
  | .step f g => .step f (fun s => (g s).into k)

/-- A scope with a `scoped_lock`. -/
def Prog.locked (c : Crit σ α) (k : α → Prog σ ρ) : Prog σ ρ := .acq (c.into (fun a => .rel (k a)))

/-! ### Scheduling -/

/-- Memory, owner of the mutex, program of each thread that is inside a call. -/
structure Conc (σ ρ : Type) where
  mem : σ
  owner : Option Nat
  thr : Nat → Option (Prog σ ρ)

/-- Changes the program of one thread. -/
def setThr (thr : Nat → Option (Prog σ ρ)) (t : Nat) (p : Option (Prog σ ρ)) : Nat → Option (Prog σ ρ) :=
  fun u => if u = t then p else thr u

/-- What is recorded of an execution: a call begins; a thread acquires the mutex; a thread reads without holding
it, while it was held or not; a call returns. -/
inductive CEv (ω ρ : Type) where
  | inv (t : Nat) (op : ω)
  | acq (t : Nat)
  | peek (t : Nat) (held : Bool)
  | res (t : Nat) (r : ρ)
deriving DecidableEq, Repr

/-- A step of the scheduler: a thread outside of a call begins one; a thread makes its next step (nothing happens
if it has to wait). -/
inductive COp (ω : Type) where
  | call (t : Nat) (op : ω)
  | go (t : Nat)
deriving DecidableEq, Repr

/-- One step. -/
def Conc.step (code : ω → Prog σ ρ) (s : Conc σ ρ) : COp ω → Conc σ ρ × List (CEv ω ρ)
  | .call t op =>
    match s.thr t with
    | some _ => (s, [])
    | none => ({ s with thr := setThr s.thr t (some (code op)) }, [.inv t op])
  | .go t =>
    match s.thr t with
    | none => (s, [])
    | some (.ret r) => ({ s with thr := setThr s.thr t none }, [.res t r])
    | some (.acq k) =>
      if s.owner.isSome then (s, [])
      else ({ s with owner := some t, thr := setThr s.thr t (some k) }, [.acq t])
    | some (.rel k) => ({ s with owner := none, thr := setThr s.thr t (some k) }, [])
    | some (.step f k) => ({ s with mem := f s.mem, thr := setThr s.thr t (some (k s.mem)) }, [])
    | some (.peek k) => ({ s with thr := setThr s.thr t (some (k s.mem)) }, [.peek t s.owner.isSome])

/-- An execution. -/
def Conc.run (code : ω → Prog σ ρ) : List (COp ω) → Conc σ ρ → List (CEv ω ρ) → Conc σ ρ × List (CEv ω ρ)
  | [], s, evs => (s, evs)
  | op :: r, s, evs => Conc.run code r (s.step code op).1 (evs ++ (s.step code op).2)

/-- At the beginning no thread is inside a call. -/
def Conc.init (m : σ) : Conc σ ρ := { mem := m, owner := none, thr := fun _ => none }

/-! ### The functions of `BufferCore` -/

section
variable {A : Type}

/-- `lookupOrInsertFrameNumber`, tf2/src/buffer_core.cpp:912-927: find; push a null pointer; enter the name in the
map; push the name. -/
def lookupOrInsertC (n : Name) : Crit (Buf X) Nat :=
  .step id fun b =>
    match b.frameIDs n with
    | some i => .ret i
    | none =>
      .step (fun b => { b with frames := b.frames ++ [none] }) fun b =>
      .step (fun b' => { b' with frameIDs := fun m => if m = n then some b.frames.length else b'.frameIDs m }) fun _ =>
      .step (fun b => { b with frameIDsReverse := b.frameIDsReverse ++ [n] }) fun _ =>
      .ret b.frames.length

/-- `frame->insertData(...)` and the outcome, buffer_core.cpp:273-281: the cache at `cid` is changed in place. -/
def insertC (cid pid : Nat) (m : Msg X) (auth : Name) : Crit (Buf X) Buf.SetRes :=
  .step (fun b =>
      match b.getFrame cid with
      | none => b
      | some c => { b with frames := b.frames.set cid (some (c.insert ⟨m.stamp, pid, cid, m.xf⟩).1) }) fun b =>
    match b.getFrame cid with
    | none => .ret .ub
    | some c =>
      match (c.insert ⟨m.stamp, pid, cid, m.xf⟩).2 with
      | .accepted =>
        .step (fun b => { b with authority := fun i => if i = cid then some auth else b.authority i }) fun _ => .ret .accepted
      | .tooOld => .ret .tooOld
      | .repeated => .ret .repeated
      | .threw => .ret .threw

/-- The critical section of `setTransform`, buffer_core.cpp:265-282. -/
def setC (m : Msg X) (auth : Name) (isStatic : Bool) : Crit (Buf X) Buf.SetRes :=
  (lookupOrInsertC m.child).bind fun cid =>
    .step id fun b =>
      match b.getFrame cid with
      | some _ => (lookupOrInsertC m.parent).bind fun pid => insertC cid pid m auth
      | none =>
        .step (fun b => { b with frames := b.frames.set cid (some (b.newCache isStatic)) }) fun _ =>
          (lookupOrInsertC m.parent).bind fun pid => insertC cid pid m auth

/-- The loop of `clear`, buffer_core.cpp:191-198: one cache after the other. -/
def clearLoopC : Nat → Nat → Crit (Buf X) Unit
  | 0, _ => .ret ()
  | k + 1, i =>
    .step (fun b => { b with frames := b.frames.modify i (Option.map Cache.clearList) }) fun _ => clearLoopC k (i + 1)

/-- `clear`, buffer_core.cpp:185-200. -/
def clearC : Crit (Buf X) Unit := .step id fun b => clearLoopC (b.frames.length - 1) 1

/-- First loop of `walkToTopParent`, buffer_core.cpp:349-395: one access per frame visited. -/
def walkSourceC (f : Accum X A) (t : Time) (target : Nat) : (k : Nat) → (frame : Nat) → A → List Nat → Crit (Buf X) (Loop1 A)
  | k, frame, a, chain =>
    if frame = 0 then .ret (.exit frame false a chain)
    else
      .step id fun b =>
      match b.getFrame frame with
      | none => .ret (.exit frame false a (chain ++ [frame]))
      | some c =>
        match f.gather c t a with
        | (.ub, _) => .ret .ub
        | (.id 0, a) => .ret (.exit frame true a (chain ++ [frame]))
        | (.id (p + 1), a) =>
          if frame = target then .ret (.early (f.finalize .targetParentOfSource t a) (chain ++ [frame]))
          else
            match k with
            | 0 => .ret .tooDeep
            | k + 1 => walkSourceC f t target k (p + 1) (f.accum true a) (chain ++ [frame])

/-- Second loop of `walkToTopParent`, buffer_core.cpp:402-457. -/
def walkTargetC (f : Accum X A) (t : Time) (source top : Nat) : (k : Nat) → (frame : Nat) → A → List Nat → Crit (Buf X) (Loop2 A)
  | k, frame, a, rev =>
    if frame = top then .ret (.exit frame a rev)
    else
      .step id fun b =>
      match b.getFrame frame with
      | none => .ret (.exit frame a (rev ++ [frame]))
      | some c =>
        match f.gather c t a with
        | (.ub, _) => .ret .ub
        | (.id 0, _) => .ret .extrap
        | (.id (p + 1), a) =>
          if frame = source then .ret (.early (f.finalize .sourceParentOfTarget t a) (rev ++ [frame]))
          else
            match k with
            | 0 => .ret .tooDeep
            | k + 1 => walkTargetC f t source top k (p + 1) (f.accum false a) (rev ++ [frame])

/-- First loop of `getLatestCommonTime`, buffer_core.cpp:1023-1073. -/
def lctSourceC (target : Nat) : (k : Nat) → (frame : Nat) → (common : Time) → List (Time × Nat) → Crit (Buf X) Lct1
  | k, frame, common, lct =>
    if frame = 0 then .ret (.exit lct)
    else .step id fun b =>
      match b.getFrame frame with
      | none => .ret (.exit lct)
      | some c =>
        match c.latestTimeAndParent with
        | none => .ret .ub
        | some (_, 0) => .ret (.exit lct)
        | some (lt, p + 1) =>
          if p + 1 = target then .ret (.early (unMax (minNonzero lt common)))
          else match k with
            | 0 => .ret .tooDeep
            | k + 1 => lctSourceC target k (p + 1) (minNonzero lt common) (lct ++ [(lt, p + 1)])

/-- Second loop of `getLatestCommonTime`, buffer_core.cpp:1080-1133. -/
def lctTargetC (source : Nat) (lct : List (Time × Nat)) : (k : Nat) → (frame : Nat) → (common : Time) → Crit (Buf X) Lct2
  | k, frame, common =>
    .step id fun b =>
    match b.getFrame frame with
    | none => .ret (.exit 0 common)
    | some c =>
      match c.latestTimeAndParent with
      | none => .ret .ub
      | some (_, 0) => .ret (.exit 0 common)
      | some (lt, p + 1) =>
        if lct.any (fun e => e.2 = p + 1) then .ret (.exit (p + 1) (minNonzero lt common))
        else if p + 1 = source then .ret (.early (unMax (minNonzero lt common)))
        else match k with
          | 0 => .ret .tooDeep
          | k + 1 => lctTargetC source lct k (p + 1) (minNonzero lt common)

/-- `getLatestCommonTime`, buffer_core.cpp:999-1166. -/
def lctC (target source : Nat) : Crit (Buf X) LctRes :=
  if source = 0 ∨ target = 0 then .ret (.err .lookup)
  else if source = target then
    .read fun b => match b.getFrame source with
      | some c => .ok c.latestStamp
      | none => .ok 0
  else (lctSourceC target maxGraphDepth source TIME_MAX []).bind fun
    | .ub => .ret .ub
    | .tooDeep => .ret (.err .lookup)
    | .early t => .ret (.ok t)
    | .exit lct => (lctTargetC source lct maxGraphDepth target TIME_MAX).bind fun
      | .ub => .ret .ub
      | .tooDeep => .ret (.err .lookup)
      | .early t => .ret (.ok t)
      | .exit 0 _ => .ret (.err .connectivity)
      | .exit (p + 1) common => .ret (.ok (unMax (Buf.lctJoin (p + 1) lct common)))

/-- `walkToTopParent` after the time has been fixed, buffer_core.cpp:341-512. -/
def walkAtC (f : Accum X A) (a : A) (t : Time) (target source : Nat) : Crit (Buf X) (WalkRes A) :=
  (walkSourceC f t target maxGraphDepth source a []).bind fun
    | .ub => .ret .ub
    | .tooDeep => .ret (.err .lookup)
    | .early a chain => .ret (.done a chain)
    | .exit top extrap a chain => (walkTargetC f t source top maxGraphDepth target a []).bind fun
      | .ub => .ret .ub
      | .tooDeep => .ret (.err .lookup)
      | .extrap => .ret (.err .extrapolation)
      | .early a rev => .ret (.done a rev.reverse)
      | .exit frame a rev =>
        .ret (if frame = top then
          match pruneChain chain (rev ++ [frame]) with
          | some ch => .done (f.finalize .fullPath t a) ch
          | none => .ub
        else if extrap then .err .extrapolation else .err .connectivity)

/-- `walkToTopParent`, buffer_core.cpp:316-512. -/
def walkC (f : Accum X A) (a : A) (t : Time) (target source : Nat) : Crit (Buf X) (WalkRes A) :=
  if source = target then .ret (.done (f.finalize .identity t a) [])
  else if t = 0 then (lctC target source).bind fun
    | .ub => .ret .ub
    | .err c => .ret (.err c)
    | .ok t' => walkAtC f a t' target source
  else walkAtC f a t target source

/-- Three-argument `lookupTransform`, buffer_core.cpp:595-648. -/
def lookupC [Rigid X] (target source : Name) (t : Time) : Crit (Buf X) (Res (Msg X)) :=
  if target = source then
    if t = 0 then
      (Crit.read fun b => b.lookupFrameNumber target).bind fun i =>
      .read fun b => .ok { parent := target, child := source, xf := Rigid.one
                           stamp := match b.getFrame i with
                             | some c => c.latestStamp
                             | none => t }
    else .ret (.ok { parent := target, child := source, xf := Rigid.one, stamp := t })
  else (Crit.read fun b => b.validateFrameId target).bind fun
    | .throw e => .ret (.throw e)
    | .ub => .ret .ub
    | .ok tid => (Crit.read fun b => b.validateFrameId source).bind fun
      | .throw e => .ret (.throw e)
      | .ub => .ret .ub
      | .ok sid => (walkC transformAccum TAcc.init t tid sid).bind fun
        | .ub => .ret .ub
        | .err c => .ret (.throw (Buf.codeExc c))
        | .done a _ => .ret (.ok { parent := target, child := source, stamp := a.time, xf := a.result })

/-- `canTransformNoLock`, buffer_core.cpp:759-794. -/
def canNoLockC (tid sid : Nat) (t : Time) : Crit (Buf X) (Res Bool) :=
  if tid = 0 ∨ sid = 0 then .ret (.ok false)
  else if tid = sid then .ret (.ok true)
  else (walkC canAccum () t tid sid).bind fun
    | .done _ _ => .ret (.ok true)
    | .err _ => .ret (.ok false)
    | .ub => .ret .ub

/-- The critical section of `canTransform`, buffer_core.cpp:815-840. -/
def canC (target source : Name) (t : Time) : Crit (Buf X) (Res Bool) :=
  (Crit.read fun b => b.lookupFrameNumber target).bind fun tid =>
  (Crit.read fun b => b.lookupFrameNumber source).bind fun sid =>
  if tid = 0 ∨ sid = 0 then .ret (.ok false) else canNoLockC tid sid t

/-- The critical section of the five-argument `canTransform`, buffer_core.cpp:853-886. -/
def can5C (target : Name) (ttime : Time) (source : Name) (stime : Time) (fixed : Name) : Crit (Buf X) (Res Bool) :=
  (Crit.read fun b => b.lookupFrameNumber target).bind fun tid =>
  (Crit.read fun b => b.lookupFrameNumber source).bind fun sid =>
  (Crit.read fun b => b.lookupFrameNumber fixed).bind fun fid =>
  if tid = 0 ∨ sid = 0 ∨ fid = 0 then .ret (.ok false)
  else (canNoLockC tid fid ttime).bind fun
    | .ok true => canNoLockC fid sid stime
    | r => .ret r

end

/-- `_getParent`, buffer_core.cpp:1374-1390. -/
def getParentC (n : Name) (t : Time) : Crit (Buf X) (Res (Option Name)) :=
  (Crit.read fun b => b.lookupFrameNumber n).bind fun i =>
  .step id fun b =>
    match b.getFrame i with
    | none => .ret (.ok none)
    | some c =>
      match c.getParent t with
      | .ub => .ret .ub
      | .id 0 => .ret (.ok none)
      | .id (p + 1) => .read fun b =>
        match b.lookupFrameString (p + 1) with
        | .ok s => .ok (some s)
        | .throw e => .throw e
        | .ub => .ub

/-- The loop of `_getFrameStrings`, buffer_core.cpp:1401-1404; the size is read once. -/
def namesLoopC : Nat → Nat → List Name → Crit (Buf X) (List Name)
  | 0, _, acc => .ret acc
  | k + 1, i, acc => .step id fun b => namesLoopC k (i + 1) (acc ++ (b.frameIDsReverse[i]?).toList)

/-- `_getFrameStrings`, buffer_core.cpp:1392-1406. -/
def namesC : Crit (Buf X) (List Name) := .step id fun b => namesLoopC (b.frameIDsReverse.length - 1) 1 []

/-- A call of a function of `BufferCore`. -/
inductive BCall (X : Type) where
  | set (m : Msg X) (auth : Name) (isStatic : Bool)
  | clear
  | lookup (target source : Name) (t : Time)
  | can (target source : Name) (t : Time)
  | can5 (target : Name) (ttime : Time) (source : Name) (stime : Time) (fixed : Name)
  | exists_ (n : Name)
  | parent (n : Name) (t : Time)
  | names
  | lookup5 (target : Name) (ttime : Time) (source : Name) (stime : Time) (fixed : Name)
deriving DecidableEq, Repr

/-- What a call returns (or throws). -/
inductive Ans (X : Type) where
  | set (r : Buf.SetRes)
  | unit
  | msg (r : Res (Msg X))
  | bool (r : Res Bool)
  | name (r : Res (Option Name))
  | names (l : List Name)
deriving DecidableEq, Repr

/-- The second half of the five-argument `lookupTransform`, buffer_core.cpp:661-672. -/
def lookup5Rest [Rigid X] (target : Name) (ttime : Time) (source : Name) (stime : Time) (fixed : Name) : Prog (Buf X) (Ans X) :=
  .locked (lookupC fixed source stime) fun
    | .throw e => .ret (.msg (.throw e))
    | .ub => .ret (.msg .ub)
    | .ok m1 =>
      .locked (lookupC target fixed ttime) fun
        | .throw e => .ret (.msg (.throw e))
        | .ub => .ret (.msg .ub)
        | .ok m2 => .ret (.msg (.ok { parent := target, child := source, stamp := m2.stamp, xf := Rigid.mulMsg m2.xf m1.xf }))

/-- A check of an argument without the mutex, buffer_core.cpp:657-659. -/
def peekValid (n : Name) (k : Prog (Buf X) (Ans X)) : Prog (Buf X) (Ans X) :=
  .peek fun b =>
    match b.validateFrameId n with
    | .throw e => .ret (.msg (.throw e))
    | .ub => .ret (.msg .ub)
    | .ok _ => k

/-- The program of a call: what happens before the mutex is taken, the critical section, the result. -/
def BCall.code [Rigid X] : BCall X → Prog (Buf X) (Ans X)
  | .set m auth st =>                                                    -- buffer_core.cpp:202-287
    if Buf.msgValid (Buf.stripMsg m) then .locked (setC (Buf.stripMsg m) auth st) fun r => .ret (.set r)
    else .ret (.set .invalid)
  | .clear => .locked clearC fun _ => .ret .unit                         -- 185-200
  | .lookup tg src t => .locked (lookupC tg src t) fun r => .ret (.msg r)  -- 595-648
  | .can tg src t =>                                                     -- 803-840
    if tg = src then .ret (.bool (.ok true))
    else if Buf.warnFrameId tg then .ret (.bool (.ok false))
    else if Buf.warnFrameId src then .ret (.bool (.ok false))
    else .locked (canC tg src t) fun r => .ret (.bool r)
  | .can5 tg tt src st fx =>                                             -- 842-886
    if Buf.warnFrameId tg then .ret (.bool (.ok false))
    else if Buf.warnFrameId src then .ret (.bool (.ok false))
    else if Buf.warnFrameId fx then .ret (.bool (.ok false))
    else .locked (can5C tg tt src st fx) fun r => .ret (.bool r)
  | .exists_ n => .locked (Crit.read fun b => b.frameExists n) fun r => .ret (.bool (.ok r))   -- 1368-1372
  | .parent n t => .locked (getParentC n t) fun r => .ret (.name r)
  | .names => .locked namesC fun l => .ret (.names l)
  | .lookup5 tg tt src st fx =>                                          -- 651-674
    peekValid tg (peekValid src (peekValid fx (lookup5Rest tg tt src st fx)))

end Tf2
