import Verif.Model.RequestThreads
import Verif.Spec.Requests

/-!
# Specification vocabulary for requests with several threads
-/
namespace Tf2.Par

variable {X : Type}

/-- Thread `u` has stored a transform and not yet finished testing the requests. -/
def Sys.Setting (s : Sys X) (u : Nat) : Prop :=
  s.thr u = some .owing ∨ (∃ t, s.thr u = some (.look t)) ∨ (∃ t r, s.thr u = some (.found t r)) ∨
    ∃ t r, s.thr u = some (.young t r)

/-- A transform was accepted. -/
def Stored (evs : List Ev) : Prop := ∃ u, Ev.stored u ∈ evs

/-- The buffer was changed by something that does not test the requests, or the test was broken off by an exception. -/
def Ev.spoils : Ev → Bool
  | .cleared _ => true
  | .touched _ => true
  | .testThrew _ => true
  | _ => false

/-- Whenever that happened, a transform was accepted later. -/
def Settled (evs : List Ev) : Prop := ∀ e1 x e2, evs = e1 ++ x :: e2 → x.spoils = true → Stored e2

/-- The call of `addTransformableRequest` by thread `t` that returned `h`: it began to look after `before`, `during` happened until the
request was pending, `after` since. -/
def AddedBy (evs : List Ev) (t h cb : Nat) (target source : Name) (time : Time) (before during after : List Ev) : Prop :=
  evs = before ++ .asked t :: during ++ .added t h cb target source time :: after ∧ Ev.asked t ∉ during

/-- Neither transformable nor too old. -/
def Unanswerable (b : Buf X) (target source : Name) (time : Time) : Prop :=
  b.canTransform target source time = .ok false ∧ ¬ TooOld b target source time

/-- How often a callback was called for a handle. -/
def calls (h : Nat) (evs : List Ev) : Nat :=
  evs.countP (fun | .invoked _ _ h' _ _ => h' = h | .dangling _ _ h' => h' = h | _ => false)

/-- How often a handle was given to a pending request. -/
def gives (h : Nat) (evs : List Ev) : Nat := evs.countP (fun | .added _ h' _ _ _ _ => h' = h | _ => false)

/-- How often a request with a handle was answered and its callback was not registered. -/
def drops (h : Nat) (evs : List Ev) : Nat := evs.countP (fun | .dropped _ h' => h' = h | _ => false)

/-- How many requests with a handle are pending. -/
def pends (h : Nat) (reqs : List Request) : Nat := reqs.countP (fun r => r.handle == h)

/-- The requests with this handle were not cancelled (`cancelTransformableRequest` compares 32 bits), nor was a callback removed that
one of them was made with. -/
def Kept (h : Nat) (evs : List Ev) : Prop :=
  (∀ t k, Ev.cancelled t k ∈ evs → k % 2 ^ 32 ≠ h) ∧
    ∀ t cb, Ev.removedCb t cb ∈ evs → ∀ t' target source time, Ev.added t' h cb target source time ∉ evs

/-- The handles given to pending requests, in order. -/
def handles (evs : List Ev) : List Nat := evs.filterMap (fun | .added _ h _ _ _ _ => some h | _ => none)

/-- How often `addTransformableRequest` began to look. -/
def asks (evs : List Ev) : Nat := evs.countP (fun | .asked _ => true | _ => false)

/-- A call of `addTransformableRequest` by thread `t` ends. -/
def Ev.endsAsk (t : Nat) : Ev → Bool
  | .added u _ _ _ _ _ => u == t
  | .immediate u => u == t
  | .never u => u == t
  | .addThrew u => u == t
  | _ => false

/-- No two threads are in `addTransformableRequest` at the same time: a call that begins to look has ended when the next one does. -/
def OneAtATime (evs : List Ev) : Prop :=
  ∀ e1 t e2 t' e3, evs = e1 ++ .asked t :: e2 ++ .asked t' :: e3 → ∃ x ∈ e2, x.endsAsk t = true

/-- The buffer and its requests as the sequential model (`RBuf`) has them; no callback is being called. -/
def Sys.seq (s : Sys X) : RBuf X :=
  { buf := s.buf, cbs := s.cbs, cbCounter := s.cbCounter, reqs := s.reqs, reqCounter := s.reqCounter, inflight := [] }

/-- The system with the buffer and the requests of the sequential model; the threads are where they were, the mutex is free. -/
def Sys.after (s : Sys X) (r : RBuf X) : Sys X :=
  { buf := r.buf, cbs := r.cbs, cbCounter := r.cbCounter, reqs := r.reqs, reqCounter := r.reqCounter, owner := none, thr := s.thr }

/-- What the caller of a function learns. -/
inductive Ret where
  | accepted | invalid | refused | threw
  | registered (cb : Nat)
  | added (h cb : Nat) (target source : Name) (time : Time)
  | immediate | never
  | cancelled (h : Nat)
  | removed (cb : Nat)
  | hangs | undefined
deriving DecidableEq, Repr

/-- ... from what happens, -/
def Ev.ret : Ev → Option Ret
  | .stored _ => some .accepted
  | .invalid _ => some .invalid
  | .touched _ => some .refused
  | .testThrew _ => some .threw
  | .addThrew _ => some .threw
  | .registered _ cb => some (.registered cb)
  | .registerHangs _ => some .hangs
  | .added _ h cb tg src tm => some (.added h cb tg src tm)
  | .immediate _ => some .immediate
  | .never _ => some .never
  | .cancelled _ h => some (.cancelled h)
  | .removedCb _ cb => some (.removed cb)
  | .undefined _ => some .undefined
  | _ => none

/-- ... and in the sequential model. -/
def retOf : REv → Option Ret
  | .setDone .accepted => some .accepted
  | .setDone .invalid => some .invalid
  | .setDone _ => some .refused
  | .testThrew _ => some .threw
  | .addThrew => some .threw
  | .registered cb => some (.registered cb)
  | .registerHangs => some .hangs
  | .added h cb tg src tm => some (.added h cb tg src tm)
  | .immediate _ _ _ => some .immediate
  | .never _ _ _ => some .never
  | .cancelled h => some (.cancelled h)
  | .removedCb cb => some (.removed cb)
  | .undefined => some .undefined
  | _ => none

/-- A callback was called. -/
def Ev.calledBack : Ev → Option (Nat × Nat × Name × Name)
  | .invoked _ cb h tg src => some (cb, h, tg, src)
  | .dangling _ cb h => some (cb, h, [], [])
  | _ => none

end Tf2.Par
