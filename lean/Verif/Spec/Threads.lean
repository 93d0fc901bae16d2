import Verif.Model.Threads

/-!
# Atomic executions

A call of a thread-safe object seen from outside: it begins, has its whole effect at one instant, returns.
`Script` allows several such instants for one call; `Ser` is the object whose scripts are executed instant by
instant, without any mutex.
-/
namespace Tf2

variable {σ ρ ω X : Type}

deriving instance DecidableEq for Op

/-- What a call does, instant by instant: `atom f k` changes the state by `f`, and the state before the change
decides how to go on; `look` only reads. -/
inductive Script (σ ρ : Type) where
  | ret (r : ρ)
  | atom (f : σ → σ) (k : σ → Script σ ρ)
  | look (k : σ → Script σ ρ)

/-- The object: its state, and what each thread inside a call still has to do. -/
structure Ser (σ ρ : Type) where
  mem : σ
  thr : Nat → Option (Script σ ρ)

/-- Changes what one thread has to do. -/
def Ser.set (S : Ser σ ρ) (t : Nat) (q : Option (Script σ ρ)) : Nat → Option (Script σ ρ) :=
  fun u => if u = t then q else S.thr u

/-- One event.  A call that changes nothing and whose answer does not depend on the state may return without its
instant being recorded. -/
inductive Ser.Step (script : ω → Script σ ρ) : Ser σ ρ → CEv ω ρ → Ser σ ρ → Prop where
  | inv (S t op) : S.thr t = none → Ser.Step script S (.inv t op) ⟨S.mem, S.set t (some (script op))⟩
  | atom (S t f k) : S.thr t = some (.atom f k) →
      Ser.Step script S (.acq t) ⟨f S.mem, S.set t (some (k S.mem))⟩
  | look (S t k held) : S.thr t = some (.look k) →
      Ser.Step script S (.peek t held) ⟨S.mem, S.set t (some (k S.mem))⟩
  | res (S t r) : S.thr t = some (.ret r) → Ser.Step script S (.res t r) ⟨S.mem, S.set t none⟩
  | const (S t f k r) : S.thr t = some (.atom f k) → (∀ m, f m = m ∧ k m = .ret r) →
      Ser.Step script S (.res t r) ⟨S.mem, S.set t none⟩

/-- An execution of the object with the given events. -/
inductive Ser.Run (script : ω → Script σ ρ) : Ser σ ρ → List (CEv ω ρ) → Ser σ ρ → Prop where
  | nil (S) : Ser.Run script S [] S
  | snoc (S S' S'' evs e) : Ser.Run script S evs S' → Ser.Step script S' e S'' → Ser.Run script S (evs ++ [e]) S''

/-- At the beginning no thread is inside a call. -/
def Ser.init (m : σ) : Ser σ ρ := ⟨m, fun _ => none⟩

/-- A call with one instant. -/
def Script.one (f : σ → σ × ρ) : Script σ ρ := .atom (fun m => (f m).1) fun m => .ret (f m).2

/-- A check of a frame id at one instant. -/
def lookValid (n : Name) (k : Script (Buf X) (Ans X)) : Script (Buf X) (Ans X) :=
  .look fun b =>
    match b.validateFrameId n with
    | .throw e => .ret (.msg (.throw e))
    | .ub => .ret (.msg .ub)
    | .ok _ => k

/-- The second lookup of the five-argument `lookupTransform`, and the result. -/
def secondLeg [Rigid X] (tg : Name) (tt : Time) (src fx : Name) (m1 : Msg X) (b : Buf X) : Script (Buf X) (Ans X) :=
  match b.lookupTransform tg fx tt with
  | .throw e => .ret (.msg (.throw e))
  | .ub => .ret (.msg .ub)
  | .ok m2 => .ret (.msg (.ok { parent := tg, child := src, stamp := m2.stamp, xf := Rigid.mulMsg m2.xf m1.xf }))

/-- The first lookup of the five-argument `lookupTransform`. -/
def firstLeg [Rigid X] (tg : Name) (tt : Time) (src : Name) (st : Time) (fx : Name) (b : Buf X) : Script (Buf X) (Ans X) :=
  match b.lookupTransform fx src st with
  | .throw e => .ret (.msg (.throw e))
  | .ub => .ret (.msg .ub)
  | .ok m1 => .atom id (secondLeg tg tt src fx m1)

/-- The calls of a `BufferCore`, in terms of the sequential functions: one instant for each call, except for the
five-argument `lookupTransform`, which has three checks and two lookups. -/
def BCall.script [Rigid X] : BCall X → Script (Buf X) (Ans X)
  | .set m auth st => .one fun b => ((b.setTransform m auth st).1, .set (b.setTransform m auth st).2)
  | .clear => .one fun b => (b.clear, .unit)
  | .lookup tg src t => .one fun b => (b, .msg (b.lookupTransform tg src t))
  | .can tg src t => .one fun b => (b, .bool (b.canTransform tg src t))
  | .can5 tg tt src st fx => .one fun b => (b, .bool (b.canTransform5 tg tt src st fx))
  | .exists_ n => .one fun b => (b, .bool (.ok (b.frameExists n)))
  | .parent n t => .one fun b => (b, .name (b.getParent n t))
  | .names => .one fun b => (b, .names b.getFrameStrings)
  | .lookup5 tg tt src st fx =>
    lookValid tg (lookValid src (lookValid fx (.atom id (firstLeg tg tt src st fx))))

/-- Whether a call is the five-argument `lookupTransform`. -/
def BCall.fiveArg : BCall X → Bool
  | .lookup5 .. => true
  | _ => false

/-- The sequential answer of a call (of the five-argument lookup: if nothing happens in between). -/
def BCall.answer [Rigid X] (b : Buf X) : BCall X → Ans X
  | .set m auth st => .set (b.setTransform m auth st).2
  | .clear => .unit
  | .lookup tg src t => .msg (b.lookupTransform tg src t)
  | .can tg src t => .bool (b.canTransform tg src t)
  | .can5 tg tt src st fx => .bool (b.canTransform5 tg tt src st fx)
  | .exists_ n => .bool (.ok (b.frameExists n))
  | .parent n t => .name (b.getParent n t)
  | .names => .names b.getFrameStrings
  | .lookup5 tg tt src st fx => .msg (b.lookupTransform5 tg tt src st fx)

/-- A call that changes the buffer. -/
def BCall.change : BCall X → Option (Op X)
  | .set m auth st => some (.set m auth st)
  | .clear => some .clear
  | _ => none

/-- The call a thread is in after the events. -/
def callOf (t : Nat) : List (CEv (BCall X) (Ans X)) → Option (BCall X) → Option (BCall X)
  | [], c => c
  | .inv u op :: r, c => callOf t r (if u = t then some op else c)
  | .res u _ :: r, c => callOf t r (if u = t then none else c)
  | _ :: r, c => callOf t r c

/-- The changes in the order in which their calls acquired the mutex. -/
def changesOf (evs : List (CEv (BCall X) (Ans X))) : List (Op X) :=
  (List.range evs.length).filterMap fun (i : Nat) =>
    match evs[i]? with
    | some (.acq t) => (callOf t (evs.take i) none).bind BCall.change
    | _ => none

/-- The event is of thread `t`. -/
def CEv.of (t : Nat) : CEv ω ρ → Bool
  | .inv u _ => u = t
  | .acq u => u = t
  | .peek u _ => u = t
  | .res u _ => u = t

/-- The event begins or ends a call of thread `t`. -/
def CEv.ends (t : Nat) : CEv ω ρ → Bool
  | .inv u _ => u = t
  | .res u _ => u = t
  | _ => false

/-- What a call does to the buffer. -/
def BCall.effect [Rigid X] (op : BCall X) (b : Buf X) : Buf X := ((op.change).map b.step).getD b

/-- The five-argument lookup with its five accesses at five different states. -/
def fiveAnswer [Rigid X] (b1 b2 b3 b4 b5 : Buf X) (target : Name) (ttime : Time) (source : Name) (stime : Time)
    (fixed : Name) : Res (Msg X) :=
  match b1.validateFrameId target with
  | .throw e => .throw e
  | .ub => .ub
  | .ok _ =>
  match b2.validateFrameId source with
  | .throw e => .throw e
  | .ub => .ub
  | .ok _ =>
  match b3.validateFrameId fixed with
  | .throw e => .throw e
  | .ub => .ub
  | .ok _ =>
  match b4.lookupTransform fixed source stime with
  | .throw e => .throw e
  | .ub => .ub
  | .ok m1 =>
  match b5.lookupTransform target fixed ttime with
  | .throw e => .throw e
  | .ub => .ub
  | .ok m2 => .ok { parent := target, child := source, stamp := m2.stamp, xf := Rigid.mulMsg m2.xf m1.xf }

end Tf2
