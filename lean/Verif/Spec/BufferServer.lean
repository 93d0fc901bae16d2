import Verif.Model.BufferServer

/-!
# Specification vocabulary for the buffer server
-/
namespace Tf2

variable {X : Type}

/-- The goal an event is terminal for: succeeded, canceled, or abandoned because an exception left the
callback. -/
def SEv.resolves : SEv X → Option Nat
  | .succeeded id _ => some id
  | .canceled id => some id
  | .escaped id => some id
  | _ => none

/-- The goals with a terminal event, in order, with repetitions. -/
def resolved (evs : List (SEv X)) : List Nat := evs.filterMap SEv.resolves

/-- The goals whose callback has not returned. -/
def Server.inCallback (s : Server X) : List Nat := s.calls.map GCall.id

/-- The goals on the server's list. -/
def Server.listed (s : Server X) : List Nat := s.active.map Active.id

/-- A program with one buffer server. -/
def Server.history [Rigid X] (D : Duration) (now : Time) (ops : List (SOp X)) : Server X × List (SEv X) :=
  Server.run ops (Server.init D now) []

/-- The lookup a goal asks for, on one state of the buffer. -/
def Goal.lookup [Rigid X] (g : Goal) (b : Buf X) : Res (Msg X) :=
  if g.advanced then b.lookupTransform5 g.target g.ttime g.source g.stime g.fixed
  else b.lookupTransform g.target g.source g.stime

/-- The lookup a goal asks for when the buffer may change between the two lookups of the five-argument
version: the first on `b1`, the second on `b2`. -/
def Goal.lookupOver [Rigid X] (g : Goal) (b1 b2 : Buf X) : Res (Msg X) :=
  match g.look1 b1 with
  | .inl r => r
  | .inr m1 => g.look2 m1 b2

/-- The callback of goal `id` has begun and made no step. -/
def Untouched (s : Server X) (g : Goal) (id : Nat) : Prop := { id := id, goal := g, phase := .accepted } ∈ s.calls

/-- After the steps `p0` the callback of goal `id` makes its first step. -/
def FirstStep [Rigid X] (D : Duration) (now : Time) (g : Goal) (id : Nat) (p0 ops : List (SOp X)) : Prop :=
  ∃ op, p0 ++ [op] <+: ops ∧ Untouched (Server.history D now p0).1 g id ∧ ¬ Untouched (Server.history D now (p0 ++ [op])).1 g id

/-- The deadline of the goal: its timeout added to what the clock shows when its callback makes its first step. -/
def Deadline [Rigid X] (D : Duration) (now : Time) (g : Goal) (id : Nat) (e : Time) (ops : List (SOp X)) : Prop :=
  ∃ p0, FirstStep D now g id p0 ops ∧ timeAdd (Server.history D now p0).1.now g.timeout = some e

/-- After the steps `p` the goal's transform is available, or its deadline has been reached. -/
def Due [Rigid X] (D : Duration) (now : Time) (g : Goal) (id : Nat) (p : List (SOp X)) : Prop :=
  g.can (Server.history D now p).1.buf = .ok true ∨
  ∃ e, Deadline D now g id e p ∧ e ≤ (Server.history D now p).1.now

/-- A complete run of the timer callback: it starts with the first step, holds the mutex between, and
ends with the last. -/
def CompleteCheck [Rigid X] (s : Server X) (ops : List (SOp X)) : Prop :=
  s.check = none ∧ ∃ rest, ops = .checkStart :: rest ∧
    (∀ p q, rest = p ++ q → q ≠ [] → (Server.run (.checkStart :: p) s []).1.check ≠ none) ∧
    (Server.run ops s []).1.check = none

end Tf2
