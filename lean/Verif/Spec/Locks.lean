import Verif.Model.Locks

/-!
# Specification vocabulary for locking
-/
namespace Tf2

/-- What a thread that makes any sequence of calls may do. -/
inductive Calls (o : Objects) : List LAct → Prop where
  | done : Calls o []
  | call {c t u} (h : LibCall o c) (ht : c.Trace t) (h' : Calls o u) : Calls o (t ++ u)

/-- A program: any number of threads, each making any sequence of calls. -/
def Program (o : Objects) (ts : List LThread) : Prop := ∀ t ∈ ts, t.held = [] ∧ Calls o t.todo

/-- Thread `i` waits for a lock that thread `j` holds. -/
def Waits (ts : List LThread) (i j : Nat) : Prop :=
  ∃ h l r t, ts[i]? = some ⟨h, .acq l :: r⟩ ∧ ts[j]? = some t ∧ l ∈ t.held

/-- A chain of waits. -/
inductive WaitsChain (ts : List LThread) : Nat → Nat → Prop where
  | one {i j} (h : Waits ts i j) : WaitsChain ts i j
  | more {i j k} (h : Waits ts i j) (h' : WaitsChain ts j k) : WaitsChain ts i k

end Tf2
