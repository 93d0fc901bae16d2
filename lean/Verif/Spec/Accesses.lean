import Verif.Model.Accesses

/-!
# Specification vocabulary: data races
-/
namespace Tf2

/-- What a thread that makes any sequence of calls may do. -/
inductive ACalls (o : Objects) : List AAct → Prop where
  | done : ACalls o []
  | call {c t u} (h : ACall o c) (ht : c.Trace t) (h' : ACalls o u) : ACalls o (t ++ u)

/-- A program: any number of threads, each making any sequence of calls. -/
def AProgram (o : Objects) (ts : List AThread) : Prop := ∀ t ∈ ts, t.held = [] ∧ ACalls o t.todo

/-- Two threads are about to access the same member, and one of them to write it. -/
def Race (ts : List AThread) (x : Loc) : Prop :=
  ∃ (i j : Nat) (h h' : List Lock) (w w' : Bool) (r r' : List AAct), i ≠ j ∧ ts[i]? = some ⟨h, .acc x w :: r⟩ ∧ ts[j]? = some ⟨h', .acc x w' :: r'⟩ ∧ (w = true ∨ w' = true)

/-- Between them, the first thread releases a lock and afterwards the second acquires it. -/
def HandOver (i j : Nat) (between : List (Nat × AAct)) : Prop :=
  ∃ l p q r, between = p ++ (i, .rel l) :: q ++ (j, .acq l) :: r

/-- The members whose accesses are not ordered by the mutexes of the library. -/
def unprotected : List MemKind :=
  [.caches, .frameIDs, .frameNames, .callbackFn, .requestTime, .requestCounter, .dedicated,
   .targetFrames, .tolerance, .expected, .queueSize, .callbackHandle, .messageCount, .incomingCount,
   .lastUpdate, .keepRunning, .netMessage]

/-- The lock operations in a sequence of actions. -/
def lockOps (t : List AAct) : List LAct :=
  t.filterMap (fun | .acq l => some (.acq l) | .rel l => some (.rel l) | .acc _ _ => none)

end Tf2
