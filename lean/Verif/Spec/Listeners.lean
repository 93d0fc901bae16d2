import Verif.Model.Listeners

/-!
# Specification vocabulary: listeners
-/
namespace Tf2

variable {X : Type}

/-- The number of times listener `c` is called in these events. -/
def ringsOf (c : Nat) (evs : List SigEv) : Nat := evs.count (.rang c)

/-- The number of transforms that `setTransform` accepted in these events. -/
def acceptedIn (evs : List SigEv) : Nat := evs.count (.core (.setDone .accepted))

/-- No call of `setTransform` ended with an exception while requests were tested. -/
def NoThrow (evs : List SigEv) : Prop := (∀ e, SigEv.core (.testThrew e) ∉ evs) ∧ SigEv.core .undefined ∉ evs

/-- Nothing is under way: no notification is still to be made. -/
def SigBuf.Quiet (s : SigBuf X) : Prop := s.due = 0 ∧ s.ringing = []

end Tf2
