import Verif.Spec.FilterWait

/-!
# Specification vocabulary: what a message filter leaves in the buffer
-/
namespace Tf2

variable {X : Type}

/-- The filter gave the message up while `add` asked for its transforms: `add` found one of them too old, or threw. -/
def GivenUp (evs : List FEv) (id : Nat) : Prop := FEv.decided id (some .outTheBack) ∈ evs ∨ FEv.addThrew id ∈ evs

/-- The step asks the buffer only with a callback that is registered. -/
def RBuf.AsksRegistered (s : RBuf X) : ROp X → Prop
  | .addRequest c _ _ _ => c ∈ s.cbs
  | _ => True

/-- So do all steps. -/
def RBuf.AskedRegistered [Rigid X] : List (ROp X) → RBuf X → Prop
  | [], _ => True
  | op :: r, s => s.AsksRegistered op ∧ RBuf.AskedRegistered r (s.step op).1

/-- Others ask the buffer only with callbacks of their own. -/
def Filt.AsksOwn (s : Filt X) : FOp X → Prop
  | .buffer (.addRequest c _ _ _) => c ∈ s.rb.cbs ∧ c ≠ s.cb
  | _ => True

/-- So they do in all steps. -/
def AskedOwn [Rigid X] : List (FOp X) → Filt X → Prop
  | [], _ => True
  | op :: r, s => s.AsksOwn op ∧ AskedOwn r (s.step op).1

/-- The requests of the filter that are pending in the buffer. -/
def Filt.asking (s : Filt X) : List Request := s.rb.reqs.filter (fun r => decide (r.cb = s.cb))

/-- Number of requests for one message: one per target frame, and with a tolerance two. -/
def Filt.requestsPerMessage (s : Filt X) : Nat := s.targets.length * (if s.tol = 0 then 1 else 2)

end Tf2
