import Verif.Spec.FilterWait

/-!
# Specification vocabulary: a message keeps its chance
-/
namespace Tf2

variable {X : Type}

/-- The times at which the filter wants a message's transforms: its stamp and, with a tolerance, stamp plus tolerance. -/
def WantedTime (tol : Duration) (stamp tm : Time) : Prop := tm = stamp ∨ tol ≠ 0 ∧ timeAdd stamp tol = some tm

/-- The step leaves a message with this frame and stamp its chance: a wanted transform that is there stays there,
and afterwards none of the wanted times is older than the cache window (for target frames other than its own). -/
def Filt.KeepsChance [Rigid X] (s : Filt X) (frame : Name) (stamp : Time) (op : FOp X) : Prop :=
  ∀ t ∈ s.targets, ∀ tm, WantedTime s.tol stamp tm →
    (s.rb.buf.canTransform t frame tm = .ok true → (s.step op).1.rb.buf.canTransform t frame tm = .ok true) ∧
    (t ≠ frame → ¬ TooOld (s.step op).1.rb.buf t frame tm)

/-- There is room in the queue for one more message. -/
def Filt.HasRoom (s : Filt X) : Prop := s.qsize = 0 ∨ s.queued.length < s.qsize

/-- If the step makes a callback, the callback reads "available" as its result (C34: the reference it is given
dangles). -/
def FOp.readsAvailable : FOp X → Prop
  | .invoke _ avail => avail = true
  | _ => True

/-- In every step the message keeps its chance, the queue has room, callbacks read "available", and the target frames
have legal names. -/
def ChanceRun [Rigid X] (frame : Name) (stamp : Time) : List (FOp X) → Filt X → Prop
  | [], _ => True
  | op :: r, s => s.KeepsChance frame stamp op ∧ s.HasRoom ∧ op.readsAvailable ∧ (∀ t ∈ s.targets, LegalName t) ∧
      ChanceRun frame stamp r (s.step op).1

end Tf2
