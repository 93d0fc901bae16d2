import Verif.Spec.MessageFilter

/-!
# Specification vocabulary: orderly use of a message filter
-/
namespace Tf2

variable {X : Type}

/-- The step does not get into the way of a call of `add` in progress or of the messages held: callbacks of the
buffer run and `clear` is called only while no `add` is in progress; target frames and tolerance are changed only
while no message is held; other users of the buffer leave the filter's callback and requests alone. -/
def Filt.Orderly (s : Filt X) : FOp X → Prop
  | .setTargets _ => s.adding = [] ∧ s.msgs = []
  | .setTolerance _ => s.adding = [] ∧ s.msgs = []
  | .clear => s.adding = []
  | .invoke _ _ => s.adding = []
  | .buffer (.removeCallback c) => c ≠ s.cb
  | .buffer (.cancelRequest h) => ∀ t src tm, REv.added (h % 2 ^ 32) s.cb t src tm ∉ s.revs
  | _ => True

/-- Every step is orderly. -/
def OrderlyRun [Rigid X] : List (FOp X) → Filt X → Prop
  | [], _ => True
  | op :: r, s => s.Orderly op ∧ OrderlyRun r (s.step op).1

/-- The step neither sets a transform nor clears the buffer. -/
def FOp.keepsBuffer : FOp X → Prop
  | .buffer (.set _ _ _) => False
  | .buffer .clear => False
  | _ => True

/-- So far fewer than 2^32 requests were pending in all, no `setTransform` threw after storing, and every
registration of a callback returned. -/
def Filt.Healthy (s : Filt X) : Prop :=
  (addedHandles s.revs).length < 2 ^ 32 ∧ (∀ e, REv.testThrew e ∉ s.revs) ∧ REv.registerHangs ∉ s.revs

end Tf2
