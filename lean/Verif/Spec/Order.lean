import Verif.Spec.History

/-! # Specification vocabulary: histories that differ only in the order of different children -/
namespace Tf2

variable {X : Type}

/-- The call matters to child frame `n`: `clear`, or a `setTransform` whose child is `n` (one leading slash
ignored). -/
def Op.concerns (n : Name) : Op X → Bool
  | .clear => true
  | .set m _ _ => decide (stripSlash m.child = n)

/-- Two histories make, for every child frame, the same calls in the same order: they differ only in how the
calls for different children interleave. -/
def SameCalls (ops ops' : List (Op X)) : Prop :=
  ∀ n, ops.filter (Op.concerns n) = ops'.filter (Op.concerns n)

/-- No acceptable message has the reserved name NO_PARENT as its child. -/
def NoReservedChild [Rigid X] (ops : List (Op X)) : Prop :=
  ∀ m a s, Op.set m a s ∈ ops → ValidMsg m → stripSlash m.child ≠ noParentName

end Tf2
