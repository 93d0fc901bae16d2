import Verif.Spec.Buffer

/-!
# Specification vocabulary for chain listings
-/
namespace Tf2

variable {X : Type}

/-- The frames passed when following the transforms available at time `t` from `a` up to `c`, both
included, in order. -/
inductive FramePath [Rigid X] (b : Buf X) (t : Time) : Nat → Nat → List Nat → Prop where
  | nil (a : Nat) : FramePath b t a a [a]
  | cons {a p c : Nat} {e : X} {l : List Nat} :
      ParentAt b t a p e → FramePath b t p c l → FramePath b t a c (a :: l)

/-- From `s` the transforms available at time `t` lead through `up`, then `q`, then `top`, to a frame
without parent; from `g` through `down`, then the same; and `q` is the first common frame.  Both ways
are within the depth limit. -/
structure Meets [Rigid X] (b : Buf X) (t : Time) (s g q : Nat) (up down top : List Nat) : Prop where
  root : ∃ r, FramePath b t s r (up ++ q :: top) ∧ FramePath b t g r (down ++ q :: top) ∧
    ¬ ∃ p e, ParentAt b t r p e
  disjoint : ∀ f ∈ up, f ∉ down
  short : (up ++ q :: top).length ≤ 1001 ∧ (down ++ q :: top).length ≤ 1001

end Tf2
