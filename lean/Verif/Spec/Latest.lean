import Verif.Spec.Buffer

/-!
# Specification vocabulary for lookups at time zero: newest transforms and the path they form
-/
namespace Tf2

variable {X : Type}

/-- The newest transform stored for frame `f` is to parent `p` and is stamped `s`; a static transform
counts as stamped 0. -/
def NewestEdge [Rigid X] (b : Buf X) (f p : Nat) (s : Time) : Prop :=
  p ≠ 0 ∧ ∃ c e, b.getFrame f = some c ∧ c.getData 0 = .ok e ∧ e.parent = p ∧
    s = match c with
      | .dyn _ _ => e.stamp
      | .stat _ => 0

/-- Following newest transforms leads from `a` to `c`; the list has, in order, the stamp of each
transform and the parent it leads to. -/
inductive NewestPath [Rigid X] (b : Buf X) : Nat → Nat → List (Time × Nat) → Prop where
  | nil (a : Nat) : NewestPath b a a []
  | cons {a p c : Nat} {s : Time} {l : List (Time × Nat)} :
      NewestEdge b a p s → NewestPath b p c l → NewestPath b a c ((s, p) :: l)

/-- Following newest transforms from `a` ends at `r`, within the depth limit. -/
def NewestRoot [Rigid X] (b : Buf X) (a r : Nat) : Prop :=
  (∃ l, NewestPath b a r l ∧ l.length ≤ 1000) ∧ ¬ ∃ p s, NewestEdge b r p s

/-- `q` is the lowest common ancestor of `a` and `c` (a frame counts as its own ancestor). -/
def LowestCommon [Rigid X] (b : Buf X) (a c q : Nat) : Prop :=
  (∃ l, NewestPath b a q l) ∧ (∃ l, NewestPath b c q l) ∧
    ∀ f, (∃ l, NewestPath b a f l) → (∃ l, NewestPath b c f l) → ∃ l, NewestPath b q f l

/-- `t` is the smallest nonzero time of a list, or 0 if there is none. -/
def MinNonzeroOf (l : List Time) (t : Time) : Prop :=
  (t = 0 ∧ ∀ s ∈ l, s = 0) ∨ (t ≠ 0 ∧ t ∈ l ∧ ∀ s ∈ l, s ≠ 0 → t ≤ s)

end Tf2
