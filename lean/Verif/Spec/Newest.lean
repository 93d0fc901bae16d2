import Verif.Spec.Denote
import Verif.Spec.Latest

/-!
# Specification vocabulary: the newest transforms a history of messages tells about, without any buffer

Everything here is about the list of calls made; frames are names.
-/
namespace Tf2

variable {X : Type}

/-- The newest transform told about frame `n`: its parent, its stamp (0 if static) and its value. -/
inductive Newest [Rigid X] (ops : List (Op X)) (n : Name) : Name → Time → X → Prop where
  /-- the first message for `n` was static: the last one holds -/
  | static {m0 m : Msg X} {s : Bool} {r : List (Msg X × Bool)} : offersFor n ops = (m0, true) :: r →
      (offersFor n ops).getLast? = some (m, s) → Newest ops n (stripSlash m.parent) 0 m.xf
  /-- the first message was dynamic: of the messages since the last `clear`, the one with the largest stamp (the first
  one sent, if several have that stamp) -/
  | dynamic {m0 m : Msg X} {r : List (Msg X × Bool)} : offersFor n ops = (m0, false) :: r →
      (recentFor n ops []).find? (fun a => a.stamp == m.stamp) = some m →
      (∀ a ∈ recentFor n ops [], a.stamp ≤ m.stamp) → Newest ops n (stripSlash m.parent) m.stamp m.xf

/-- Following newest transforms from frame `a` leads to frame `c`; the list has the stamps met, in order, and `x` takes
coordinates in `a` to coordinates in `c`. -/
inductive NewestWay [Rigid X] (ops : List (Op X)) (a : Name) : Name → List Time → X → Prop where
  | refl : NewestWay ops a a [] Rigid.one
  | snoc {c p : Name} {l : List Time} {s : Time} {x e : X} : NewestWay ops a c l x → Newest ops c p s e →
      p ≠ noParentName → NewestWay ops a p (l ++ [s]) (Rigid.comp e x)

/-- Newest transforms lead from `a` to `c`. -/
def ReachesBy [Rigid X] (ops : List (Op X)) (a c : Name) : Prop := ∃ l x, NewestWay ops a c l x

/-- Following newest transforms from `a` ends at `r` after at most 1000 steps. -/
def EndsBy [Rigid X] (ops : List (Op X)) (a r : Name) : Prop :=
  (∃ l x, NewestWay ops a r l x ∧ l.length ≤ 1000) ∧ ¬ ∃ p s e, Newest ops r p s e ∧ p ≠ noParentName

/-- `q` is the lowest frame to which newest transforms lead from both `a` and `c`. -/
def LowestBy [Rigid X] (ops : List (Op X)) (a c q : Name) : Prop :=
  ReachesBy ops a q ∧ ReachesBy ops c q ∧ ∀ f, ReachesBy ops a f → ReachesBy ops c f → ReachesBy ops q f

end Tf2
