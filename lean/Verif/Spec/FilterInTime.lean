import Verif.Spec.FilterPass
import Verif.Spec.Denote

/-!
# Specification vocabulary: a message whose transforms are published in time
-/
namespace Tf2

variable {X : Type}

/-- What a request to the buffer tells it about transforms. -/
def ROp.tells : ROp X → Option (Op X)
  | .set m a s => some (.set m a s)
  | .clear => some .clear
  | _ => none

/-- What a step of a program with a filter tells the buffer about transforms. -/
def FOp.tells : FOp X → Option (Op X)
  | .buffer op => op.tells
  | _ => none

/-- What the buffer is told about transforms before the filter is made (`pre`) and afterwards. -/
def toldBuffer (pre : List (ROp X)) (ops : List (FOp X)) : List (Op X) :=
  pre.filterMap ROp.tells ++ ops.filterMap FOp.tells

/-- Frame `n` is published for time `t` and stays so: it is always published as static; or always as moving, with stamps
that do not go back, with a transform at or before `t` and one at or after `t`, and without one that is newer than the
first of these by more than the time `D` the buffer keeps. -/
inductive Lasts [Rigid X] (D : Duration) (told : List (Op X)) (t : Time) (n : Name) : Prop where
  | static {m : Msg X} (h : (m, true) ∈ offersFor n told) (h0 : ∀ x ∈ offersFor n told, x.2 = true)
  | moving {m1 m2 : Msg X} (h1 : (m1, false) ∈ offersFor n told) (h2 : (m2, false) ∈ offersFor n told)
      (h3 : m1.stamp ≤ t) (h4 : t ≤ m2.stamp) (h5 : ∀ x ∈ offersFor n told, (x.1.stamp : Int) ≤ m1.stamp + D)
      (h6 : (offersFor n told).Pairwise (·.1.stamp ≤ ·.1.stamp)) (h0 : ∀ x ∈ offersFor n told, x.2 = false)

/-- All that a message with this frame and stamp needs is published in time, for a filter with these target frames and
this tolerance: what the buffer is told is ordinary, agrees with one tree, is never cleared, and no transform is newer than
a wanted time by more than the time the buffer keeps; all frames on the ways up to a common frame `Lasts`. -/
structure OnTime [Rigid X] (D : Duration) (told : List (Op X)) (par : Name → Option Name) (depth : Name → Nat)
    (targets : List Name) (tol : Duration) (frame : Name) (stamp : Time) : Prop where
  ordinary : Regular D told
  tree : OneTree told par depth
  noClear : Op.clear ∉ told
  young : ∀ m a s, Op.set m a s ∈ told → ValidMsg m → ∀ tm, WantedTime tol stamp tm → (m.stamp : Int) ≤ tm + D
  nonzero : ∀ tm, WantedTime tol stamp tm → tm ≠ 0
  fits : tol ≠ 0 → ∃ tm, timeAdd stamp tol = some tm
  named : frame ≠ noParentName ∧ ∀ t ∈ targets, t ≠ noParentName ∧ LegalName t
  ways : ∀ t ∈ targets, t ≠ frame → ∀ tm, WantedTime tol stamp tm →
    ∃ c, UpTo par (Lasts D told tm) frame c ∧ UpTo par (Lasts D told tm) t c

/-- The step does not change the settings of the filter. -/
def FOp.keepsSettings : FOp X → Prop
  | .setTargets _ => False
  | .setTolerance _ => False
  | _ => True

end Tf2
