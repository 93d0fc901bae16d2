import Verif.Spec.Agreement
import Verif.Spec.Denote

/-!
# Specification vocabulary: transforms that arrive while somebody waits for them
-/
namespace Tf2.Spin

variable {X : Type}

/-- The listener works: it is not destroyed, no exception leaves a callback, no message is pushed out; its clock does not go
back from one callback to the next and nobody else changes the buffer (`Calm`). -/
structure Working [Rigid X] (D : Duration) (ops : List (Op X)) : Prop extends Calm D ops where
  alive : Op.destroy ∉ ops
  fine : LEv.escaped ∉ inner (history D ops).2
  kept : ∀ st, dropped st (history D ops).2 = []

/-- The valid transforms for child frame `n` in the messages that arrived for a topic, oldest first. -/
def arrivedFor [Rigid X] (st : Bool) (evs : List (Ev X)) (n : Name) : List (Msg X) :=
  ((arrived st evs).flatMap (·.msgs)).filter (fun m => ValidMsg m ∧ stripSlash m.child = n)

/-- Frame `n` is published for time `t`, early enough: what is needed arrived in `early`, and nothing in `all` spoils it.
Either `n` is published as a static frame only; or as a moving frame only, with stamps that do not go back, with a
transform at or before `t` and one at or after `t`, and without one that is newer than the first of these by more than
the time `D` the buffer keeps. -/
inductive Served [Rigid X] (D : Duration) (early all : List (Ev X)) (t : Time) (n : Name) : Prop where
  | static {m : Msg X} (h : m ∈ arrivedFor true early n) (h0 : arrivedFor false all n = [])
  | moving {m1 m2 : Msg X} (h1 : m1 ∈ arrivedFor false early n) (h2 : m2 ∈ arrivedFor false early n)
      (h3 : m1.stamp ≤ t) (h4 : t ≤ m2.stamp) (h5 : ∀ m ∈ arrivedFor false all n, (m.stamp : Int) ≤ m1.stamp + D)
      (h6 : (arrivedFor false all n).Pairwise (·.stamp ≤ ·.stamp)) (h0 : arrivedFor true all n = [])

/-- The transform between `target` and `source` at time `t` is published in time: the listener works through `ops`; all
that arrives agrees with one tree and is ordinary; the frames on the two ways up to a common frame are `Served`, by what
arrived in `ops.take i`; the names can be looked up. -/
structure InTime [Rigid X] (D : Duration) (ops : List (Op X)) (i : Nat) (par : Name → Option Name) (depth : Name → Nat)
    (target source : Name) (t : Time) : Prop where
  working : Working D ops
  ordinary : Regular D (deliveries (history D ops).2)
  tree : OneTree (deliveries (history D ops).2) par depth
  served : ∃ c, UpTo par (Served D (history D (ops.take i)).2 (history D ops).2 t) source c ∧
    UpTo par (Served D (history D (ops.take i)).2 (history D ops).2 t) target c
  time : t ≠ 0
  different : target ≠ source
  target : LegalName target ∧ target ≠ noParentName
  source : LegalName source ∧ source ≠ noParentName

/-- A caller's view of the program: at its `n`-th step the buffer is what the first `f n` steps of the program made of it
(between two steps of the caller anything can happen); ROS runs; the caller's clock never shows three seconds less than
at its first step. -/
structure Sees [Rigid X] (D : Duration) (ops : List (Op X)) (f : Nat → Nat) (W : Nat → World X) : Prop where
  buf : ∀ n, (W n).buf = (history D (ops.take (f n))).1.lis.rb.buf
  order : ∀ n, f n ≤ f (n + 1)
  up : ∀ n, (W n).up = true
  clock : ∀ n, ∃ e, timeAdd (W n).now threeSeconds = some e ∧ (W 0).now ≤ e

end Tf2.Spin
