import Verif.Spec.Ros
import Verif.Spec.Denote

/-!
# Specification vocabulary: what subscribers of the static topic receive
-/
namespace Tf2

variable {X : Type}

/-- The messages a buffer received from the static topic, in order. -/
def staticPart (ops : List (Op X)) : List (Msg X) :=
  ops.filterMap (fun | .set m _ true => some m | _ => none)

/-- Everything else that was done to a buffer, in order. -/
def otherPart (ops : List (Op X)) : List (Op X) :=
  ops.filter (fun | .set _ _ true => false | _ => true)

/-- What a subscriber receives that is there from the start: everything published. -/
def earlyReceives (calls : List (List (Msg X))) : List (Msg X) := (SBroadcaster.after calls).published.flatten

/-- What a subscriber receives that connects after the calls `before`: the latched message, then everything
published during the calls `later`. -/
def lateReceives (before later : List (List (Msg X))) : List (Msg X) :=
  (SBroadcaster.after before).latched.getD [] ++
    ((SBroadcaster.after (before ++ later)).published.drop before.length).flatten

/-- The static transforms sent are well formed, their child frames are written without a leading slash and
nothing else is published for them. -/
structure StaticFrames [Rigid X] (sent : List (Msg X)) (ops : List (Op X)) : Prop where
  valid : ∀ m ∈ sent, ValidMsg m
  plain : ∀ m ∈ sent, stripSlash m.child = m.child
  own : ∀ m ∈ sent, ∀ m' a, Op.set m' a false ∈ ops → stripSlash m'.child ≠ m.child

end Tf2
