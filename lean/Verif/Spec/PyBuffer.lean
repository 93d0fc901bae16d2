import Verif.Model.PyBuffer
import Verif.Spec.PyTime

/-!
# Specification vocabulary for the Python buffer
-/
namespace Tf2.Py

variable {X : Type}

/-- The call with its stamp taken through a double. -/
inductive Passed (fl : ℚ → ℚ) : Op X → Op X → Prop where
  | set {m : Msg X} {t : Time} {a : Name} {s : Bool} (h : timeIn fl m.stamp = some t) :
      Passed fl (.set m a s) (.set { m with stamp := t } a s)
  | clear : Passed fl .clear .clear

/-- The calls, one by one, with their stamps taken through doubles. -/
inductive AllPassed (fl : ℚ → ℚ) : List (Op X) → List (Op X) → Prop where
  | nil : AllPassed fl [] []
  | cons {o o' : Op X} {r r' : List (Op X)} (h : Passed fl o o') (hr : AllPassed fl r r') :
      AllPassed fl (o :: r) (o' :: r')

end Tf2.Py
