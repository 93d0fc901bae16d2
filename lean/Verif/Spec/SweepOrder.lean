import Verif.Spec.Requests

/-!
# Specification: the order of answers

A waiting list is scanned from the front.  An element that is due is taken out and the **last** element of the
list is put in its place (and looked at next); an element that is not due is passed over.
-/
namespace Tf2

/-- The last element moved to the front: what follows the gap once the gap has been filled. -/
def lastFirst {α : Type} : List α → List α
  | [] => []
  | x :: xs => (x :: xs).getLast (by simp) :: (x :: xs).dropLast

theorem length_lastFirst {α : Type} (l : List α) : (lastFirst l).length = l.length := by
  cases l with
  | nil => rfl
  | cons x xs => simp [lastFirst]

/-- The elements taken out, in the order in which they are taken out. -/
def takenOut {α : Type} (due : α → Bool) : List α → List α
  | [] => []
  | x :: rest => if due x then x :: takenOut due (lastFirst rest) else takenOut due rest
termination_by l => l.length
decreasing_by all_goals simp [length_lastFirst]

/-- The elements left, in the order in which they are left. -/
def leftWaiting {α : Type} (due : α → Bool) : List α → List α
  | [] => []
  | x :: rest => if due x then leftWaiting due (lastFirst rest) else x :: leftWaiting due rest
termination_by l => l.length
decreasing_by all_goals simp [length_lastFirst]

/-- The handles of the requests answered (whether or not anybody is told), in order. -/
def answeredHandles : List REv → List Nat
  | [] => []
  | .extracted h _ :: r => h :: answeredHandles r
  | .dropped h :: r => h :: answeredHandles r
  | _ :: r => answeredHandles r

/-- The handles whose callback has been scheduled, in order. -/
def extractedHandles : List REv → List Nat
  | [] => []
  | .extracted h _ :: r => h :: extractedHandles r
  | _ :: r => extractedHandles r

end Tf2
