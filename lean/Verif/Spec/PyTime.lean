import Mathlib.Data.Rat.Floor
import Mathlib.Algebra.Order.Round

/-!
# What a double is

Numbers a double can hold (exponent range aside) and what correct rounding to the nearest of them means. Nothing
is said about ties.
-/
namespace Tf2.Py

/-- A 53-bit integer scaled by a power of two. -/
def Rep (x : ℚ) : Prop := ∃ m k : ℤ, |m| ≤ 2 ^ 53 ∧ x = m * (2 : ℚ) ^ k

/-- `fl` rounds every number to a nearest representable one. -/
def IsFl (fl : ℚ → ℚ) : Prop := ∀ x, Rep (fl x) ∧ ∀ y, Rep y → |fl x - x| ≤ |y - x|

end Tf2.Py
