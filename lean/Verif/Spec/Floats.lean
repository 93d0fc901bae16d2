import Verif.Model.Floats
import Verif.Spec.RoundedInterp

/-!
# Specification vocabulary: IEEE 754 machines, finite transforms
-/
namespace Tf2

/-- The machine rounds to a nearest `double` up to 2^1023; what is larger becomes a number of at least that size or an
infinity of the right sign. Its library is good to about four units in the last place. -/
structure Machine.IEEE (K : Machine) : Prop where
  near : ∀ x, |x| ≤ (2 : ℝ) ^ (1023 : ℤ) → ∃ y, K.fl x = .fin y ∧ IsDouble y ∧ ∀ z, IsDouble z → |y - x| ≤ |z - x|
  high : ∀ x, (2 : ℝ) ^ (1023 : ℤ) < x → K.fl x = .inf false ∨ ∃ y, K.fl x = .fin y ∧ (2 : ℝ) ^ (1023 : ℤ) ≤ y
  low : ∀ x, x < -(2 : ℝ) ^ (1023 : ℤ) → K.fl x = .inf true ∨ ∃ y, K.fl x = .fin y ∧ y ≤ -(2 : ℝ) ^ (1023 : ℤ)
  lib : K.lib.Accurate
  acos : ∀ x, -1 ≤ x → x ≤ 0 → |K.lib.acos x - Real.arccos x| ≤ 5 / 10 ^ 16 * Real.arccos x

/-- A number, not an infinity or NaN. -/
def Fl.Finite (v : Fl) : Prop := ∃ x, v = .fin x

/-- An infinity. -/
def Fl.Infinite (v : Fl) : Prop := ∃ s, v = .inf s

/-- All seven components are numbers. -/
def FPose.Finite (p : FPose) : Prop :=
  (p.1.x.Finite ∧ p.1.y.Finite ∧ p.1.z.Finite ∧ p.1.w.Finite) ∧ p.2.x.Finite ∧ p.2.y.Finite ∧ p.2.z.Finite

/-- Some component is NaN. -/
def FPose.SomeNaN (p : FPose) : Prop :=
  p.1.x = .nan ∨ p.1.y = .nan ∨ p.1.z = .nan ∨ p.1.w = .nan ∨ p.2.x = .nan ∨ p.2.y = .nan ∨ p.2.z = .nan

/-- Some component of the rotation is infinite. -/
def FPose.InfiniteRotation (p : FPose) : Prop :=
  p.1.x.Infinite ∨ p.1.y.Infinite ∨ p.1.z.Infinite ∨ p.1.w.Infinite

/-- The rotation consists of numbers and is a unit quaternion, its squared length up to 0.0101. -/
def FPose.UnitRotation (p : FPose) : Prop :=
  ∃ q : Quat ℝ, p.1 = ⟨.fin q.x, .fin q.y, .fin q.z, .fin q.w⟩ ∧ |q.length2 - 1| ≤ 101 / 10000

/-- The coordinate is NaN, or a number of size at most `B`: not infinite, not huge. -/
def Fl.Within (B : ℝ) (v : Fl) : Prop := v = .nan ∨ ∃ x, v = .fin x ∧ |x| ≤ B

/-- No translation that was offered has an infinite coordinate or one larger than `B`. Nothing is said of the rotations,
which may be anything, NaN and infinities included. -/
def TranslationsWithin (B : ℝ) (ops : List (Op FPose)) : Prop :=
  ∀ m a s, Op.set m a s ∈ ops → m.xf.2.x.Within B ∧ m.xf.2.y.Within B ∧ m.xf.2.z.Within B

end Tf2
