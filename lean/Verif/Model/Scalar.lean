import Verif.Model.LinearMath
import Mathlib.Data.Rat.Floor

/-!
# `tf2/include/tf2/LinearMath/Scalar.h`, angles
-/
namespace Tf2.Scalar

/-- `TF2SIMD_2_PI`, Scalar.h:192: the double nearest to the literal `6.283185307179586232`. -/
def twoPi : ℚ := 884279719003555 / 2 ^ 47

/-- `TF2SIMD_PI`, Scalar.h:193, with rounding `fl`. -/
def pi (fl : ℚ → ℚ) : ℚ := fl (twoPi * (1 / 2))

/-- Rounding towards zero. -/
def trunc (q : ℚ) : ℤ := if 0 ≤ q then ⌊q⌋ else ⌈q⌉

/-- `tf2Fmod` / C's `fmod(x, y)` for `y ≠ 0`, Scalar.h:189: `x - n*y` with `n` the quotient rounded towards zero. The C
standard asks for the exact value. -/
def fmod (x y : ℚ) : ℚ := x - trunc (x / y) * y

/-- `tf2NormalizeAngle`, Scalar.h:387-402, on doubles (`fl` rounds; infinities and NaN are not modelled). -/
def normalizeAngle (fl : ℚ → ℚ) (x : ℚ) : ℚ :=
  let a := fmod x twoPi
  if a < -pi fl then fl (a + twoPi)
  else if a > pi fl then fl (a - twoPi)
  else a

/-- `tf2Atan2Fast(y, x)`, Scalar.h:205-219, over the reals with the true `π`; `none`: `0/0`, not a number. -/
noncomputable def atan2Fast (y x : ℝ) : Option ℝ :=
  let coeff1 := Real.pi / 4
  let coeff2 := 3 * coeff1
  let absY := |y|
  let angle : Option ℝ :=
    if x ≥ 0 then
      if x + absY = 0 then none
      else
        let r := (x - absY) / (x + absY)
        some (coeff1 - coeff1 * r)
    else
      let r := (x + absY) / (absY - x)
      some (coeff2 - coeff1 * r)
  if y < 0 then angle.map (fun a => -a) else angle

end Tf2.Scalar
