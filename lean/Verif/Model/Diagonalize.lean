import Verif.Model.LinearMath
import Mathlib.LinearAlgebra.Matrix.Notation
import Mathlib.Data.Matrix.Mul

/-!
# `Matrix3x3::diagonalize`

tf2/include/tf2/LinearMath/Matrix3x3.h:409-498, over the reals. `m_el[i][j]` is `m i j`. `eps` stands for
`TF2SIMD_EPSILON`.
-/
namespace Tf2.Diag

/-- A matrix by its elements. -/
abbrev M3 := Matrix (Fin 3) (Fin 3) ℝ

/-- `m_el[i][j] = v` -/
def put (m : M3) (i j : Fin 3) (v : ℝ) : M3 := fun a b => if a = i ∧ b = j then v else m a b

/-- The largest element above the diagonal and its place, Matrix3x3.h:424-442: `p`, `q`, `r`, `max`. -/
noncomputable def largest (m : M3) : Fin 3 × Fin 3 × Fin 3 × ℝ :=
  let s : Fin 3 × Fin 3 × Fin 3 × ℝ := (0, 1, 2, |m 0 1|)
  let v := |m 0 2|
  let s := if v > s.2.2.2 then (0, 2, 1, v) else s
  let v := |m 1 2|
  if v > s.2.2.2 then (1, 2, 0, v) else s

/-- `t`, `cos`, `sin` from `theta`, Matrix3x3.h:457-472. -/
noncomputable def turnBy (eps theta : ℝ) : ℝ × ℝ × ℝ :=
  let theta2 := theta * theta
  if theta2 * theta2 < 10 / eps then
    let t := if theta ≥ 0 then 1 / (theta + Real.sqrt (1 + theta2)) else 1 / (theta - Real.sqrt (1 + theta2))
    let cos := 1 / Real.sqrt (1 + t * t)
    (t, cos, cos * t)
  else
    let t := 1 / (theta * (2 + 0.5 / theta2))
    let cos := 1 - 0.5 * t * t
    (t, cos, cos * t)

/-- The rotation applied to the matrix, Matrix3x3.h:475-481, statement by statement. -/
def turnMatrix (p q r : Fin 3) (t cos sin mpq : ℝ) (m : M3) : M3 :=
  let m := put m q p 0
  let m := put m p q 0
  let m := put m p p (m p p - t * mpq)
  let m := put m q q (m q q + t * mpq)
  let mrp := m r p
  let mrq := m r q
  let v := cos * mrp - sin * mrq
  let m := put m p r v
  let m := put m r p v
  let v := cos * mrq + sin * mrp
  let m := put m q r v
  put m r q v

/-- The rotation applied to `rot`, Matrix3x3.h:484-491: the loop over the three rows. -/
def turnRot (p q : Fin 3) (cos sin : ℝ) (rot : M3) : M3 :=
  let row (rot : M3) (i : Fin 3) : M3 :=
    let mrp := rot i p
    let mrq := rot i q
    let rot := put rot i p (cos * mrp - sin * mrq)
    put rot i q (cos * mrq + sin * mrp)
  row (row (row rot 0) 1) 2

/-- One round without the tests, Matrix3x3.h:454-491; `none`: division by zero at line 456. -/
noncomputable def turn (eps : ℝ) (p q r : Fin 3) (m rot : M3) : Option (M3 × M3) :=
  let mpq := m p q
  if mpq = 0 then none
  else
    let theta := (m q q - m p p) / (2 * mpq)
    let (t, cos, sin) := turnBy eps theta
    some (turnMatrix p q r t cos sin mpq m, turnRot p q cos sin rot)

/-- The loop, Matrix3x3.h:421-497: `step` counts down, `step = 1` makes this round the last. -/
noncomputable def diagLoop (eps threshold : ℝ) : Nat → M3 → M3 → Option (M3 × M3)
  | 0, m, rot => some (m, rot)
  | step + 1, m, rot =>
    let (p, q, r, max) := largest m
    let t := threshold * (|m 0 0| + |m 1 1| + |m 2 2|)
    if max ≤ t then
      if max ≤ eps * t then some (m, rot)
      else turn eps p q r m rot
    else
      match turn eps p q r m rot with
      | none => none
      | some (m, rot) => diagLoop eps threshold step m rot

/-- `diagonalize(rot, threshold, maxSteps)`, Matrix3x3.h:418-498: the new matrix and `rot`. -/
noncomputable def diagonalize (eps : ℝ) (m : M3) (threshold : ℝ) (maxSteps : Int) : Option (M3 × M3) :=
  diagLoop eps threshold maxSteps.toNat m 1

end Tf2.Diag
