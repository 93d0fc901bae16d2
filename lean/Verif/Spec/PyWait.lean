import Verif.Model.PyBuffer

/-!
# Specification vocabulary for waiting in Python
-/
namespace Tf2.Py

variable {X : Type}

/-- The times of the request reach the buffer (`C67_error`: they are not among the last 238 stamps). -/
def Passes (fl : ℚ → ℚ) (g : Goal) : Prop :=
  (∃ t, timeIn fl g.stime = some t) ∧ (g.advanced = true → ∃ t, timeIn fl g.ttime = some t)

/-- `g'` is the request `g` as it reaches the buffer: its times have gone through doubles. -/
def Reaches (fl : ℚ → ℚ) (g g' : Goal) : Prop :=
  ∃ t u, timeIn fl g.stime = some t ∧ (if g.advanced = true then timeIn fl g.ttime = some u else u = g.ttime) ∧
    g' = { g with stime := t, ttime := u }

/-- The `i`-th poll (its first reading is sample `4 i + 1`) goes to sleep and wakes up normally: before the deadline,
transform not available, no jump back by more than three seconds. -/
def PySleeps (fl : ℚ → ℚ) (g : Goal) (W : Nat → PyWorld X) (i : Nat) : Prop :=
  ((W (4 * i + 1)).now : Int) < (W 0).now + g.timeout ∧
  Goal.canPy fl g (W (4 * i + 2)).buf = .ok false ∧
  (W 0).now ≤ (W (4 * i + 3)).now + 3000000000 ∧
  (W (4 * i + 4)).sleepOk = true

/-- The `k`-th poll ends the waiting with its reading at sample `m`: the deadline has passed; or the transform is
available; or the clock has jumped back by more than three seconds. -/
inductive PyStops (fl : ℚ → ℚ) (g : Goal) (W : Nat → PyWorld X) (k : Nat) : Nat → Prop where
  | deadline (h1 : ((W 0).now : Int) + g.timeout ≤ (W (4 * k + 1)).now) : PyStops fl g W k (4 * k + 1)
  | available (h1 : ((W (4 * k + 1)).now : Int) < (W 0).now + g.timeout)
      (h2 : Goal.canPy fl g (W (4 * k + 2)).buf = .ok true) : PyStops fl g W k (4 * k + 2)
  | jump (h1 : ((W (4 * k + 1)).now : Int) < (W 0).now + g.timeout)
      (h2 : Goal.canPy fl g (W (4 * k + 2)).buf = .ok false)
      (h3 : (W (4 * k + 3)).now + 3000000000 < (W 0).now) : PyStops fl g W k (4 * k + 3)

end Tf2.Py
