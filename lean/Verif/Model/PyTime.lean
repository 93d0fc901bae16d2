import Verif.Model.Ros
import Mathlib.Data.Rat.Floor
import Mathlib.Algebra.Order.Round

/-!
# Times through the Python binding

tf2_py keeps a `tf2::BufferCore` behind a Python object; every stamp it takes from Python goes through a
floating point number of seconds. `fl` is the rounding of an arithmetic operation to a double: operations are
exact on rationals, then rounded. Exponents are not bounded (every number below is between `10^-9` and `10^19`,
or zero). NaN and infinities do not occur on this path.
-/
namespace Tf2.Py

/-- `genpy.Time.to_sec()` (external, genpy/rostime.py): `float(secs) + float(nsecs) / 1e9`. -/
def toSec (fl : ℚ → ℚ) (secs nsecs : ℕ) : ℚ := fl (fl secs + fl (fl nsecs / 1000000000))

/-- `ros::Time::fromSec(double)` (external, rostime): `sec = floor(t)`, an exception (`none`) when it does not
fit in 32 unsigned bits, `nsec = round((t - sec) * 1e9)`, then the carry `sec += nsec / 10^9`, `nsec %= 10^9` in
32-bit unsigned arithmetic. -/
def fromSec (fl : ℚ → ℚ) (t : ℚ) : Option Time :=
  let sec64 : ℤ := ⌊t⌋
  if sec64 < 0 ∨ 4294967295 < sec64 then none
  else
    let nsec : ℕ := (round (fl (fl (t - sec64) * 1000000000))).toNat % 2 ^ 32
    let sec : ℕ := (sec64.toNat + nsec / 1000000000) % 2 ^ 32
    some (sec * 1000000000 + nsec % 1000000000)

/-- `rostime_converter`, tf2_py/src/tf2_py.cpp:151-162: how every stamp given by Python (a `rospy.Time`, whole
nanoseconds) reaches the buffer. `none` is the C++ exception of `fromSec`, which nothing on this path catches. -/
def timeIn (fl : ℚ → ℚ) (t : Time) : Option Time := fromSec fl (toSec fl (t / 1000000000) (t % 1000000000))

/-- `Py_BuildValue("ii", sec, nsec)` and `rospy.Time(secs, nsecs)`, tf2_py.cpp:99-107 and 296-301: the unsigned
seconds are read as a signed 32-bit integer, and `rospy.Time` raises `TypeError` for negative seconds (external,
genpy), which is `none`. -/
def timeOut (t : Time) : Option Time :=
  let secs : ℤ := if t / 1000000000 < 2 ^ 31 then (t / 1000000000 : ℕ) else ((t / 1000000000 : ℕ) : ℤ) - 2 ^ 32
  if secs < 0 then none else some (secs.toNat * 1000000000 + t % 1000000000)

end Tf2.Py
