/-!
# `ros::Time` and `ros::Duration`

`ros::Time` lives in roscpp_core, which is not part of /repo; this file states the behaviour the
geometry2 code relies on.  A time is a count of nanoseconds since the epoch
(`sec * 10^9 + nsec`, `sec : uint32_t`), a duration is a signed count of nanoseconds.
-/
namespace Tf2

/-- `ros::Time` (external): nanoseconds.  `0` is `ros::Time()`, which the API reads as "latest".
`Time` is written for `Nat`. -/
macro "Time" : term => `(Nat)

/-- `ros::Duration` (external): signed nanoseconds.  `Duration` is written for `Int`. -/
macro "Duration" : term => `(Int)

/-- `ros::TIME_MAX` = 4294967295 s + 999999999 ns (external), used at
tf2/src/buffer_core.cpp:1022, 1054, 1078, 1114, 1159. -/
def TIME_MAX : Time := 4294967295999999999

/-- `ros::Time operator+(ros::Duration)` (external): throws `std::runtime_error`
("Time is out of dual 32-bit range") when the sum is negative or beyond `TIME_MAX`; the throw is
`none`.  Used at tf2/src/cache.cpp:261, 332 and tf2/src/buffer_core.cpp:1298, 1441. -/
def timeAdd (t : Time) (d : Duration) : Option Time :=
  if 0 ≤ (t : Int) + d ∧ (t : Int) + d ≤ (TIME_MAX : Int) then some ((t : Int) + d).toNat else none

end Tf2
