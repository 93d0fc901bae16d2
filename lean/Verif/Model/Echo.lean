import Verif.Model.PyBuffer
import Verif.Model.LinearMath

/-!
# `echo.py`: printing a transform again and again

Models tf2_tools/scripts/echo.py. The printed text is represented by the values printed. `rospy.Timer` (external)
calls the callback from a thread of its own, once per period; an exception that leaves the callback ends that
thread, and nothing else.
-/
namespace Tf2.Py

/-! ### The angles -/

/-- `_quaternion_matrix`, tf2_tools/scripts/echo.py:113-125 (the upper left 3x3 part), called with `[w, x, y, z]`
(`_euler_from_quaternion_msg`, 131-138); `eps` is `_EPS` (56). -/
noncomputable def quaternionMatrix (eps : ℝ) (m : Quat ℝ) : Mat3 ℝ :=
  let q : Fin 4 → ℝ := ![m.w, m.x, m.y, m.z]
  let n := q 0 * q 0 + q 1 * q 1 + q 2 * q 2 + q 3 * q 3
  if n < eps then Mat3.identity
  else
    let k := Real.sqrt (2 / n)
    let o : Fin 4 → Fin 4 → ℝ := fun i j => (q i * k) * (q j * k)
    ⟨⟨1 - o 2 2 - o 3 3, o 1 2 - o 3 0, o 1 3 + o 2 0⟩,
     ⟨o 1 2 + o 3 0, 1 - o 1 1 - o 3 3, o 2 3 - o 1 0⟩,
     ⟨o 1 3 - o 2 0, o 2 3 + o 1 0, 1 - o 1 1 - o 2 2⟩⟩

/-- `_euler_from_matrix`, tf2_tools/scripts/echo.py:73-111, with the default axes `sxyz` (so `i, j, k = 0, 1, 2`, no repetition, no parity,
static frame): the angles about x, y and z, the ones printed as RPY. -/
noncomputable def eulerFromMatrix (eps : ℝ) (m : Mat3 ℝ) : Mat3.Euler :=
  let cy := Real.sqrt (m.r0.x * m.r0.x + m.r1.x * m.r1.x)
  if cy > eps then
    { roll := tf2Atan2 m.r2.y m.r2.z, pitch := tf2Atan2 (-m.r2.x) cy, yaw := tf2Atan2 m.r1.x m.r0.x }
  else
    { roll := tf2Atan2 (-m.r1.z) m.r1.y, pitch := tf2Atan2 (-m.r2.x) cy, yaw := 0 }

/-- `_euler_from_quaternion_msg`, tf2_tools/scripts/echo.py:127-138. -/
noncomputable def echoEuler (eps : ℝ) (q : Quat ℝ) : Mat3.Euler := eulerFromMatrix eps (quaternionMatrix eps q)

/-! ### The loop -/

/-- The arguments, tf2_tools/scripts/echo.py:201-248: `--time` and `--offset` as nanoseconds (`rospy.Time(x)`, `rospy.Duration(x)` of a
Python float, external), `--limit` positive, `--cache_time` a Python float. -/
structure EchoArgs where
  source : Name
  target : Name
  time : Option Int := none
  offset : Option Int := none
  limit : Option Nat := none
  cacheTime : Option ℚ := none

/-- The time to look up, tf2_tools/scripts/echo.py:157-167: a zero argument counts as none. `none`: the time is negative, `TypeError`
(external, genpy). -/
def EchoArgs.lookupTime (a : EchoArgs) (cur : Time) : Option Time :=
  if a.time.getD 0 ≠ 0 then
    (if a.time.getD 0 < 0 then none else some (a.time.getD 0).toNat)
  else if a.offset.getD 0 ≠ 0 then
    (if (cur : Int) + a.offset.getD 0 < 0 then none else some ((cur : Int) + a.offset.getD 0).toNat)
  else some 0

/-- `Echo.__init__`, tf2_tools/scripts/echo.py:141-147: `tf2_ros.Buffer(cache_time=args.cache_time)` hands the Python float on to
`BufferCore` (tf2_ros/src/tf2_ros/buffer.py:58-61), whose converter calls its method `to_sec`
(tf2_py/src/tf2_py.cpp:164-189), which a float does not have: `TypeError`, `none` here. Without the argument, the
default of ten seconds. -/
def echoStart {X : Type} (a : EchoArgs) : Option (Buf X) :=
  match a.cacheTime with
  | none => some (Buf.init 10000000000)
  | some _ => none

/-- The timer's thread: the number of calls so far, and whether it is alive; whether shutdown was signalled. -/
structure Echo where
  count : Nat := 0
  alive : Bool := true
  shutdown : Bool := false

/-- What a call of the callback shows. -/
inductive EchoEv (X : Type) where
  | finished
  | printed (m : Msg X)
  | logged (e : Exc)
  | died
  | crashed

/-- `self.args.limit` is set and passed, tf2_tools/scripts/echo.py:150-155. -/
def EchoArgs.over (a : EchoArgs) (count : Nat) : Bool :=
  match a.limit with
  | some l => decide (l < count)
  | none => false

/-- `Echo.lookup`, tf2_tools/scripts/echo.py:149-199, with the buffer `b` and the clock `cur`: `lookup_transform` without a timeout, whose
wait is one check with its result dropped (tf2_ros/src/tf2_ros/buffer.py:77-106, see C68); only two classes of exceptions
are caught. -/
def Echo.tick {X : Type} [Rigid X] (fl : ℚ → ℚ) (a : EchoArgs) (b : Buf X) (cur : Time) (s : Echo) : Echo × List (EchoEv X) :=
  if !s.alive || s.shutdown then (s, [])
  else
    let s := { s with count := s.count + 1 }
    if a.over s.count then ({ s with shutdown := true }, [.finished])
    else
      match a.lookupTime cur with
      | none => ({ s with alive := false }, [.died])
      | some t =>
        match lookupCore fl b a.source a.target t with
        | .ok m => (s, [.printed m])
        | .raised e =>
          if e.caughtBy .lookup || e.caughtBy .extrapolation then (s, [.logged e])
          else ({ s with alive := false }, [.died])
        | .crash => ({ s with alive := false }, [.crashed])
        | .typeError => ({ s with alive := false }, [.died])
        | .interrupted => ({ s with alive := false }, [.died])

/-- The callbacks of a run: the `i`-th sees the buffer and the clock `W i`. -/
def Echo.run {X : Type} [Rigid X] (fl : ℚ → ℚ) (a : EchoArgs) : List (Buf X × Time) → Echo → Echo × List (List (EchoEv X))
  | [], s => (s, [])
  | (b, cur) :: r, s =>
    let (s', e) := s.tick fl a b cur
    let (s'', es) := Echo.run fl a r s'
    (s'', e :: es)

end Tf2.Py
