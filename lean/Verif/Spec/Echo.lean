import Verif.Model.Echo
import Verif.Spec.PyTime

/-!
# Specification vocabulary for `echo.py`
-/
namespace Tf2.Py

variable {X : Type}

/-- The time `echo` is told to look up when the clock shows `cur`; it may be negative. -/
inductive AsksAt (a : EchoArgs) (cur : Time) : Int → Prop
  | fixed {t : Int} : a.time = some t → t ≠ 0 → AsksAt a cur t
  | offset {o : Int} : a.time = none ∨ a.time = some 0 → a.offset = some o → o ≠ 0 → AsksAt a cur (cur + o)
  | latest : a.time = none ∨ a.time = some 0 → a.offset = none ∨ a.offset = some 0 → AsksAt a cur 0

/-- What a callback that does look up shows, in terms of the C++ lookup on the same buffer at the time asked for, which
has gone through a double. -/
inductive Echoes [Rigid X] (fl : ℚ → ℚ) (a : EchoArgs) (b : Buf X) (cur : Time) : EchoEv X → Prop
  | printed {t t' : Time} {m : Msg X} : AsksAt a cur t → timeIn fl t = some t' →
      b.lookupTransform a.source a.target t' = .ok m → m.stamp < 2 ^ 31 * 1000000000 → Echoes fl a b cur (.printed m)
  | logged {t t' : Time} {e : Exc} : AsksAt a cur t → timeIn fl t = some t' →
      b.lookupTransform a.source a.target t' = .throw e → e = .lookup ∨ e = .extrapolation → Echoes fl a b cur (.logged e)
  | died {t t' : Time} {e : Exc} : AsksAt a cur t → timeIn fl t = some t' →
      b.lookupTransform a.source a.target t' = .throw e → e ≠ .lookup → e ≠ .extrapolation → Echoes fl a b cur .died
  | negative {t : Int} : AsksAt a cur t → t < 0 → Echoes fl a b cur .died
  | late {t t' : Time} {m : Msg X} : AsksAt a cur t → timeIn fl t = some t' →
      b.lookupTransform a.source a.target t' = .ok m → 2 ^ 31 * 1000000000 ≤ m.stamp → Echoes fl a b cur .crashed
  | unreadable {t : Time} : AsksAt a cur t → timeIn fl t = none → Echoes fl a b cur .crashed

/-- Events after which `echo` shows nothing more. -/
def EchoEv.Last : EchoEv X → Prop
  | .finished => True
  | .died => True
  | .crashed => True
  | _ => False

end Tf2.Py
