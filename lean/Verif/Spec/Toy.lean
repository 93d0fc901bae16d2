import Verif.Model.BufferCore

/-!
# A computable instance used by the concrete examples

Translations along one axis, as integers.  It exists only so that the examples beside the theorems
can be evaluated by the kernel; no theorem is about it.
-/
namespace Tf2

/-- One-dimensional translations. -/
instance : Rigid Int where
  one := 0
  comp a b := a + b
  inv a := -a
  interp a b num den := a + (b - a) * num / den
  mulMsg a b := a + b
  hasNaN _ := false
  normOK _ := true

/-- A sample with integer payload. -/
abbrev smp (stamp parent child : Nat) (x : Int) : Sample Int := ⟨stamp, parent, child, x⟩

end Tf2

namespace Tf2

/-- A message with integer payload. -/
abbrev tmsg (parent child : Name) (stamp : Nat) (x : Int) : Msg Int := ⟨parent, child, stamp, x⟩

/-- A `setTransform` call. -/
abbrev put (parent child : Name) (stamp : Nat) (x : Int) (isStatic : Bool := false) : Op Int :=
  .set ⟨parent, child, stamp, x⟩ ['u'] isStatic

/-- A history: a tree `w → a → {b, c}` with `a → c` static, an extra root `z → y`, and data at
several stamps. -/
def exOps : List (Op Int) :=
  [put ['w'] ['a'] 10 1, put ['w'] ['a'] 20 3, put ['/', 'a'] ['b'] 12 100, put ['a'] ['b'] 18 200,
   put ['a'] ['/', 'c'] 0 1000 true, put ['z'] ['y'] 10 5, put ['z'] ['y'] 20 6]

/-- The buffer after that history, storage duration 100. -/
def exBuf : Buf Int := (Buf.init 100).run exOps

theorem exBuf_reachable : Reachable 100 exBuf := ⟨exOps, rfl⟩

/-- A history that creates a loop `p → q → p` and a separate tree `w → a`. -/
def loopOps : List (Op Int) :=
  [put ['p'] ['q'] 10 1 true, put ['q'] ['p'] 10 2 true, put ['w'] ['a'] 10 3 true]

/-- The buffer after that history. -/
def loopBuf : Buf Int := (Buf.init 100).run loopOps

theorem loopBuf_reachable : Reachable 100 loopBuf := ⟨loopOps, rfl⟩

end Tf2
