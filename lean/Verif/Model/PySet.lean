import Verif.Model.PyBuffer
import Verif.Model.ErrorText

/-!
# `set_transform` of the Python binding on arbitrary Python objects

`Model/PyBuffer.lean` takes the argument of `tf2_py.BufferCore.set_transform` to be a message. Here it is any
Python object, and the binding (tf2_py/src/tf2_py.cpp, tf2_py/src/python_compat.h, Python 3) reads its attributes
one by one. Also the texts that `can_transform_core` gives to Python.
-/
namespace Tf2.Py

variable {X K : Type}

/-- A Python object, as far as the binding looks at it. `text` is the contents if it is a `str` (that can be
encoded), `float` the result of `float(o)` (`none`: raises), `vector3` and `quaternion` whether it is an instance of
the message class, `toSec` the object returned by its method `to_sec` (`none`: no such method, or it raises), `attrs`
its attributes with a flag: whether a reference to the attribute's value remains after the binding has given its
own back (true for stored attributes, false for one computed on access). -/
inductive PObj (K : Type) where
  | mk (text : Option Name) (float : Option K) (vector3 quaternion : Bool) (toSec : Option (PObj K))
      (attrs : List (Name × PObj K × Bool))

namespace PObj

def text : PObj K → Option Name | mk t _ _ _ _ _ => t
def float : PObj K → Option K | mk _ f _ _ _ _ => f
def vector3 : PObj K → Bool | mk _ _ v _ _ _ => v
def quaternion : PObj K → Bool | mk _ _ _ q _ _ => q
def toSec : PObj K → Option (PObj K) | mk _ _ _ _ s _ => s
def attrs : PObj K → List (Name × PObj K × Bool) | mk _ _ _ _ _ a => a

end PObj

/-- A `PyObject*`: NULL, to an object, or to one that has been freed. -/
inductive Ptr (K : Type) where
  | null
  | obj (o : PObj K)
  | freed

/-- The attribute of an object (Python's `getattr`, external). -/
def getAttr (o : PObj K) (n : String) : Option (PObj K × Bool) := (o.attrs.find? (fun a => a.1 == n.toList)).map (·.2)

/-- `PyObject_HasAttrString` (external). -/
def hasAttr (o : PObj K) (n : String) : Bool := (getAttr o n).isSome

/-- `pythonBorrowAttrString`, python_compat.h:46-51; the outer `none`: the object is NULL or freed, using it ends the
process. When the attribute is missing the result is NULL. -/
def borrow (p : Ptr K) (n : String) : Option (Ptr K) :=
  match p with
  | .obj o =>
    match getAttr o n with
    | none => some .null
    | some (v, true) => some (.obj v)
    | some (_, false) => some .freed
  | _ => none

/-- `stringFromPython`, python_compat.h:26-37; `none`: undefined. For an object that is not a string
`PyUnicode_AsUTF8AndSize` returns NULL and leaves `size` as it was, uninitialised. -/
def stringFrom : Option (Ptr K) → Option Name
  | some (.obj o) => o.text
  | _ => none

/-- What the binding needs to know about doubles: -1, `ros::Time::fromSec` (`none`: throws), and how seven of them
(translation x y z, rotation x y z w) make a transform. -/
structure Doubles (K X : Type) where
  minusOne : K
  time : K → Option Time
  pose : K → K → K → K → K → K → K → X

/-- `PyFloat_AsDouble` (external): -1 with a Python exception set (second component) when it fails. -/
def asDouble (d : Doubles K X) (o : PObj K) : K × Bool :=
  match o.float with
  | some x => (x, false)
  | none => (d.minusOne, true)

/-- Outcome of a call of the binding: returns `None`; raises `TypeError`; raises `SystemError`, because it returned a result
while an exception was set (external: CPython's `_Py_CheckFunctionResult`); or ends the process or is
undefined (NULL or a freed object used, C++ exception through C). -/
inductive SetOut where
  | none
  | typeError
  | systemError
  | crash
deriving DecidableEq, Repr

/-- `rostime_converter`, tf2_py.cpp:151-162, called directly: `PyObject_CallMethod` on NULL fails like a missing
method. -/
inductive Stamp where
  | time (t : Time)
  | refused
  | crash

def stampFrom (d : Doubles K X) : Option (Ptr K) → Stamp
  | some .null => .refused
  | some (.obj o) =>
    match o.toSec with
    | none => .refused
    | some r =>
      match d.time (asDouble d r).1 with
      | some t => .time t
      | none => .crash
  | _ => .crash

/-- `PyFloat_AsDouble(pythonBorrowAttrString(o, n))` for an attribute that exists, tf2_py.cpp:447-449, 457-460; `none`:
freed. -/
def readDouble (d : Doubles K X) (o : PObj K) (n : String) : Option (K × Bool) :=
  match borrow (.obj o) n with
  | some (.obj v) => some (asDouble d v)
  | _ => none

/-- `checkTranslationType`, tf2_py.cpp:391-404; the second component: a warning was turned into an exception
(`strict`, Python's warnings filter). -/
def checkTranslation (strict : Bool) (o : PObj K) : Bool × Bool :=
  (hasAttr o "x" && hasAttr o "y" && hasAttr o "z", !o.vector3 && strict)

/-- `checkRotationType`, tf2_py.cpp:406-421. -/
def checkRotation (strict : Bool) (o : PObj K) : Bool × Bool :=
  (hasAttr o "w" && hasAttr o "x" && hasAttr o "y" && hasAttr o "z", !o.quaternion && strict)

/-- The end of `setTransform`, tf2_py.cpp:457-463: the rotation's numbers, the call, `None`. -/
def finishSet [Rigid X] (d : Doubles K X) (b : Buf X) (child frame : Name) (t : Time) (x y z : K) (pending : Bool)
    (r : PObj K) (auth : Name) (isStatic : Bool) : Buf X × SetOut :=
  match readDouble d r "x", readDouble d r "y", readDouble d r "z", readDouble d r "w" with
  | some qx, some qy, some qz, some qw =>
    match b.setTransform { parent := frame, child := child, stamp := t, xf := d.pose x y z qx.1 qy.1 qz.1 qw.1 } auth
        isStatic with
    | (b', .threw) => (b', .crash)
    | (b', .ub) => (b', .crash)
    | (b', _) => (b', if pending || qx.2 || qy.2 || qz.2 || qw.2 then .systemError else .none)
  | _, _, _, _ => (b, .crash)

/-- `setTransform` and `setTransformStatic`, tf2_py.cpp:423-464 and 466-507, for any object `o`. -/
def setObj [Rigid X] (d : Doubles K X) (strict : Bool) (b : Buf X) (o : PObj K) (auth : Name) (isStatic : Bool) :
    Buf X × SetOut :=
  match borrow (.obj o) "header" with                                                 -- 433
  | none => (b, .crash)
  | some header =>
    match stringFrom (borrow (.obj o) "child_frame_id") with                          -- 434
    | none => (b, .crash)
    | some child =>
      match stringFrom (borrow header "frame_id") with                                -- 435
      | none => (b, .crash)
      | some frame =>
        match stampFrom d (borrow header "stamp") with                                -- 436-437
        | .crash => (b, .crash)
        | .refused => (b, .typeError)
        | .time t =>
          match borrow (.obj o) "transform" with                                      -- 439
          | none => (b, .crash)
          | some mtransform =>
            match borrow mtransform "translation" with                                -- 441
            | some (.obj tr) =>
              let c := checkTranslation strict tr
              if !c.1 then (b, .typeError)                                            -- 442-445
              else
                match readDouble d tr "x", readDouble d tr "y", readDouble d tr "z" with
                | some x, some y, some z =>
                  match borrow mtransform "rotation" with                             -- 451
                  | some (.obj r) =>
                    let c' := checkRotation strict r
                    if !c'.1 then (b, .typeError)                                     -- 452-455
                    else finishSet d b child frame t x.1 y.1 z.1 (c.2 || x.2 || y.2 || z.2 || c'.2) r auth isStatic
                  | _ => (b, .crash)
                | _, _, _ => (b, .crash)
            | _ => (b, .crash)

/-! ### The text of `can_transform_core` -/

/-- `canTransformCore`, tf2_py.cpp:213-226, with the text of the tuple (`error_msg.c_str()`); the exception of preparing the
text is not caught. -/
def canCoreT [Rigid X] (fl : ℚ → ℚ) (R : Render) (b : Buf X) (target source : Name) (t : Time) : PyRes (Bool × Name) :=
  withTime fl t fun t =>
    match b.canTransformT R target source t (some []) with
    | .ok v e => .ok (v, cstr (e.getD []))
    | .throw _ _ => .crash
    | .ub => .crash

end Tf2.Py
