import Verif.Model.PySet

/-!
# What a Python object given to `set_transform` says

Attributes and their values, in Python's terms; no pointers.
-/
namespace Tf2.Py

variable {X K : Type}

/-- The object has the attribute, and keeps its value alive. -/
def Has (o : PObj K) (n : String) (v : PObj K) : Prop :=
  ∃ l1 l2, o.attrs = l1 ++ (n.toList, v, true) :: l2 ∧ ∀ a ∈ l1, a.1 ≠ n.toList

/-- The object has no such attribute. -/
def Lacks (o : PObj K) (n : String) : Prop := ∀ a ∈ o.attrs, a.1 ≠ n.toList

/-- `o.header`, `o.header.frame_id`, `o.child_frame_id`, `o.header.stamp`, ... : the parts of an object that has the shape
of a `TransformStamped`. -/
structure Parts (o : PObj K) (child frame : Name) (stamp : PObj K) (x y z qx qy qz qw : PObj K) (tr rot : PObj K) :
    Prop where
  header : ∃ h c f, Has o "header" h ∧ Has o "child_frame_id" c ∧ c.text = some child ∧ Has h "frame_id" f ∧
    f.text = some frame ∧ Has h "stamp" stamp
  transform : ∃ m, Has o "transform" m ∧ Has m "translation" tr ∧ Has m "rotation" rot
  translation : Has tr "x" x ∧ Has tr "y" y ∧ Has tr "z" z
  rotation : Has rot "x" qx ∧ Has rot "y" qy ∧ Has rot "z" qz ∧ Has rot "w" qw

/-- The number stored for a value: -1 in place of what is not a number. -/
def Doubles.value (d : Doubles K X) (v : PObj K) : K := v.float.getD d.minusOne

/-- The number is a number. -/
def IsNum (v : PObj K) : Prop := ∃ x, v.float = some x

/-- The stamp the object gives. -/
def StampIs (d : Doubles K X) (stamp : PObj K) (t : Time) : Prop := ∃ r, stamp.toSec = some r ∧ d.time (d.value r) = some t

/-- A plain string object. -/
def PObj.str (s : Name) : PObj K := .mk (some s) none false false none []
/-- A plain number. -/
def PObj.num (x : K) : PObj K := .mk none (some x) false false none []
/-- An object with stored attributes. -/
def PObj.inst (v q : Bool) (l : List (String × PObj K)) : PObj K :=
  .mk none none v q none (l.map fun a => (a.1.toList, a.2, true))
/-- A `rospy.Time` whose `to_sec()` is `x`. -/
def PObj.stampObj (x : K) : PObj K := .mk none none false false (some (.num x)) []

/-- A `geometry_msgs.msg.TransformStamped` instance. -/
def PObj.message (child frame : Name) (sec : K) (x y z qx qy qz qw : K) : PObj K :=
  .inst false false [("header", .inst false false [("seq", .str []), ("stamp", .stampObj sec), ("frame_id", .str frame)]),
    ("child_frame_id", .str child),
    ("transform", .inst false false [
      ("translation", .inst true false [("x", .num x), ("y", .num y), ("z", .num z)]),
      ("rotation", .inst false true [("x", .num qx), ("y", .num qy), ("z", .num qz), ("w", .num qw)])])]

end Tf2.Py
