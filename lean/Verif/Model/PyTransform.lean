import Verif.Model.Convert
import Verif.Model.PyBuffer

/-!
# Transforming and converting objects in Python

tf2_ros/src/tf2_ros/buffer_interface.py (`BufferInterface.transform`, `transform_full`, the registries,
`convert`) and the two modules that register functions on load, tf2_geometry_msgs.py and tf2_kdl.py. Python's
objects are values here: which results share a header object with their arguments is not modelled.
-/
namespace Tf2.Geo.Py

open Tf2.Py

/-- The Python classes the two modules register functions for, and all others. -/
inductive Cls where
  | pointStamped
  | vector3Stamped
  | poseStamped
  | wrenchStamped
  | kdlVector
  | kdlFrame
  | kdlTwist
  | kdlWrench
  | other (n : Nat)
deriving DecidableEq, Repr

/-- Python objects. A PyKDL object has a `header` attribute once one was assigned to it (`tf2_ros.Stamped`,
buffer_interface.py:169-171, and the functions below). -/
inductive Obj where
  | point (m : Stamped (Vec3 ℝ))
  | vector3 (m : Stamped (Vec3 ℝ))
  | pose (m : Stamped PoseMsg)
  | wrench (m : Stamped Wrench)
  | kdlVector (h : Option Header) (v : Vec3 ℝ)
  | kdlFrame (h : Option Header) (x : Xform ℝ)
  | kdlTwist (h : Option Header) (t : Twist)
  | kdlWrench (h : Option Header) (w : Wrench)
  | other (n : Nat) (h : Option Header)

/-- `type(a)` -/
def Obj.cls : Obj → Cls
  | .point _ => .pointStamped
  | .vector3 _ => .vector3Stamped
  | .pose _ => .poseStamped
  | .wrench _ => .wrenchStamped
  | .kdlVector _ _ => .kdlVector
  | .kdlFrame _ _ => .kdlFrame
  | .kdlTwist _ _ => .kdlTwist
  | .kdlWrench _ _ => .kdlWrench
  | .other n _ => .other n

/-- `a.header`; `none`: `AttributeError`. -/
def Obj.header : Obj → Option Header
  | .point m => some m.header
  | .vector3 m => some m.header
  | .pose m => some m.header
  | .wrench m => some m.header
  | .kdlVector h _ => h
  | .kdlFrame h _ => h
  | .kdlTwist h _ => h
  | .kdlWrench h _ => h
  | .other _ h => h

/-- Outcome of a Python call: `typeException` is `tf2_ros.TypeException`, `failed` any other exception of Python
code, `tf` a failure of the buffer (`Tf2.Py.PyRes` without a value). -/
inductive Out (α : Type) where
  | ok (v : α)
  | typeException
  | failed
  | tf (r : PyRes Empty)

/-- A registered transformation: `f(object, transform)`. -/
abbrev DoFn := Obj → TfStamped → Out Obj

/-- A registered conversion. -/
abbrev ConvFn := Obj → Out Obj

/-- The four class-level dictionaries, buffer_interface.py:192-210: `TransformRegistration.__type_map`,
`ConvertRegistration.__to_msg_map`, `__from_msg_map`, `__convert_map`. They belong to the classes: every
`TransformRegistration()` sees the same ones. -/
structure Registry where
  transforms : Cls → Option DoFn
  toMsg : Cls → Option ConvFn
  fromMsg : Cls → Option ConvFn
  converts : Cls × Cls → Option ConvFn

/-- A fresh interpreter. -/
def Registry.empty : Registry := ⟨fun _ => none, fun _ => none, fun _ => none, fun _ => none⟩

/-- `d[k] = v` -/
def dictSet {K V : Type} [DecidableEq K] (d : K → Option V) (k : K) (v : V) : K → Option V :=
  fun j => if j = k then some v else d j

/-- A call that registers a function. -/
inductive RegOp where
  | transform (k : Cls) (f : DoFn)
  | toMsg (k : Cls) (f : ConvFn)
  | fromMsg (k : Cls) (f : ConvFn)
  | convert (k : Cls × Cls) (f : ConvFn)

/-- `TransformRegistration.add`, `ConvertRegistration.add_to_msg`, `add_from_msg`, `add_convert`,
buffer_interface.py:198-199 and 212-219. -/
def Registry.step (r : Registry) : RegOp → Registry
  | .transform k f => { r with transforms := dictSet r.transforms k f }
  | .toMsg k f => { r with toMsg := dictSet r.toMsg k f }
  | .fromMsg k f => { r with fromMsg := dictSet r.fromMsg k f }
  | .convert k f => { r with converts := dictSet r.converts k f }

/-- A history of registrations. -/
def Registry.run (r : Registry) (ops : List RegOp) : Registry := ops.foldl Registry.step r

/-- The rest of `convert` when the first attempt raised `TypeException`, buffer_interface.py:245-251. -/
def convertGeneric (r : Registry) (a : Obj) (b : Cls) : Out Obj :=
  if a.cls = b then .ok a
  else
    match r.toMsg a.cls with
    | none => .typeException
    | some f =>
      match r.fromMsg b with
      | none => .typeException
      | some g =>
        match f a with
        | .ok m => g m
        | .typeException => .typeException
        | .failed => .failed
        | .tf e => .tf e

/-- `convert(a, b_type)`, buffer_interface.py:239-251: `try` covers the call of the registered function too. -/
def convert (r : Registry) (a : Obj) (b : Cls) : Out Obj :=
  match r.converts (a.cls, b) with
  | none => convertGeneric r a b
  | some f =>
    match f a with
    | .typeException => convertGeneric r a b
    | .ok v => .ok v
    | .failed => .failed
    | .tf e => .tf e

/-- What follows the lookup: `do_transform`, then `convert` if `new_type` was given, buffer_interface.py:65-71. -/
def finish (r : Registry) (f : DoFn) (a : Obj) (newType : Option Cls) : PyRes (Msg Pose) → Out Obj
  | .ok l =>
    match f a (ofLookup l) with
    | .ok res =>
      match newType with
      | none => .ok res
      | some c => convert r res c
    | .typeException => .typeException
    | .failed => .failed
    | .tf e => .tf e
  | .raised e => .tf (.raised e)
  | .typeError => .tf .typeError
  | .interrupted => .tf .interrupted
  | .crash => .tf .crash

/-- `BufferInterface.transform` and `transform_full` of a `tf2_ros.Buffer`, buffer_interface.py:49-71 and 73-100, after
`n` steps of the wait (`Tf2.Py.pyLookup`): the function is looked up before anything else. `goal` makes the request
from the header. `none`: still waiting. -/
noncomputable def transformWith (r : Registry) (fl : ℚ → ℚ) (a : Obj) (goal : Header → Goal) (newType : Option Cls)
    (W : Nat → PyWorld Pose) (n : Nat) : Option (Out Obj) :=
  match r.transforms a.cls with
  | none => some .typeException
  | some f =>
    match a.header with
    | none => some .failed
    | some h =>
      match pyLookup fl (goal h) W n with
      | none => none
      | some res => some (finish r f a newType res)

/-- The request of `transform(object, target_frame, timeout)`, buffer_interface.py:66-67. -/
def simpleGoal (target : Name) (timeout : Duration) (h : Header) : Goal :=
  { target := target, source := h.frame, stime := h.stamp, timeout := timeout, advanced := false }

/-- The request of `transform_full(object, target_frame, target_time, fixed_frame, timeout)`,
buffer_interface.py:93-95. -/
def fullGoal (target : Name) (ttime : Time) (fixed : Name) (timeout : Duration) (h : Header) : Goal :=
  { target := target, ttime := ttime, source := h.frame, stime := h.stamp, fixed := fixed, timeout := timeout, advanced := true }

/-! ### tf2_geometry_msgs.py -/

/-- `to_msg_msg` and `from_msg_msg`, tf2_geometry_msgs.py:36-44: the argument itself, whatever it is. -/
def msgMsg (a : Obj) : Out Obj := .ok a

/-- `do_transform_wrench`, tf2_geometry_msgs.py:100-109. -/
def doWrench (L : RotLib) (m : Stamped Wrench) (tf : TfStamped) : Stamped Wrench :=
  let force := doVector L ⟨Header.fresh, m.data.force⟩ tf
  let torque := doVector L ⟨Header.fresh, m.data.torque⟩ tf
  ⟨tf.header, ⟨force.data, torque.data⟩⟩

/-- The functions above as registered for a class: on an object of another class they fail (they read the fields of
theirs). -/
def pointFn (L : RotLib) : DoFn
  | .point m, tf => .ok (.point (doPoint L m tf))
  | _, _ => .failed

/-- `do_transform_vector3` as registered, tf2_geometry_msgs.py:83. -/
def vector3Fn (L : RotLib) : DoFn
  | .vector3 m, tf => .ok (.vector3 (doVector L m tf))
  | _, _ => .failed

/-- `do_transform_pose` as registered, tf2_geometry_msgs.py:97. -/
def poseFn (L : RotLib) : DoFn
  | .pose m, tf => .ok (.pose (doPose L m tf))
  | _, _ => .failed

/-- `do_transform_wrench` as registered, tf2_geometry_msgs.py:110. -/
def wrenchFn (L : RotLib) : DoFn
  | .wrench m, tf => .ok (.wrench (doWrench L m tf))
  | _, _ => .failed

/-- The registrations of tf2_geometry_msgs.py, in order (39-110). -/
def geometryModule (L : RotLib) : List RegOp :=
  [.toMsg .vector3Stamped msgMsg, .toMsg .poseStamped msgMsg, .toMsg .pointStamped msgMsg,
   .fromMsg .vector3Stamped msgMsg, .fromMsg .poseStamped msgMsg, .fromMsg .pointStamped msgMsg,
   .transform .pointStamped (pointFn L), .transform .vector3Stamped (vector3Fn L),
   .transform .poseStamped (poseFn L), .transform .wrenchStamped (wrenchFn L)]

/-! ### tf2_kdl.py -/

/-- `do_transform_vector`, tf2_kdl.py:51-63. -/
def doKdlVector (L : RotLib) : DoFn
  | .kdlVector _ v, tf => .ok (.kdlVector (some tf.header) ((Kdl.toKdl L tf.transform).apply v))
  | _, _ => .failed

/-- `to_msg_vector`, tf2_kdl.py:67-80: the header is taken over whole. -/
def toMsgKdlVector : ConvFn
  | .kdlVector (some h) v => .ok (.point ⟨h, ⟨v.x, v.y, v.z⟩⟩)
  | _ => .failed

/-- `tf2_ros.Stamped(obj, stamp, frame_id)`, buffer_interface.py:169-171, on a PyKDL vector: a new header. -/
def stampedVector (v : Vec3 ℝ) (stamp : Time) (frame : Name) : Obj :=
  .kdlVector (some { Header.fresh with stamp := stamp, frame := frame }) v

/-- `from_msg_vector`, tf2_kdl.py:84-93. -/
def fromMsgKdlVector : ConvFn
  | .point m => .ok (stampedVector ⟨m.data.x, m.data.y, m.data.z⟩ m.header.stamp m.header.frame)
  | _ => .failed

/-- `convert_vector`, tf2_kdl.py:97-104. -/
def convertKdlVector : ConvFn
  | .kdlVector (some h) v => .ok (stampedVector v h.stamp h.frame)
  | _ => .failed

/-- `do_transform_frame`, tf2_kdl.py:108-120. -/
def doKdlFrame (L : RotLib) : DoFn
  | .kdlFrame _ x, tf => .ok (.kdlFrame (some tf.header) ((Kdl.toKdl L tf.transform).mul x))
  | _, _ => .failed

/-- `do_transform_twist`, tf2_kdl.py:123-135. -/
def doKdlTwist (L : RotLib) : DoFn
  | .kdlTwist _ t, tf => .ok (.kdlTwist (some tf.header) (Kdl.frameTwist (Kdl.toKdl L tf.transform) t))
  | _, _ => .failed

/-- `do_transform_wrench`, tf2_kdl.py:140-152. -/
def doKdlWrench (L : RotLib) : DoFn
  | .kdlWrench _ w, tf => .ok (.kdlWrench (some tf.header) (Kdl.frameWrench (Kdl.toKdl L tf.transform) w))
  | _, _ => .failed

/-- The registrations of tf2_kdl.py, in order (65-153). -/
def kdlModule (L : RotLib) : List RegOp :=
  [.transform .kdlVector (doKdlVector L), .toMsg .kdlVector toMsgKdlVector, .fromMsg .kdlVector fromMsgKdlVector,
   .convert (.kdlVector, .kdlVector) convertKdlVector, .transform .kdlFrame (doKdlFrame L),
   .transform .kdlTwist (doKdlTwist L), .transform .kdlWrench (doKdlWrench L)]

end Tf2.Geo.Py
