import Verif.Model.Pose
import Verif.Model.Ros

/-!
# The command line program `static_transform_publisher`

Models tf2_ros/src/static_transform_broadcaster_program.cpp. External: `ros::init` has removed the remapping
arguments from `argv`; `atof`; the parameter server; `XmlRpc::XmlRpcValue` (xmlrpcpp), whose conversions throw
`XmlRpcException` when the value has another type.
-/
namespace Tf2.Geo

/-- `XmlRpc::XmlRpcValue`, the types that matter here. A number written without a decimal point in a YAML file is
an `int` on the parameter server (external, rosparam). -/
inductive Xml where
  | invalid
  | int (n : Int)
  | double (r : ℝ)
  | string (s : Name)
  | struct (members : List (Name × Xml))
  | other

/-- `operator[](name)` on a structure, or the value of a member it does not have. -/
def Xml.get (v : Xml) (k : String) : Xml :=
  match v with
  | .struct ms => ((ms.find? (fun e => e.1 = k.toList)).map Prod.snd).getD .invalid
  | _ => .invalid

/-- `hasMember`: false on anything but a structure. -/
def Xml.has (v : Xml) (k : String) : Bool :=
  match v with
  | .struct ms => ms.any (fun e => e.1 = k.toList)
  | _ => false

/-- `(double) value` (xmlrpcpp, `assertTypeOrInvalid(TypeDouble)`): `none` is `XmlRpcException`. -/
noncomputable def Xml.toDouble : Xml → Option ℝ
  | .double r => some r
  | .invalid => some 0
  | _ => none

/-- `(std::string) value`. -/
def Xml.toStr : Xml → Option Name
  | .string s => some s
  | .invalid => some []
  | _ => none

/-- `validateXmlRpcTf`, static_transform_broadcaster_program.cpp:34-50. -/
def validateXmlRpcTf (d : Xml) : Bool :=
  d.has "child_frame_id" && d.has "header" && (d.get "header").has "frame_id" && d.has "transform" &&
  (d.get "transform").has "translation" && ((d.get "transform").get "translation").has "x" &&
  ((d.get "transform").get "translation").has "y" && ((d.get "transform").get "translation").has "z" &&
  (d.get "transform").has "rotation" && ((d.get "transform").get "rotation").has "x" &&
  ((d.get "transform").get "rotation").has "y" && ((d.get "transform").get "rotation").has "z" &&
  ((d.get "transform").get "rotation").has "w"

/-- What becomes of the program: it exits with a code; an exception nobody catches ends it; it spins, having
published with its broadcaster. -/
inductive ProgramOut where
  | exited (code : Int)
  | crashed
  | spinning (b : SBroadcaster Pose)

/-- The check and the publication, static_transform_broadcaster_program.cpp:130-143. -/
def publishChecked (m : Msg Pose) : ProgramOut :=
  if m.parent = m.child then .exited 1
  else .spinning (({} : SBroadcaster Pose).send [m])

/-- The message read from a parameter, static_transform_broadcaster_program.cpp:104-113: eight conversions, any of
which may throw (`none`). -/
noncomputable def msgOfParam (d : Xml) (now : Time) : Option (Msg Pose) := do
  let x ← (((d.get "transform").get "translation").get "x").toDouble
  let y ← (((d.get "transform").get "translation").get "y").toDouble
  let z ← (((d.get "transform").get "translation").get "z").toDouble
  let qx ← (((d.get "transform").get "rotation").get "x").toDouble
  let qy ← (((d.get "transform").get "rotation").get "y").toDouble
  let qz ← (((d.get "transform").get "rotation").get "z").toDouble
  let qw ← (((d.get "transform").get "rotation").get "w").toDouble
  let frame ← ((d.get "header").get "frame_id").toStr
  let child ← (d.get "child_frame_id").toStr
  return { parent := frame, child := child, stamp := now, xf := ⟨⟨qx, qy, qz, qw⟩, ⟨x, y, z⟩⟩ }

/-- `main`, static_transform_broadcaster_program.cpp:52-144. `argv` with the program's name first; `params` the
parameter server (`none`: not there or not readable); `now` is `ros::Time::now()`. -/
noncomputable def staticMain (atof : Name → ℝ) (params : Name → Option Xml) (now : Time) : List Name → ProgramOut
  | [_, x, y, z, qx, qy, qz, qw, frame, child] =>
    publishChecked { parent := frame, child := child, stamp := now,
                     xf := ⟨⟨atof qx, atof qy, atof qz, atof qw⟩, ⟨atof x, atof y, atof z⟩⟩ }
  | [_, a1, a2, a3, a4, a5, a6, frame, child] =>
    let quat := Quat.ofRPY (atof a6) (atof a5) (atof a4)
    publishChecked { parent := frame, child := child, stamp := now,
                     xf := ⟨⟨quat.x, quat.y, quat.z, quat.w⟩, ⟨atof a1, atof a2, atof a3⟩⟩ }
  | [_, name] =>
    match params name with
    | none => .exited (-1)
    | some d =>
      if validateXmlRpcTf d then
        match msgOfParam d now with
        | none => .crashed
        | some m => publishChecked m
      else .exited (-1)
  | _ => .exited (-1)

end Tf2.Geo
