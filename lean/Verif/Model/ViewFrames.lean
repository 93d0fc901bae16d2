import Verif.Model.FrameReport

/-!
# `view_frames`: the picture of the tree

Models tf2_tools/scripts/view_frames.py. The text in the DOT language is modelled as what it draws: the edges with their
labels, and the node the legend points to. External: `yaml.safe_load` (PyYAML), as the function from the text of an
unquoted key to the Python value it becomes; names that make the document unparsable, and names containing a quotation
mark, are outside the model.
-/
namespace Tf2

variable {X : Type}

/-- A key of the dictionary `yaml.safe_load` returns. A text such as `base` becomes that string; `7`, `on`, `~` become
other objects: `same` tells which of them are equal as keys (`1`, `1.0` and `on` are), `shown` is what `str` prints. -/
inductive YKey where
  | str (n : Name)
  | obj (same : Nat) (shown : Name)
deriving DecidableEq, Repr

/-- Equality of keys of a Python dictionary. -/
def YKey.eqKey : YKey → YKey → Bool
  | .str a, .str b => decide (a = b)
  | .obj c _, .obj d _ => decide (c = d)
  | _, _ => false

/-- `str(el)`. -/
def YKey.shown : YKey → Name
  | .str n => n
  | .obj _ s => s

/-- A dictionary: what is inserted last for a key stands, in the place and under the object of the first. -/
def insertKey (k : YKey) (r : FrameReport) : List (YKey × FrameReport) → List (YKey × FrameReport)
  | [] => [(k, r)]
  | e :: d => if e.1.eqKey k then (e.1, r) :: d else e :: insertKey k r d

/-- What `yaml.safe_load` makes of the blocks of `allFramesAsYAML`. -/
def loadYaml (load : Name → YKey) (L : List FrameReport) : List (YKey × FrameReport) :=
  L.foldl (fun d r => insertKey (load r.frame) r d) []

/-- An edge as it is drawn, tf2_tools/scripts/view_frames.py:60-67. -/
structure DotEdge where
  parent : Name
  child : Name
  broadcaster : Name
  count : Nat
  ratePer : Nat
  span : Duration
  latest : Time
  oldest : Time
deriving DecidableEq, Repr

/-- What `generate_dot` comes to. -/
inductive DotOut where
  /-- the picture saying that no data was received -/
  | noData
  /-- the edges, and the node the legend points to -/
  | drawn (edges : List DotEdge) (legend : Name)
  /-- `UnboundLocalError`: `root` was never assigned -/
  | unbound
  /-- `TypeError`: `len(None)` -/
  | noDict
deriving DecidableEq, Repr

/-- One round of the loop, tf2_tools/scripts/view_frames.py:58-69. -/
def dotStep (data : List (YKey × FrameReport)) (acc : List DotEdge × Option Name) (e : YKey × FrameReport) :
    List DotEdge × Option Name :=
  (acc.1 ++ [⟨e.2.parent, e.1.shown, e.2.broadcaster, e.2.count, e.2.ratePer, e.2.span, e.2.latest, e.2.oldest⟩],
   if data.any (fun d => d.1.eqKey (.str e.2.parent)) then acc.2 else some e.2.parent)

/-- `generate_dot`, tf2_tools/scripts/view_frames.py:53-74, of a dictionary. -/
def generateDot (data : List (YKey × FrameReport)) : DotOut :=
  match data with
  | [] => .noData
  | _ =>
    match data.foldl (dotStep data) ([], none) with
    | (_, none) => .unbound
    | (edges, some root) => .drawn edges root

/-- `generate_dot(yaml.safe_load(frame_yaml))`, tf2_tools/scripts/view_frames.py:48-50, where `frame_yaml` is what
`allFramesAsYAML()` of the buffer says (tf2_ros/src/tf2_ros/buffer.py:74-75, tf2_py/src/tf2_py.cpp:201-205,
tf2/src/buffer_core.cpp:1168-1228: current time 0). The text is `{}` for a buffer that never heard of a frame
(buffer_core.cpp:1175-1176); it is empty, and loads as `None`, if frames are known but none holds data. -/
def viewFrames [Rigid X] (load : Name → YKey) (b : Buf X) : Res DotOut :=
  match b.allFramesReport 0 with
  | .ub => .ub
  | .throw e => .throw e
  | .ok L =>
    if b.frames.length = 1 then .ok (generateDot [])
    else
      match L with
      | [] => .ok .noDict
      | _ => .ok (generateDot (loadYaml load L))

end Tf2
