import Verif.Model.Convert

/-!
# Transforming a point cloud in Python

tf2_sensor_msgs/src/tf2_sensor_msgs/tf2_sensor_msgs.py. `sensor_msgs.point_cloud2` (`read_points`, `create_cloud`) is
not in the repo: it is modelled below after its source. The data of a cloud is a row of 4-byte words, as in
`Verif.Model.PointCloud`; every field has a 4-byte type, its offset and the steps are counted in words. The words are
real numbers: rounding to `float32`, integer fields and the byte order are not modelled.
-/
namespace Tf2.Geo.Py

/-- `sensor_msgs/PointField`: name, offset (in words) and count. -/
structure Field where
  name : Name
  offset : Nat
  count : Nat
deriving DecidableEq, Repr

/-- `sensor_msgs/PointCloud2`. -/
structure Cloud2 where
  header : Header
  height : Nat
  width : Nat
  fields : List Field
  pointStep : Nat
  rowStep : Nat
  data : List ℝ
  dense : Bool

/-- The format string `_get_struct_fmt` builds (`sensor_msgs.point_cloud2`, external), as the addresses of the values
of a point and the size of a point: for each field padding up to its offset, if that lies ahead, then its values. -/
def layout (off : Nat) : List Field → List Nat × Nat
  | [] => ([], off)
  | f :: fs =>
    let o := if off < f.offset then f.offset else off
    let r := layout (o + f.count) fs
    ((List.range f.count).map (o + ·) ++ r.1, r.2)

/-- `_get_struct_fmt`: the fields are sorted by offset (Python's `sorted` is stable), external. -/
def structOf (fields : List Field) : List Nat × Nat :=
  layout 0 (fields.insertionSort (fun f g => f.offset ≤ g.offset))

/-- `Struct.unpack_from(data, offset)`, external; `none`: `struct.error`, the buffer is too small. -/
def unpackFrom (st : List Nat × Nat) (data : List ℝ) (offset : Nat) : Option (List ℝ) :=
  if offset + st.2 ≤ data.length then some (st.1.map (fun a => data.getD (offset + a) 0)) else none

/-- A loop that calls `f` on each element; `none`: it raised. -/
def each {α β : Type} (f : α → Option β) : List α → Option (List β)
  | [] => some []
  | x :: xs =>
    match f x with
    | none => none
    | some y =>
      match each f xs with
      | none => none
      | some ys => some (y :: ys)

/-- Where the points of a cloud start, row by row: the two loops of `read_points`, external. -/
def starts (c : Cloud2) : List Nat :=
  (List.range c.height).flatMap (fun v => (List.range c.width).map (fun u => c.rowStep * v + c.pointStep * u))

/-- `Struct.pack_into(buff, offset, *p)` for the part of the buffer the point takes, external; `none`:
`struct.error`, the wrong number of values. The buffer is zero. -/
def packPoint (st : List Nat × Nat) (p : List ℝ) : Option (List ℝ) :=
  if p.length = st.1.length then some ((st.1.zip p).foldl (fun d av => d.set av.1 av.2) (List.replicate st.2 0))
  else none

/-- `create_cloud(header, fields, points)`, external. -/
def createCloud (h : Header) (fields : List Field) (points : List (List ℝ)) : Option Cloud2 :=
  let st := structOf fields
  match each (packPoint st) points with
  | none => none
  | some bufs => some ⟨h, 1, points.length, fields, st.2, st.2 * points.length, bufs.flatten, false⟩

/-- The body of the loop, tf2_sensor_msgs.py:55-57: the first three values are the coordinates, whatever the fields are
called; `none`: `IndexError`. -/
def movePoint (t : Xform ℝ) (p : List ℝ) : Option (List ℝ) :=
  match p with
  | x :: y :: z :: rest =>
    let q := t.apply ⟨x, y, z⟩
    some ([q.x, q.y, q.z] ++ rest)
  | _ => none

/-- `do_transform_cloud(cloud, transform)`, tf2_sensor_msgs.py:52-59; `none`: it raised. `read_points` is a generator:
a point is read when the loop asks for it. -/
def doTransformCloud (L : RotLib) (c : Cloud2) (tf : TfStamped) : Option Cloud2 :=
  let t := Kdl.toKdl L tf.transform
  let st := structOf c.fields
  match each (fun o => (unpackFrom st c.data o).bind (movePoint t)) (starts c) with
  | none => none
  | some points => createCloud tf.header c.fields points

end Tf2.Geo.Py
