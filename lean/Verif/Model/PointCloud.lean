import Verif.Model.GeoMsgs

/-!
# `tf2_sensor_msgs`: applying a transform to a point cloud

The data of a cloud is a row of 4-byte words (`float32` scalars are real numbers, rounding is not
modelled); offsets and the point step are counted in words, i.e. fields are taken to be aligned.
`sensor_msgs::PointCloud2Iterator` is not in the repo: the iterator of a field named `x` is taken to
visit the word at the field's offset in each of the `width * height` points, in order.
-/
namespace Tf2.Geo

/-- `sensor_msgs::PointCloud2`: header, number of points (`width * height`), `point_step`, the offsets of
the fields `x`, `y`, `z`, and the data. -/
structure Cloud where
  header : Header
  points : Nat
  step : Nat
  offX : Nat
  offY : Nat
  offZ : Nat
  data : Nat → ℝ

variable {S : Type}

def Ref.cloudHeader (r : Ref S Cloud) : Ref S Header :=
  ⟨fun s => (r.get s).header, fun v s => r.set { r.get s with header := v } s⟩

/-- The word at address `a` of the data. -/
def Ref.word (r : Ref S Cloud) (a : Nat) : Ref S ℝ :=
  ⟨fun s => (r.get s).data a,
   fun v s => r.set { r.get s with data := fun k => if k = a then v else (r.get s).data k } s⟩

/-- `Eigen::Quaternion::toRotationMatrix()`, as used by `Translation3f * Quaternion<float>`
(tf2_sensor_msgs.h:74-77; Eigen is not in the repo): no division by the squared length, unlike
`tf2::Matrix3x3::setRotation`. -/
def eigenMat (q : Quat ℝ) : Mat3 ℝ :=
  let tx := 2 * q.x; let ty := 2 * q.y; let tz := 2 * q.z
  let twx := tx * q.w; let twy := ty * q.w; let twz := tz * q.w
  let txx := tx * q.x; let txy := ty * q.x; let txz := tz * q.x
  let tyy := ty * q.y; let tyz := tz * q.y; let tzz := tz * q.z
  ⟨⟨1 - (tyy + tzz), txy - twz, txz + twy⟩,
   ⟨txy + twz, 1 - (txx + tzz), tyz - twx⟩,
   ⟨txz - twy, tyz + twx, 1 - (txx + tyy)⟩⟩

/-- One round of the loop, for point number `i`, tf2_sensor_msgs.h:88-93: the addresses of the output
words are those of the output cloud. -/
def cloudStep (inp out : Ref S Cloud) (t : Xform ℝ) (i : Nat) (s : S) : S :=
  let ci := inp.get s
  let point := t.apply ⟨(inp.word (i * ci.step + ci.offX)).get s, (inp.word (i * ci.step + ci.offY)).get s,
    (inp.word (i * ci.step + ci.offZ)).get s⟩
  let co := out.get s
  let s := (out.word (i * co.step + co.offX)).set point.x s
  let s := (out.word (i * co.step + co.offY)).set point.y s
  (out.word (i * co.step + co.offZ)).set point.z s

/-- The loop `for(; x_in != x_in.end(); …)`, tf2_sensor_msgs.h:88: points `i`, …, `i + n - 1`. -/
def cloudLoop (inp out : Ref S Cloud) (t : Xform ℝ) : Nat → Nat → S → S
  | 0, _, s => s
  | n + 1, i, s => cloudLoop inp out t n (i + 1) (cloudStep inp out t i s)

/-- `doTransform(PointCloud2, …)`, tf2_sensor_msgs.h:67-94. -/
def doCloud (inp out : Ref S Cloud) (tf : TfStamped) (s : S) : S :=
  let s := out.set (inp.get s) s
  let s := out.cloudHeader.set tf.header s
  let t : Xform ℝ := ⟨eigenMat tf.transform.rot, tf.transform.trans⟩
  cloudLoop inp out t (inp.get s).points 0 s

end Tf2.Geo
