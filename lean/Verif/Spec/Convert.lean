import Verif.Model.Convert
import Verif.Spec.Transform

/-!
# Specification vocabulary for conversions and for the library types
-/
namespace Tf2.Geo

variable {S : Type}

/-- What is assumed of a linear-algebra library: the matrix of a unit quaternion turns vectors as the
quaternion does (`v ↦ q v q*`), and the quaternion of a rotation matrix is a unit quaternion with that
matrix. -/
structure RotLib.Sound (L : RotLib) : Prop where
  ofQuat : ∀ q : Quat ℝ, q.Unit → ∀ v : Vec3 ℝ, ((L.ofQuat q).mulVec v).toH = q.toH * v.toH * star q.toH
  toQuat : ∀ m : Mat3 ℝ, m.IsRotation → (L.toQuat m).Unit ∧ L.ofQuat (L.toQuat m) = m

/-- Converting to a message and back, into whatever object, restores the value. -/
def KeepsValue {A M : Type} (toMsg : A → M) (fromMsg : M → A → A) (ok : A → Prop) : Prop :=
  ∀ a old, ok a → fromMsg (toMsg a) old = a

/-- Converting a message to a value, through whatever object, and back restores the message. -/
def KeepsMsg {A M : Type} (toMsg : A → M) (fromMsg : M → A → A) (ok : M → Prop) (same : M → M → Prop) : Prop :=
  ∀ m old, ok m → same (toMsg (fromMsg m old)) m

/-- Equal messages except for the sequence number, which the library types do not carry. -/
def sameButSeq {T : Type} (same : T → T → Prop) (a b : Stamped T) : Prop :=
  a.header.stamp = b.header.stamp ∧ a.header.frame = b.header.frame ∧ same a.data b.data

/-- A rigid transform: its matrix is a rotation. -/
def rigid (x : Xform ℝ) : Prop := x.basis.IsRotation
def rigidStamped (x : TStamped (Xform ℝ)) : Prop := rigid x.data

/-- A pose message with a unit quaternion. -/
def unitPoseStamped (m : Stamped PoseMsg) : Prop := unitPose m.data

/-- No condition. -/
def any {T : Type} (_ : T) : Prop := True

/-- The work of a library user: convert the message to the library's type (into an object that held `old`),
transform it there in place, convert the result back. -/
def through {T A : Type} (toMsg : TStamped A → Stamped T) (fromMsg : Stamped T → TStamped A → TStamped A)
    (f : Ref (TStamped A) (TStamped A) → Ref (TStamped A) (TStamped A) → TfStamped → TStamped A → TStamped A)
    (old : TStamped A) (tf : TfStamped) (m : Stamped T) : Stamped T :=
  toMsg (f Ref.self Ref.self tf (fromMsg m old))

/-- The velocity of the point of a rigid body that is at `p`, when the point at the origin moves with
`linear` and the body turns with `angular`. -/
def Twist.at (t : Twist) (p : Vec3 ℝ) : Vec3 ℝ := t.linear.add (t.angular.cross p)

/-- The power a wrench delivers on a body moving with a twist. -/
def power (w : Wrench) (t : Twist) : ℝ := w.force.dot t.linear + w.torque.dot t.angular

/-- Header stamp and frame of the result are those of the transform. -/
def Relabels {A : Type} (f : Ref (TStamped A) (TStamped A) → Ref (TStamped A) (TStamped A) → TfStamped →
    TStamped A → TStamped A) : Prop :=
  ∀ tf x, (f Ref.self Ref.self tf x).stamp = tf.header.stamp ∧ (f Ref.self Ref.self tf x).frame = tf.header.frame

end Tf2.Geo
