import Verif.Spec.GeoMsgs
import Verif.Spec.Buffer

/-!
# Specification vocabulary for `Buffer::transform`
-/
namespace Tf2.Geo

/-- A function `doTransform(in, out, transform)` on stamped data. -/
abbrev DoTransform (T : Type) :=
  ∀ {S : Type}, Ref S (Stamped T) → Ref S (Stamped T) → TfStamped → S → S

/-- The buffer was filled, from empty, with messages carrying exactly unit quaternions (some of which it
may have rejected). -/
def UnitBuffer (b : Buf Pose) : Prop :=
  ∃ D ops, AllOffered (fun p : Pose => p.rot.Unit) ops ∧ b = (Buf.init D).run ops

/-- A known frame with a legal name whose chain of parents at time `t` ends (no loop). -/
def Placed (b : Buf Pose) (t : Time) (n : Name) : Prop :=
  LegalName n ∧ ∃ i r, IsFrame b n i ∧ Rooted b t i r

/-- `m = buffer.transform(m, target)` -/
noncomputable def into {T : Type} (b : Buf Pose) (app : DoTransform T) (target : Name) (m : Stamped T) :
    Res (Stamped T) := transform b app Ref.self Ref.self target m

/-- `m = buffer.transform(m, target, target_time, fixed_frame)` -/
noncomputable def intoVia {T : Type} (b : Buf Pose) (app : DoTransform T) (target : Name) (tt : Time)
    (fixed : Name) (m : Stamped T) : Res (Stamped T) :=
  transformFixed b app Ref.self Ref.self target tt fixed m

/-- The result is labelled with the target frame and keeps the stamp, and transforming it back gives the
message one started from (in the sense of `same`). -/
def RoundTrip {T : Type} (app : DoTransform T) (ok : T → Prop) (same : T → T → Prop) : Prop :=
  ∀ {b : Buf Pose}, UnitBuffer b → ∀ {m m1 : Stamped T} {target : Name}, ok m.data → m.header.stamp ≠ 0 →
    Placed b m.header.stamp m.header.frame → Placed b m.header.stamp target →
    into b app target m = .ok m1 →
    m1.header.frame = target ∧ m1.header.stamp = m.header.stamp ∧
    ∃ m2, into b app m.header.frame m1 = .ok m2 ∧ m2.header = m.header ∧ same m2.data m.data

/-- Going to `target` by way of another frame gives exactly the message of the direct way. -/
def ByWayOf {T : Type} (app : DoTransform T) (ok : T → Prop) : Prop :=
  ∀ {b : Buf Pose}, UnitBuffer b → ∀ {m m1 m2 : Stamped T} {mid target : Name}, ok m.data →
    m.header.stamp ≠ 0 → Placed b m.header.stamp m.header.frame → Placed b m.header.stamp mid →
    Placed b m.header.stamp target →
    into b app mid m = .ok m1 → into b app target m1 = .ok m2 → into b app target m = .ok m2

/-- The fixed-frame version: into the fixed frame at the stamp of the message, then - taking the datum to
stand still in the fixed frame until `tt` - into the target frame at time `tt`. -/
def FixedFrameRule {T : Type} (app : DoTransform T) (ok : T → Prop) : Prop :=
  ∀ {b : Buf Pose}, UnitBuffer b → ∀ {m m' : Stamped T} {target fixed : Name} {tt : Time}, ok m.data →
    intoVia b app target tt fixed m = .ok m' →
    ∃ m1, into b app fixed m = .ok m1 ∧
      into b app target ⟨{ m1.header with stamp := tt }, m1.data⟩ = .ok m'

/-- No condition on the datum. -/
def anyData {T : Type} (_ : T) : Prop := True

/-- A pose with a unit quaternion. -/
def unitPose (p : PoseMsg) : Prop := p.orientation.Unit

/-- The same pose, up to the sign of the quaternion. -/
def samePose (p q : PoseMsg) : Prop :=
  p.position = q.position ∧ (p.orientation = q.orientation ∨ p.orientation = q.orientation.neg)

end Tf2.Geo
