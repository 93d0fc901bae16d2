import Verif.Model.PyTransform
import Verif.Spec.Convert
import Verif.Spec.PyBuffer

/-!
# Specification vocabulary for transforming and converting in Python
-/
namespace Tf2.Geo.Py

open Tf2.Py

/-! ### Registries -/

/-- Which entry of which dictionary a registration is for. -/
inductive Slot where
  | transform (k : Cls)
  | toMsg (k : Cls)
  | fromMsg (k : Cls)
  | convert (k : Cls × Cls)
deriving DecidableEq

def RegOp.slot : RegOp → Slot
  | .transform k _ => .transform k
  | .toMsg k _ => .toMsg k
  | .fromMsg k _ => .fromMsg k
  | .convert k _ => .convert k

/-- `o` was made, and nothing was registered in its place since. -/
def Stands (ops : List RegOp) (o : RegOp) : Prop :=
  ∃ before after, ops = before ++ o :: after ∧ ∀ o' ∈ after, o'.slot ≠ o.slot

/-- Nothing was ever registered there. -/
def Vacant (ops : List RegOp) (s : Slot) : Prop := ∀ o ∈ ops, o.slot ≠ s

/-- Both modules were imported, in whatever order and with whatever else around, and nothing was registered in place of
what they register or of a conversion between their classes. -/
def Imported (L : RotLib) (ops : List RegOp) : Prop :=
  (∀ o ∈ geometryModule L, Stands ops o) ∧ (∀ o ∈ kdlModule L, Stands ops o) ∧
  (∀ a b, (∀ n, a ≠ .other n) → (∀ n, b ≠ .other n) → (a, b) ≠ (.kdlVector, .kdlVector) → Vacant ops (.convert (a, b)))

/-- The registry of an interpreter with that history. -/
def after (ops : List RegOp) : Registry := Registry.empty.run ops

/-! ### Transforming -/

/-- A buffer filled from Python with unit quaternions and stamps before 2038. -/
def UnitPython (fl : ℚ → ℚ) (b : Buf Pose) : Prop :=
  ∃ D ops, AllOffered (fun p : Pose => p.rot.Unit) ops ∧
    (∀ m a s, Op.set m a s ∈ ops → m.stamp + 119 < 2 ^ 31 * 1000000000) ∧ runCore fl ops (Buf.init D) = some b

/-- `buffer.transform(a, target)` -/
noncomputable def pyInto (r : Registry) (fl : ℚ → ℚ) (b : Buf Pose) (target : Name) (a : Obj) : Option (Out Obj) :=
  transformWith r fl a (simpleGoal target 0) none (fun _ => { buf := b, now := 0 }) 2

/-- `buffer.transform(a, target, new_type=c)` -/
noncomputable def pyIntoAs (r : Registry) (fl : ℚ → ℚ) (b : Buf Pose) (target : Name) (c : Cls) (a : Obj) : Option (Out Obj) :=
  transformWith r fl a (simpleGoal target 0) (some c) (fun _ => { buf := b, now := 0 }) 2

/-- `buffer.transform_full(a, target, target_time, fixed)` -/
noncomputable def pyIntoVia (r : Registry) (fl : ℚ → ℚ) (b : Buf Pose) (target : Name) (tt : Time) (fixed : Name) (a : Obj) :
    Option (Out Obj) :=
  transformWith r fl a (fullGoal target tt fixed 0) none (fun _ => { buf := b, now := 0 }) 2

/-- PyKDL objects with a header. -/
def kdlVectorOf (m : Stamped (Vec3 ℝ)) : Obj := .kdlVector (some m.header) m.data
def kdlFrameOf (m : Stamped (Xform ℝ)) : Obj := .kdlFrame (some m.header) m.data
def kdlTwistOf (m : Stamped Twist) : Obj := .kdlTwist (some m.header) m.data
def kdlWrenchOf (m : Stamped Wrench) : Obj := .kdlWrench (some m.header) m.data

/-- Into another frame and back: the stamp is the one that reached the buffer, and the datum is what it was. -/
def PyRoundTrip (r : Registry) (fl : ℚ → ℚ) {T : Type} (mk : Stamped T → Obj) (ok : T → Prop) (same : T → T → Prop) : Prop :=
  ∀ {b : Buf Pose}, UnitPython fl b → ∀ {m : Stamped T} {t : Time} {target : Name} {o : Obj}, ok m.data →
    m.header.stamp ≠ 0 → m.header.stamp ≤ TIME_MAX → timeIn fl m.header.stamp = some t →
    Placed b t m.header.frame → Placed b t target →
    pyInto r fl b target (mk m) = some (.ok o) →
    ∃ m1 m2, o = mk m1 ∧ m1.header = ⟨0, t, target⟩ ∧
      pyInto r fl b m.header.frame o = some (.ok (mk m2)) ∧ m2.header = ⟨0, t, m.header.frame⟩ ∧ same m2.data m.data

/-- Going to `target` by way of another frame gives exactly the object of the direct way. -/
def PyByWayOf (r : Registry) (fl : ℚ → ℚ) {T : Type} (mk : Stamped T → Obj) (ok : T → Prop) : Prop :=
  ∀ {b : Buf Pose}, UnitPython fl b → ∀ {m : Stamped T} {t : Time} {mid target : Name} {o1 o2 : Obj}, ok m.data →
    m.header.stamp ≠ 0 → m.header.stamp ≤ TIME_MAX → timeIn fl m.header.stamp = some t →
    Placed b t m.header.frame → Placed b t mid → Placed b t target →
    pyInto r fl b mid (mk m) = some (.ok o1) → pyInto r fl b target o1 = some (.ok o2) →
    pyInto r fl b target (mk m) = some (.ok o2)

/-- The fixed-frame version: into the fixed frame at the object's stamp, then, at the target time, into the target
frame. -/
def PyFixedFrame (r : Registry) (fl : ℚ → ℚ) {T : Type} (mk : Stamped T → Obj) (ok : T → Prop) : Prop :=
  ∀ {b : Buf Pose}, UnitPython fl b → ∀ {m : Stamped T} {target fixed : Name} {tt : Time} {o : Obj}, ok m.data →
    m.header.stamp + 119 < 2 ^ 31 * 1000000000 →
    pyIntoVia r fl b target tt fixed (mk m) = some (.ok o) →
    ∃ m1, pyInto r fl b fixed (mk m) = some (.ok (mk m1)) ∧
      pyInto r fl b target (mk ⟨{ m1.header with stamp := tt }, m1.data⟩) = some (.ok o)

/-- The outcome in Python of what C++ does with the outcome `c`: the same datum and header but for the sequence
number; the same class of exception; the end of the process from 2038 on. -/
def SameOutcome {T : Type} (mk : Stamped T → Obj) (same : T → T → Prop) (c : Res (Stamped T)) (o : Out Obj) : Prop :=
  match c with
  | .ok m' => (m'.header.stamp < 2 ^ 31 * 1000000000 ∧ ∃ m1, o = .ok (mk m1) ∧ sameButSeq same m1 m') ∨
      (2 ^ 31 * 1000000000 ≤ m'.header.stamp ∧ o = .tf .crash)
  | .throw e => o = .tf (.raised e) ∧ e.caughtBy .transform = true
  | .ub => False

/-- When its wait is over, `transform` and `transform_full` of Python do to an object what C++ does, on the same buffer,
to the object with the stamp (and the target time) that reached the buffer. -/
def PyAgrees (r : Registry) (fl : ℚ → ℚ) {T : Type} (mk : Stamped T → Obj) (app : DoTransform T) (ok : T → Prop)
    (same : T → T → Prop) : Prop :=
  ∀ {m : Stamped T} {t : Time} {W : Nat → PyWorld Pose} {n : Nat} {v : Bool} {target : Name} {timeout : Duration},
    ok m.data → timeIn fl m.header.stamp = some t → UnitPython fl (W n).buf →
    (pyWait fl (simpleGoal target timeout m.header) W n = .returned v →
      ∃ o, transformWith r fl (mk m) (simpleGoal target timeout) none W n = some o ∧
        SameOutcome mk same (into (W n).buf app target ⟨{ m.header with stamp := t }, m.data⟩) o) ∧
    (∀ {tt u : Time} {fixed : Name}, timeIn fl tt = some u →
      pyWait fl (fullGoal target tt fixed timeout m.header) W n = .returned v →
      ∃ o, transformWith r fl (mk m) (fullGoal target tt fixed timeout) none W n = some o ∧
        SameOutcome mk same (intoVia (W n).buf app target u fixed ⟨{ m.header with stamp := t }, m.data⟩) o)

end Tf2.Geo.Py
