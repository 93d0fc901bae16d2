import Verif.Model.GeoMsgs
import Verif.Spec.Geometry
import Mathlib.LinearAlgebra.Matrix.PosDef
import Mathlib.Algebra.Order.Star.Real

/-!
# Specification vocabulary for applying transforms to messages
-/
namespace Tf2.Geo

variable {S : Type}

/-- Reading a reference after writing through it gives what was written. -/
def Ref.Lawful {T : Type} (r : Ref S T) : Prop := ∀ v s, r.get (r.set v s) = v

/-- Writing through `o` is not seen through `r`: different objects. -/
def Ref.Apart {A B : Type} (r : Ref S A) (o : Ref S B) : Prop := ∀ v s, r.get (o.set v s) = r.get s

/-- The input may be the output object itself or another object. -/
def Ref.SameOrApart {T : Type} (i o : Ref S T) : Prop := i = o ∨ i.Apart o

/-- A memory holding one object: the in-place use `doTransform(m, m, transform)`. -/
def Ref.self {T : Type} : Ref T T := ⟨id, fun v _ => v⟩

/-- First and second object of a memory holding two. -/
def Ref.fst {T U : Type} : Ref (T × U) T := ⟨Prod.fst, fun v s => (v, s.2)⟩
def Ref.snd {T U : Type} : Ref (T × U) U := ⟨Prod.snd, fun v s => (s.1, v)⟩

/-- `doTransform(m, m, T)`: the message after transforming it in place. -/
def applied {T : Type} (f : Ref T T → Ref T T → TfStamped → T → T) (tf : TfStamped) (m : T) : T :=
  f Ref.self Ref.self tf m

/-- `doTransform(m, m, T)` for a `TransformStamped` `m`. -/
noncomputable def appliedTf (tf m : TfStamped) : TfStamped := (doTf Ref.fst Ref.fst Ref.snd (m, tf)).1

/-- What a caller may rely on whichever objects he passes: if `in` is the output object itself or another
object, then reading the output afterwards gives what the in-place call makes of the input (except for
what `merge` keeps of the old output), and no other object has changed. -/
def MutationSafe {T : Type} (f : ∀ {S : Type}, Ref S T → Ref S T → TfStamped → S → S) (merge : T → T → T) :
    Prop :=
  ∀ {S : Type} (inp out : Ref S T), out.Lawful → inp.SameOrApart out → ∀ (tf : TfStamped) (s : S),
    out.get (f inp out tf s) = merge (out.get s) (applied f tf (inp.get s)) ∧
    ∀ {U : Type} (r : Ref S U), r.Apart out → r.get (f inp out tf s) = r.get s

/-- Nothing of the old output is kept. -/
def replace {T : Type} (_old new : T) : T := new

/-- The output keeps its own sequence number. -/
def keepSeq {T : Type} (old new : Stamped T) : Stamped T :=
  { new with header := { new.header with seq := old.header.seq } }

/-- The rigid motion `v ↦ q v q* + t` of a transform, on pure quaternions. -/
noncomputable def motion (t : Pose) (v : Vec3 ℝ) : Quaternion ℝ :=
  t.rot.toH * v.toH * star t.rot.toH + t.trans.toH

/-- The rotation part `v ↦ q v q*`. -/
noncomputable def turn (t : Pose) (v : Vec3 ℝ) : Quaternion ℝ := t.rot.toH * v.toH * star t.rot.toH

/-- A rotation quaternion that is not zero (the C++ divides by its squared length). -/
def NonZero (t : Pose) : Prop := t.rot ≠ ⟨0, 0, 0, 0⟩

/-- A transform with the null rotation and translation; any header. -/
def IsIdentity (tf : TfStamped) : Prop := tf.transform = ⟨⟨0, 0, 0, 1⟩, ⟨0, 0, 0⟩⟩

/-- The 6×6 matrix stored row by row in 36 numbers. -/
def mat6 (c : Fin 36 → ℝ) : Matrix (Fin 6) (Fin 6) ℝ :=
  fun i j => c ⟨6 * i + j, by omega⟩

/-- `diag(R, R)`: 6×6 with `R` in both diagonal blocks and zeros elsewhere. -/
def blockDiag2 (r : Matrix (Fin 3) (Fin 3) ℝ) : Matrix (Fin 6) (Fin 6) ℝ :=
  fun i j =>
    if (i : ℕ) / 3 = (j : ℕ) / 3 then r ⟨i % 3, Nat.mod_lt _ (by decide)⟩ ⟨j % 3, Nat.mod_lt _ (by decide)⟩ else 0

/-- The rotation matrix of a transform message. -/
noncomputable def rotMat (t : Pose) : Matrix (Fin 3) (Fin 3) ℝ := (Mat3.ofQuat t.rot).toM

end Tf2.Geo
