import Verif.Model.PyCloud
import Verif.Spec.Convert
import Verif.Spec.PointCloud

/-!
# Specification vocabulary for clouds in Python

A cloud has `width * height` points, point number `i` in row `i / width` and column `i % width`.
-/
namespace Tf2.Geo.Py

/-- Where point number `i` starts. -/
def Cloud2.start (c : Cloud2) (i : Nat) : Nat := c.rowStep * (i / c.width) + c.pointStep * (i % c.width)

/-- The word at offset `a` of point number `i`. -/
def Cloud2.word (c : Cloud2) (i a : Nat) : ℝ := c.data.getD (c.start i + a) 0

/-- The word at offset `a` of a point belongs to a field. -/
def Covered (fields : List Field) (a : Nat) : Prop := ∃ f ∈ fields, f.offset ≤ a ∧ a < f.offset + f.count

/-- Every field holds at least one value, and no two fields overlap. -/
def Separate (fields : List Field) : Prop :=
  (∀ f ∈ fields, 0 < f.count) ∧
  fields.Pairwise (fun f g => f.offset + f.count ≤ g.offset ∨ g.offset + g.count ≤ f.offset)

/-- Every field of every point lies within the data. -/
def Cloud2.Fits (c : Cloud2) : Prop :=
  ∀ i, i < c.width * c.height → ∀ f ∈ c.fields, c.start i + f.offset + f.count ≤ c.data.length

/-- `a`, `b`, `d` are the offsets of the first three words of a point that belong to fields. -/
def FirstThree (fields : List Field) (a b d : Nat) : Prop :=
  a < b ∧ b < d ∧ Covered fields a ∧ Covered fields b ∧ Covered fields d ∧
  ∀ e, Covered fields e → e = a ∨ e = b ∨ d ≤ e

end Tf2.Geo.Py
