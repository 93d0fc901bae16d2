import Verif.Model.PointCloud
import Verif.Spec.GeoMsgs

/-!
# Specification vocabulary for point clouds
-/
namespace Tf2.Geo

/-- A sane layout: the three coordinates of a point are different words inside the point. -/
def Cloud.Laid (c : Cloud) : Prop :=
  c.offX < c.step ∧ c.offY < c.step ∧ c.offZ < c.step ∧
  c.offX ≠ c.offY ∧ c.offX ≠ c.offZ ∧ c.offY ≠ c.offZ

/-- The coordinates of point number `i`. -/
def Cloud.pt (c : Cloud) (i : Nat) : Vec3 ℝ :=
  ⟨c.data (i * c.step + c.offX), c.data (i * c.step + c.offY), c.data (i * c.step + c.offZ)⟩

/-- The word at address `a` holds no coordinate of any point of the cloud. -/
def Cloud.Other (c : Cloud) (a : Nat) : Prop :=
  ∀ i, i < c.points → a ≠ i * c.step + c.offX ∧ a ≠ i * c.step + c.offY ∧ a ≠ i * c.step + c.offZ

end Tf2.Geo
