import Verif.Spec.AxisAngle
import Verif.Model.AxisAngle
import Verif.Proofs.Slerp
import Verif.Proofs.Geometry

/-!
# Axis and angle of a rotation, shortest arcs: lemmas
-/
namespace Tf2
open Matrix

theorem Vec3.length2_eq (n : Vec3 ℝ) : n.length2 = n.x ^ 2 + n.y ^ 2 + n.z ^ 2 := by
  simp only [Vec3.length2, Vec3.dot]; ring

theorem Vec3.length2_nonneg (n : Vec3 ℝ) : 0 ≤ n.length2 := by
  rw [Vec3.length2_eq]; positivity

theorem Vec3.length2_pos {n : Vec3 ℝ} (h : n ≠ ⟨0, 0, 0⟩) : 0 < n.length2 := by
  rcases lt_or_eq_of_le n.length2_nonneg with h1 | h1
  · exact h1
  · exfalso; apply h
    rw [Vec3.length2_eq] at h1
    have hx : n.x ^ 2 = 0 := by nlinarith [sq_nonneg n.x, sq_nonneg n.y, sq_nonneg n.z]
    have hy : n.y ^ 2 = 0 := by nlinarith [sq_nonneg n.x, sq_nonneg n.y, sq_nonneg n.z]
    have hz : n.z ^ 2 = 0 := by nlinarith [sq_nonneg n.x, sq_nonneg n.y, sq_nonneg n.z]
    ext
    · exact pow_eq_zero_iff (two_ne_zero) |>.1 hx
    · exact pow_eq_zero_iff (two_ne_zero) |>.1 hy
    · exact pow_eq_zero_iff (two_ne_zero) |>.1 hz

/-- The unit vector along `n`. -/
noncomputable def Vec3.unitOf (n : Vec3 ℝ) : Vec3 ℝ := n.scale (1 / Real.sqrt n.length2)

theorem Vec3.unitOf_toV (n : Vec3 ℝ) : n.unitOf.toV = direction n.toV := by
  unfold Vec3.unitOf direction
  rw [Vec3.toV_scale, ← Vec3.dot_eq]; rfl

theorem Vec3.unitOf_length2 {n : Vec3 ℝ} (h : n ≠ ⟨0, 0, 0⟩) : n.unitOf.length2 = 1 := by
  have hp := Vec3.length2_pos h
  have h2 : Real.sqrt n.length2 ^ 2 = n.length2 := Real.sq_sqrt hp.le
  have h3 : Real.sqrt n.length2 ≠ 0 := (Real.sqrt_pos.2 hp).ne'
  have : n.unitOf.length2 = n.length2 * (1 / Real.sqrt n.length2) ^ 2 := by
    simp only [Vec3.unitOf, Vec3.length2, Vec3.dot, Vec3.scale]; ring
  rw [this]
  field_simp
  rw [h2]

theorem ofAxisAngle_unitOf (n : Vec3 ℝ) (θ : ℝ) :
    Quat.ofAxisAngle n θ = ⟨Real.sin (θ / 2) * n.unitOf.x, Real.sin (θ / 2) * n.unitOf.y,
      Real.sin (θ / 2) * n.unitOf.z, Real.cos (θ / 2)⟩ := by
  have e : θ * (1 / 2) = θ / 2 := by ring
  ext <;> simp only [Quat.ofAxisAngle, Vec3.unitOf, Vec3.scale, Vec3.length, e] <;> ring

theorem turn_half (u v : Vec3 ℝ) (hu : u.length2 = 1) (θ : ℝ) :
    ((⟨Real.sin (θ / 2) * u.x, Real.sin (θ / 2) * u.y, Real.sin (θ / 2) * u.z, Real.cos (θ / 2)⟩ : Quat ℝ).rotate
      v).toV = turn u.toV θ v.toV := by
  have hc : Real.cos θ = 2 * Real.cos (θ / 2) ^ 2 - 1 := by
    rw [← Real.cos_two_mul]; congr 1; ring
  have hs : Real.sin θ = 2 * Real.sin (θ / 2) * Real.cos (θ / 2) := by
    rw [← Real.sin_two_mul]; congr 1; ring
  have hsc := Real.sin_sq_add_cos_sq (θ / 2)
  rw [Vec3.length2_eq] at hu
  unfold turn
  rw [hc, hs]
  generalize Real.sin (θ / 2) = S at *
  generalize Real.cos (θ / 2) = C at *
  ext i
  fin_cases i <;>
    simp [Quat.rotate, Quat.mulVec, Quat.mul, Quat.inverse, Vec3.toV, cross_apply, dotProduct,
      Fin.sum_univ_three]
  · linear_combination ((u.x * (u.x * v.x + u.y * v.y + u.z * v.z)) * 2 - v.x) * hsc - S ^ 2 * v.x * hu
  · linear_combination ((u.y * (u.x * v.x + u.y * v.y + u.z * v.z)) * 2 - v.y) * hsc - S ^ 2 * v.y * hu
  · linear_combination ((u.z * (u.x * v.x + u.y * v.y + u.z * v.z)) * 2 - v.z) * hsc - S ^ 2 * v.z * hu

theorem Vec3.unitOf_of_unit {n : Vec3 ℝ} (h : n.length2 = 1) : n.unitOf = n := by
  ext <;> simp [Vec3.unitOf, Vec3.scale, h]

theorem Quat.Unit.w_le {q : Quat ℝ} (h : q.Unit) : -1 ≤ q.w ∧ q.w ≤ 1 := by
  unfold Quat.Unit at h
  constructor <;> nlinarith [sq_nonneg q.x, sq_nonneg q.y, sq_nonneg q.z]

/-- Turning a vector by the quaternion with vector part `r c` and scalar part `w`. -/
theorem Quat.rotate_expand (c v : Vec3 ℝ) (r w : ℝ) :
    (⟨c.x * r, c.y * r, c.z * r, w⟩ : Quat ℝ).rotate v =
      ((v.scale (w ^ 2 - r ^ 2 * c.dot c)).add (c.scale (2 * r ^ 2 * c.dot v))).add ((c.cross v).scale (2 * w * r)) := by
  ext <;> simp only [Quat.rotate, Quat.mulVec, Quat.mul, Quat.inverse, Vec3.add, Vec3.scale, Vec3.dot, Vec3.cross] <;>
    ring

theorem Vec3.cross_cross_self (a b : Vec3 ℝ) :
    (a.cross b).cross a = (b.scale a.length2).sub (a.scale (a.dot b)) := by
  ext <;> simp only [Vec3.cross, Vec3.scale, Vec3.sub, Vec3.length2, Vec3.dot] <;> ring

theorem Vec3.cross_dot_left (a b : Vec3 ℝ) : (a.cross b).dot a = 0 := by
  simp only [Vec3.cross, Vec3.dot]; ring

theorem Vec3.cross_dot_right (a b : Vec3 ℝ) : (a.cross b).dot b = 0 := by
  simp only [Vec3.cross, Vec3.dot]; ring

theorem Vec3.lagrange (a b : Vec3 ℝ) : (a.cross b).dot (a.cross b) = a.length2 * b.length2 - a.dot b ^ 2 := by
  simp only [Vec3.cross, Vec3.dot, Vec3.length2]; ring

theorem Vec3.dot_le_one {a b : Vec3 ℝ} (ha : a.length2 = 1) (hb : b.length2 = 1) : -1 ≤ a.dot b ∧ a.dot b ≤ 1 := by
  have h := Vec3.lagrange a b
  have h0 : 0 ≤ (a.cross b).dot (a.cross b) := Vec3.length2_nonneg _
  rw [ha, hb] at h
  constructor <;> nlinarith

theorem planeSpace1_spec {n : Vec3 ℝ} (h : n.length2 = 1) :
    (planeSpace1 n).1.length2 = 1 ∧ (planeSpace1 n).1.dot n = 0 ∧ (planeSpace1 n).2 = n.cross (planeSpace1 n).1 := by
  rw [Vec3.length2_eq] at h
  unfold planeSpace1
  split
  · rename_i hz
    have hz0 : n.z ≠ 0 := by
      intro h0; rw [h0] at hz; unfold sqrt12 at hz; norm_num at hz
    have ha : 0 < n.y * n.y + n.z * n.z := by
      have := mul_self_pos.2 hz0
      nlinarith [mul_self_nonneg n.y]
    have hk : (1 / Real.sqrt (n.y * n.y + n.z * n.z)) ^ 2 * (n.y * n.y + n.z * n.z) = 1 := by
      rw [div_pow, Real.sq_sqrt ha.le, one_pow, div_mul_cancel₀ _ ha.ne']
    dsimp only
    generalize 1 / Real.sqrt (n.y * n.y + n.z * n.z) = k at *
    refine ⟨?_, ?_, ?_⟩
    · rw [Vec3.length2_eq]; dsimp only; linear_combination hk
    · simp only [Vec3.dot]; ring
    · ext <;> simp only [Vec3.cross] <;> ring
  · rename_i hz
    have hz1 : n.z ^ 2 < 1 := by
      have h1 : |n.z| < 1 := lt_of_le_of_lt (not_lt.1 hz) (by unfold sqrt12; norm_num)
      rw [← sq_abs]; nlinarith [abs_nonneg n.z]
    have ha : 0 < n.x * n.x + n.y * n.y := by nlinarith
    have hk : (1 / Real.sqrt (n.x * n.x + n.y * n.y)) ^ 2 * (n.x * n.x + n.y * n.y) = 1 := by
      rw [div_pow, Real.sq_sqrt ha.le, one_pow, div_mul_cancel₀ _ ha.ne']
    dsimp only
    generalize 1 / Real.sqrt (n.x * n.x + n.y * n.y) = k at *
    refine ⟨?_, ?_, ?_⟩
    · rw [Vec3.length2_eq]; dsimp only; linear_combination hk
    · simp only [Vec3.dot]; ring
    · ext <;> simp only [Vec3.cross] <;> ring

end Tf2
