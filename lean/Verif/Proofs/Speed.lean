import Verif.Spec.Speed
import Verif.Proofs.Rounded
import Verif.Proofs.Slerp
import Verif.Proofs.Drift
import Mathlib.Analysis.SpecialFunctions.Trigonometric.Bounds

/-!
# Interpolation moves at constant speed
-/
namespace Tf2

theorem Quat.Unit.length {q : Quat ℝ} (h : q.Unit) : q.length = 1 := by
  unfold Quat.length; rw [(Quat.unit_iff q).1 h, Real.sqrt_one]

theorem Quat.apart_ofAxisAngle {n : Vec3 ℝ} (hn : n.length2 = 1) (α β : ℝ) :
    (Quat.ofAxisAngle n α).apart (Quat.ofAxisAngle n β) ≤ |α - β| / 2 := by
  unfold Quat.apart Quat.ofAxisAngle Vec3.length
  simp only [hn, Real.sqrt_one, div_one]
  rw [show |α - β| / 2 = Real.sqrt ((|α - β| / 2) ^ 2) from (Real.sqrt_sq (by positivity)).symm]
  apply Real.sqrt_le_sqrt
  rw [div_pow, sq_abs]
  have h1 := Real.one_sub_sq_div_two_le_cos (x := α * (1 / 2) - β * (1 / 2))
  rw [Real.cos_sub] at h1
  have s1 := Real.sin_sq_add_cos_sq (α * (1 / 2))
  have s2 := Real.sin_sq_add_cos_sq (β * (1 / 2))
  simp only [Vec3.length2, Vec3.dot] at hn
  generalize Real.sin (α * (1 / 2)) = A at *
  generalize Real.cos (α * (1 / 2)) = B at *
  generalize Real.sin (β * (1 / 2)) = C at *
  generalize Real.cos (β * (1 / 2)) = E at *
  have : (n.x * A - n.x * C) ^ 2 + (n.y * A - n.y * C) ^ 2 + (n.z * A - n.z * C) ^ 2 + (B - E) ^ 2 =
      (A - C) ^ 2 + (B - E) ^ 2 := by linear_combination (A - C) ^ 2 * hn
  first
  | (rw [this]; nlinarith)
  | nlinarith [this]

theorem Quat.apart_slerp {a q : Quat ℝ} (ha : a.Unit) (hq : q.Unit) (r s : ℝ) :
    (a.slerp q r).apart (a.slerp q s) ≤ |r - s| * turnAngle a q / 2 := by
  obtain ⟨n, hn, h, _⟩ := Quat.slerp_axis ha hq
  rw [h r, h s, Quat.apart_mul_left, ha.length, one_mul]
  refine (Quat.apart_ofAxisAngle hn _ _).trans ?_
  rw [← sub_mul, abs_mul, Quat.angle_eq ha hq]
  have : 0 ≤ 2 * Real.arccos |a.dot q| := by have := Real.arccos_nonneg |a.dot q|; linarith
  rw [abs_of_nonneg this]; rfl

theorem Quat.rotate_neg' (q : Quat ℝ) (v : Vec3 ℝ) : q.neg.rotate v = q.rotate v := by
  ext <;> simp [Quat.rotate, Quat.mulVec, Quat.mul, Quat.inverse, Quat.neg] <;> ring

theorem Vec3.apart_interpolate3 (a b : Vec3 ℝ) (r s : ℝ) :
    (Vec3.interpolate3 a b r).apart (Vec3.interpolate3 a b s) = |r - s| * a.apart b := by
  unfold Vec3.apart Vec3.interpolate3
  rw [← Real.sqrt_sq_eq_abs, ← Real.sqrt_mul (sq_nonneg _)]
  congr 1
  ring

theorem Vec3.interpolate3_one (a b : Vec3 ℝ) : Vec3.interpolate3 a b 1 = b := by
  ext <;> simp [Vec3.interpolate3]

theorem turnAngle_nonneg (a b : Quat ℝ) : 0 ≤ turnAngle a b := by
  have := Real.arccos_nonneg |a.dot b|; unfold turnAngle; linarith

/-- Along an interpolation, the image of a point moves at most at the speed of the ends. -/
theorem Pose.apart_interp {a b : Pose} (ha : a.rot.Unit) (hb : b.rot.Unit) (i j d : Int) (u : Vec3 ℝ) :
    ((Pose.interp a b i d).act u).apart ((Pose.interp a b j d).act u) ≤
      |(i : ℝ) / d - (j : ℝ) / d| * (a.trans.apart b.trans + turnAngle a.rot b.rot * u.length) := by
  unfold Pose.act Pose.interp
  dsimp only
  refine (Vec3.apart_add _ _ _ _).trans ?_
  rw [Vec3.apart_interpolate3]
  have h1 := Vec3.apart_rotate (a.rot.slerp b.rot ((i : ℝ) / d)) (a.rot.slerp b.rot ((j : ℝ) / d)) u u
  rw [Vec3.apart_self, (Quat.slerp_unit ha hb _).length, (Quat.slerp_unit ha hb _).length] at h1
  have h2 := Quat.apart_slerp ha hb ((i : ℝ) / d) ((j : ℝ) / d)
  have h3 := mul_le_mul_of_nonneg_right h2 (Vec3.length_nonneg' u)
  linarith

theorem Pose.act_interp_one {a b : Pose} (ha : a.rot.Unit) (hb : b.rot.Unit) {d : Int} (hd : d ≠ 0) (u : Vec3 ℝ) :
    (Pose.interp a b d d).act u = b.act u := by
  have hd' : (d : ℝ) ≠ 0 := by exact_mod_cast hd
  unfold Pose.act Pose.interp
  dsimp only
  rw [div_self hd', Vec3.interpolate3_one]
  rcases Quat.slerp_one ha hb with h | h <;> rw [h]
  rw [Quat.rotate_neg']

theorem Pose.act_comp (e x : Pose) (u : Vec3 ℝ) : (Rigid.comp e x).act u = e.act (x.act u) := by
  show (Pose.comp e x).act u = _
  unfold Pose.act Pose.comp
  simp only [Quat.rotate_mul, Quat.rotate_add, Vec3.add_assoc']

theorem Vec3.apart_comm (a b : Vec3 ℝ) : a.apart b = b.apart a := by
  rw [← Quat.apart_pure, ← Quat.apart_pure]; exact Quat.apart_comm _ _

theorem Pose.apart_act {e : Pose} (he : e.rot.Unit) (p q : Vec3 ℝ) : (e.act p).apart (e.act q) = p.apart q := by
  have e0 : (e.act p).apart (e.act q) = (e.rot.rotate p).apart (e.rot.rotate q) := by
    unfold Pose.act Vec3.apart Vec3.add; simp
  rw [e0, ← Quat.apart_pure, Quat.pure_rotate, Quat.pure_rotate, Quat.apart_mul_right, Quat.apart_mul_left, Quat.apart_pure,
    Quat.length_inverse, he.length]; ring

theorem Pose.act_one (u : Vec3 ℝ) : (Rigid.one : Pose).act u = u := by
  show Pose.one.act u = u
  ext <;> simp [Pose.act, Pose.one, Quat.rotate, Quat.mulVec, Quat.mul, Quat.inverse, Quat.identity, Vec3.add, Vec3.zero]

theorem Pose.act_inv {y : Pose} (hy : y.rot.Unit) (p : Vec3 ℝ) : y.act ((Rigid.inv y).act p) = p := by
  rw [← Pose.act_comp, show Rigid.comp y (Rigid.inv y) = (Rigid.one : Pose) from Pose.comp_inv hy, Pose.act_one]

theorem Pose.length_act {e : Pose} (he : e.rot.Unit) (u : Vec3 ℝ) : (e.act u).length ≤ u.length + e.trans.length := by
  unfold Pose.act
  refine (Vec3.length_add_le _ _).trans ?_
  rw [Quat.length_rotate, (Quat.unit_iff _).1 he, one_mul]

theorem Pose.length_le_act {e : Pose} (he : e.rot.Unit) (u : Vec3 ℝ) : u.length ≤ (e.act u).length + e.trans.length := by
  have h := Vec3.length_add_le (e.act u) e.trans.neg
  rw [Vec3.length_neg] at h
  have e1 : (e.act u).add e.trans.neg = e.rot.rotate u := by
    unfold Pose.act; ext <;> simp [Vec3.add, Vec3.neg]
  rw [e1, Quat.length_rotate, (Quat.unit_iff _).1 he, one_mul] at h
  exact h

theorem Vec3.eq_of_apart {a b : Vec3 ℝ} (h : a.apart b = 0) : a = b := by
  unfold Vec3.apart at h
  have h' := (Real.sqrt_eq_zero (by positivity)).1 h
  have hx := sq_nonneg (a.x - b.x)
  have hy := sq_nonneg (a.y - b.y)
  have hz := sq_nonneg (a.z - b.z)
  ext
  · have : (a.x - b.x) ^ 2 = 0 := by linarith
    have := pow_eq_zero_iff (two_ne_zero) |>.1 this; linarith
  · have : (a.y - b.y) ^ 2 = 0 := by linarith
    have := pow_eq_zero_iff (two_ne_zero) |>.1 this; linarith
  · have : (a.z - b.z) ^ 2 = 0 := by linarith
    have := pow_eq_zero_iff (two_ne_zero) |>.1 this; linarith

end Tf2
