import Verif.Props.PoseDenote

/-!
# Lemmas about quaternions that are not of unit length
-/
namespace Tf2

namespace Quat

theorem length2_nonneg' (a : Quat ℝ) : 0 ≤ a.length2 := by
  unfold length2 dot
  nlinarith [mul_self_nonneg a.x, mul_self_nonneg a.y, mul_self_nonneg a.z, mul_self_nonneg a.w]

theorem length2_inverse (a : Quat ℝ) : a.inverse.length2 = a.length2 := by
  simp only [length2, dot, inverse]; ring

theorem length2_neg (a : Quat ℝ) : a.neg.length2 = a.length2 := by
  simp only [length2, dot, neg]; ring

theorem length2_side (a q : Quat ℝ) : (a.side q).length2 = q.length2 := by
  rcases side_eq a q with h | h <;> rw [h]
  exact length2_neg q

/-- `quatRotate` stretches by the square of the length. -/
theorem length2_rotate (a : Quat ℝ) (v : Vec3 ℝ) : (a.rotate v).length2 = a.length2 ^ 2 * v.length2 := by
  simp only [rotate, mulVec, mul, inverse, length2, dot, Vec3.length2, Vec3.dot]; ring

theorem length_rotate (a : Quat ℝ) (v : Vec3 ℝ) : (a.rotate v).length = a.length2 * v.length := by
  unfold Vec3.length
  rw [length2_rotate, Real.sqrt_mul (sq_nonneg _), Real.sqrt_sq (length2_nonneg' a)]

/-- The length of what `slerp` returns is between the lengths of its arguments. -/
theorem length2_slerp {a q : Quat ℝ} {lo hi : ℝ} (hlo : 0 < lo) (ha : lo ≤ a.length2) (ha' : a.length2 ≤ hi)
    (hq : lo ≤ q.length2) (hq' : q.length2 ≤ hi) {t : ℝ} (h0 : 0 ≤ t) (h1 : t ≤ 1) :
    lo ≤ (a.slerp q t).length2 ∧ (a.slerp q t).length2 ≤ hi := by
  set s := Real.sqrt (a.length2 * q.length2) with hs
  have hAp : 0 < a.length2 := lt_of_lt_of_le hlo ha
  have hQp : 0 < q.length2 := lt_of_lt_of_le hlo hq
  have hsp : 0 < s := Real.sqrt_pos.2 (mul_pos hAp hQp)
  have hs2 : s ^ 2 = a.length2 * q.length2 := Real.sq_sqrt (mul_pos hAp hQp).le
  have hslo : lo ≤ s := by
    rw [hs]; exact Real.le_sqrt_of_sq_le (by nlinarith)
  have hshi : s ≤ hi := by
    rw [hs]; exact Real.sqrt_le_iff.2 ⟨by linarith, by nlinarith⟩
  have hc : |a.dot q| ≤ s := by
    rw [hs]
    refine Real.abs_le_sqrt ?_
    simp only [length2, dot]
    nlinarith [sq_nonneg (a.x * q.y - a.y * q.x), sq_nonneg (a.x * q.z - a.z * q.x), sq_nonneg (a.x * q.w - a.w * q.x),
      sq_nonneg (a.y * q.z - a.z * q.y), sq_nonneg (a.y * q.w - a.w * q.y), sq_nonneg (a.z * q.w - a.w * q.z)]
  set c := |a.dot q| / s with hcd
  have hc0 : 0 ≤ c := by positivity
  have hc1 : c ≤ 1 := (div_le_one hsp).2 hc
  set th := Real.arccos c with hth
  have hang : a.angleShortestPath q / 2 = th := by
    unfold angleShortestPath
    simp only [← hs, tf2Acos_eq]
    split
    · next h => rw [dot_neg, hth, hcd, abs_of_neg h]; ring
    · next h => rw [hth, hcd, abs_of_nonneg (not_lt.1 h)]; ring
  by_cases hz : th = 0
  · have : a.slerp q t = a := by
      unfold slerp
      simp only [hang]
      rw [if_neg (not_not.2 hz)]
    rw [this]
    exact ⟨ha, ha'⟩
  · have hcos : Real.cos th = c := Real.cos_arccos (by linarith) hc1
    have hth0 : 0 ≤ th := Real.arccos_nonneg c
    have hthp : 0 < th := lt_of_le_of_ne hth0 (Ne.symm hz)
    have hthle : th ≤ Real.pi / 2 := Real.arccos_le_pi_div_two.2 hc0
    have hpi := Real.pi_pos
    have hsin : 0 < Real.sin th := Real.sin_pos_of_pos_of_lt_pi hthp (by linarith)
    set al := Real.sin ((1 - t) * th) * (1 / Real.sin th) with hal
    set be := Real.sin (t * th) * (1 / Real.sin th) with hbe
    have hsl : a.slerp q t = ⟨al * a.x + be * (a.side q).x, al * a.y + be * (a.side q).y,
        al * a.z + be * (a.side q).z, al * a.w + be * (a.side q).w⟩ := by
      unfold slerp side
      simp only [hang]
      rw [if_pos hz]
      split <;> ext <;> simp only [neg] <;> ring
    have hal0 : 0 ≤ al := by
      refine mul_nonneg (Real.sin_nonneg_of_nonneg_of_le_pi (by nlinarith) (by nlinarith)) (by positivity)
    have hbe0 : 0 ≤ be := by
      refine mul_nonneg (Real.sin_nonneg_of_nonneg_of_le_pi (by nlinarith) (by nlinarith)) (by positivity)
    have hone : al ^ 2 + be ^ 2 + 2 * al * be * c = 1 := by
      have h2 : Real.sin ((1 - t) * th) = Real.sin th * Real.cos (t * th) - Real.cos th * Real.sin (t * th) := by
        rw [← Real.sin_sub]; ring_nf
      have h3 := Real.sin_sq_add_cos_sq (t * th)
      have h4 := Real.sin_sq_add_cos_sq th
      rw [← hcos, hal, hbe, h2]
      field_simp
      generalize Real.sin (t * th) = S at *
      generalize Real.cos (t * th) = C at *
      have e1 : C ^ 2 = 1 - S ^ 2 := by linarith
      have e2 : Real.cos th ^ 2 = 1 - Real.sin th ^ 2 := by linarith
      ring_nf
      rw [e1, e2]
      ring
    have hlen : (a.slerp q t).length2 = al ^ 2 * a.length2 + be ^ 2 * q.length2 + 2 * al * be * (c * s) := by
      have e : c * s = a.dot (a.side q) := by
        rw [dot_side, hcd]; field_simp
      rw [e, ← length2_side a q, hsl]
      simp only [length2, dot]; ring
    rw [hlen]
    have hab : 0 ≤ 2 * al * be * c := by positivity
    constructor
    · have := mul_le_mul_of_nonneg_left ha (sq_nonneg al)
      have := mul_le_mul_of_nonneg_left hq (sq_nonneg be)
      have := mul_le_mul_of_nonneg_left hslo hab
      nlinarith
    · have := mul_le_mul_of_nonneg_left ha' (sq_nonneg al)
      have := mul_le_mul_of_nonneg_left hq' (sq_nonneg be)
      have := mul_le_mul_of_nonneg_left hshi hab
      nlinarith

end Quat

namespace Vec3

theorem length_nonneg' (v : Vec3 ℝ) : 0 ≤ v.length := Real.sqrt_nonneg _

theorem length_add_le (u v : Vec3 ℝ) : (u.add v).length ≤ u.length + v.length := by
  have hu : u.length ^ 2 = u.length2 := Real.sq_sqrt (by unfold length2 dot; nlinarith [mul_self_nonneg u.x, mul_self_nonneg u.y, mul_self_nonneg u.z])
  have hv : v.length ^ 2 = v.length2 := Real.sq_sqrt (by unfold length2 dot; nlinarith [mul_self_nonneg v.x, mul_self_nonneg v.y, mul_self_nonneg v.z])
  have h1 := length_nonneg' u
  have h2 := length_nonneg' v
  have hd : u.dot v ≤ u.length * v.length := by
    refine le_trans (le_abs_self _) (abs_le_of_sq_le_sq ?_ (by positivity)) |>.trans le_rfl
    rw [mul_pow, hu, hv]
    simp only [length2, dot]
    nlinarith [sq_nonneg (u.x * v.y - u.y * v.x), sq_nonneg (u.x * v.z - u.z * v.x), sq_nonneg (u.y * v.z - u.z * v.y)]
  refine Real.sqrt_le_iff.2 ⟨by positivity, ?_⟩
  have : (u.add v).length2 = u.length2 + v.length2 + 2 * u.dot v := by
    simp only [length2, dot, add]; ring
  rw [this]
  nlinarith

theorem length_scale (v : Vec3 ℝ) {s : ℝ} (hs : 0 ≤ s) : (v.scale s).length = s * v.length := by
  unfold length
  have : (v.scale s).length2 = s ^ 2 * v.length2 := by simp only [length2, dot, scale]; ring
  rw [this, Real.sqrt_mul (sq_nonneg _), Real.sqrt_sq hs]

theorem length_neg (v : Vec3 ℝ) : v.neg.length = v.length := by
  unfold length
  have : v.neg.length2 = v.length2 := by simp only [length2, dot, neg]; ring
  rw [this]

theorem length_interpolate {u v : Vec3 ℝ} {L : ℝ} (hu : u.length ≤ L) (hv : v.length ≤ L) {t : ℝ} (h0 : 0 ≤ t) (h1 : t ≤ 1) :
    (interpolate3 u v t).length ≤ L := by
  have : interpolate3 u v t = (u.scale (1 - t)).add (v.scale t) := by
    ext <;> simp only [interpolate3, add, scale] <;> ring
  rw [this]
  refine (length_add_le _ _).trans ?_
  rw [length_scale _ (by linarith), length_scale _ h0]
  nlinarith

end Vec3

end Tf2
