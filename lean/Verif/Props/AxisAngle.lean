import Verif.Proofs.AxisAngle

/-!
# C57, C58: axis and angle of a rotation, shortest arcs
-/
namespace Tf2
open Matrix

/-- **C57**: the quaternion built from an axis and an angle, used as a quaternion, as a matrix or through
`Vector3::rotate`, turns every vector by that angle about the direction of the axis; building is additive in the
angle. -/
theorem C57_axis_angle (n : Vec3 ℝ) (hn : n ≠ ⟨0, 0, 0⟩) (θ : ℝ) :
    (Quat.ofAxisAngle n θ).Unit ∧
    (Quat.ofAxisAngle n θ).toH = axisTurn (direction n.toV) θ ∧
    (∀ v : Vec3 ℝ, ((Quat.ofAxisAngle n θ).rotate v).toV = turn (direction n.toV) θ v.toV) ∧
    (∀ v : Vec3 ℝ, (Mat3.ofQuat (Quat.ofAxisAngle n θ)).toM *ᵥ v.toV = turn (direction n.toV) θ v.toV) ∧
    (n.toV ⬝ᵥ n.toV = 1 → ∀ v : Vec3 ℝ, (v.rotate n θ).toV = turn n.toV θ v.toV) ∧
    (∀ φ, (Quat.ofAxisAngle n θ).mul (Quat.ofAxisAngle n φ) = Quat.ofAxisAngle n (θ + φ)) := by
  have hu := Vec3.unitOf_length2 hn
  have hunit := Quat.ofAxisAngle_unit (Vec3.length2_pos hn).ne' θ
  have hrot : ∀ v : Vec3 ℝ, ((Quat.ofAxisAngle n θ).rotate v).toV = turn (direction n.toV) θ v.toV := by
    intro v
    rw [ofAxisAngle_unitOf, turn_half _ _ hu, Vec3.unitOf_toV]
  refine ⟨hunit, ?_, hrot, ?_, ?_, ?_⟩
  · rw [ofAxisAngle_unitOf, ← Vec3.unitOf_toV]; rfl
  · intro v
    rw [← Mat3.toV_mulVec, Mat3.ofQuat_mulVec_unit _ hunit, hrot]
  · intro _ v
    unfold Vec3.rotate turn
    simp only [Vec3.toV_add, Vec3.toV_scale, Vec3.toV_sub, Vec3.toV_cross, Vec3.dot_eq]
  · intro φ
    rw [Vec3.length2_eq] at hu
    rw [ofAxisAngle_unitOf, ofAxisAngle_unitOf, ofAxisAngle_unitOf, show (θ + φ) / 2 = θ / 2 + φ / 2 by ring,
      Real.sin_add, Real.cos_add]
    ext <;> simp only [Quat.mul]
    · ring
    · ring
    · ring
    · linear_combination -(Real.sin (θ / 2) * Real.sin (φ / 2)) * hu

/-- **C57**: reading the angle and the axis of a unit quaternion. The angle lies in [0, 2π] (in [0, π] along the
shortest path); unless the rotation is within the tolerance of a full turn, the axis is a unit vector and building a
quaternion from what was read gives the quaternion back. -/
theorem C57_extract (q : Quat ℝ) (hq : q.Unit) (eps : ℝ) (he : 0 < eps) :
    0 ≤ q.getAngle ∧ q.getAngle ≤ 2 * Real.pi ∧
    q.getAngleShortestPath = min q.getAngle (2 * Real.pi - q.getAngle) ∧
    0 ≤ q.getAngleShortestPath ∧ q.getAngleShortestPath ≤ Real.pi ∧
    (q.getAxis eps).toV ⬝ᵥ (q.getAxis eps).toV = 1 ∧
    (10 * eps ≤ 1 - q.w ^ 2 → Quat.ofAxisAngle (q.getAxis eps) q.getAngle = q) := by
  have hw := hq.w_le
  have ha0 := Real.arccos_nonneg q.w
  have ha1 := Real.arccos_le_pi q.w
  have hg : q.getAngle = 2 * Real.arccos q.w := by unfold Quat.getAngle; rw [tf2Acos_eq]
  have hsp : q.getAngleShortestPath = min q.getAngle (2 * Real.pi - q.getAngle) := by
    rw [hg]; unfold Quat.getAngleShortestPath
    rw [tf2Acos_eq, tf2Acos_eq, Real.arccos_neg]
    split
    · rename_i h0
      have := Real.arccos_le_pi_div_two.2 h0
      rw [min_eq_left (by linarith)]
    · rename_i h0
      have : Real.pi / 2 ≤ Real.arccos q.w := le_of_lt (not_le.1 fun h => h0 (Real.arccos_le_pi_div_two.1 h))
      rw [min_eq_right (by linarith)]; ring
  have hax : 10 * eps ≤ 1 - q.w ^ 2 → 0 < Real.sqrt (1 - q.w ^ 2) ∧ Real.sqrt (1 - q.w ^ 2) ^ 2 = 1 - q.w ^ 2 := by
    intro h
    exact ⟨Real.sqrt_pos.2 (by linarith), Real.sq_sqrt (by linarith)⟩
  have hau : (q.getAxis eps).length2 = 1 := by
    unfold Quat.getAxis
    dsimp only
    split
    · simp [Vec3.length2_eq]
    · rename_i h
      obtain ⟨h1, h2⟩ := hax (not_lt.1 h)
      rw [Vec3.length2_eq]; dsimp only
      generalize Real.sqrt (1 - q.w ^ 2) = s at *
      field_simp
      unfold Quat.Unit at hq
      linear_combination hq - h2
  refine ⟨by rw [hg]; linarith, by rw [hg]; linarith, hsp, ?_, ?_, ?_, ?_⟩
  · rw [hsp, hg]; apply le_min <;> linarith
  · rw [hsp, hg]
    rcases le_total (Real.arccos q.w) (Real.pi / 2) with h | h
    · exact (min_le_left _ _).trans (by linarith)
    · exact (min_le_right _ _).trans (by linarith)
  · rw [← Vec3.dot_eq]; exact hau
  · intro h
    obtain ⟨h1, h2⟩ := hax h
    rw [ofAxisAngle_unitOf, Vec3.unitOf_of_unit hau, hg, show 2 * Real.arccos q.w / 2 = Real.arccos q.w by ring,
      Real.sin_arccos, Real.cos_arccos hw.1 hw.2]
    unfold Quat.getAxis
    dsimp only
    rw [if_neg (not_lt.2 h)]
    ext <;> dsimp only <;> field_simp

/-- **C57**: what was built from an axis and an angle strictly between 0 and 2π is read back exactly, outside the
tolerance. -/
theorem C57_round_trip (n : Vec3 ℝ) (θ eps : ℝ) (h0 : 0 ≤ θ) (h1 : θ ≤ 2 * Real.pi)
    (he : 0 < eps) :
    (Quat.ofAxisAngle n θ).getAngle = θ ∧
    (10 * eps ≤ Real.sin (θ / 2) ^ 2 → ((Quat.ofAxisAngle n θ).getAxis eps).toV = direction n.toV) := by
  rw [ofAxisAngle_unitOf]
  constructor
  · unfold Quat.getAngle
    rw [tf2Acos_eq, Real.arccos_cos (by linarith) (by linarith)]; ring
  · intro h
    have hs0 : 0 ≤ Real.sin (θ / 2) := Real.sin_nonneg_of_nonneg_of_le_pi (by linarith) (by linarith)
    have hc : 1 - Real.cos (θ / 2) ^ 2 = Real.sin (θ / 2) ^ 2 := by
      rw [← Real.sin_sq_add_cos_sq (θ / 2)]; ring
    have hs : Real.sin (θ / 2) ≠ 0 := by
      intro h2; rw [h2] at h; nlinarith
    unfold Quat.getAxis
    dsimp only
    rw [hc, if_neg (not_lt.2 h), Real.sqrt_sq hs0, ← Vec3.unitOf_toV]
    congr 1
    ext <;> dsimp only <;> field_simp

/-- **C57**, finding: whatever the positive tolerance, there is a unit quaternion for which the axis and angle that are
read describe another rotation. -/
theorem C57_small_angle_finding (eps : ℝ) (he : 0 < eps) :
    ∃ q : Quat ℝ, q.Unit ∧ ∃ v : Vec3 ℝ, (Quat.ofAxisAngle (q.getAxis eps) q.getAngle).rotate v ≠ q.rotate v := by
  -- a turn about z with sine `s` of the half angle below the tolerance
  obtain ⟨s, hs0, hs1, hse⟩ : ∃ s : ℝ, 0 < s ∧ s < 1 ∧ s ^ 2 < 10 * eps := by
    refine ⟨min (1 / 2) eps, lt_min (by norm_num) he, lt_of_le_of_lt (min_le_left _ _) (by norm_num), ?_⟩
    have h1 := min_le_left (1 / 2 : ℝ) eps
    have h2 := min_le_right (1 / 2 : ℝ) eps
    have h3 : 0 < min (1 / 2) eps := lt_min (by norm_num) he
    nlinarith
  have hc2 : Real.sqrt (1 - s ^ 2) ^ 2 = 1 - s ^ 2 := Real.sq_sqrt (by nlinarith)
  have hc0 : 0 < Real.sqrt (1 - s ^ 2) := Real.sqrt_pos.2 (by nlinarith)
  have hunit : (⟨0, 0, s, Real.sqrt (1 - s ^ 2)⟩ : Quat ℝ).Unit := by
    unfold Quat.Unit; dsimp only; rw [hc2]; ring
  refine ⟨⟨0, 0, s, Real.sqrt (1 - s ^ 2)⟩, hunit, ⟨1, 0, 0⟩, ?_⟩
  intro h
  have hax : (⟨0, 0, s, Real.sqrt (1 - s ^ 2)⟩ : Quat ℝ).getAxis eps = ⟨1, 0, 0⟩ := by
    unfold Quat.getAxis
    dsimp only
    rw [hc2, if_pos (by linarith)]
  rw [hax] at h
  have hy := congrArg Vec3.y h
  simp [Quat.ofAxisAngle, Quat.rotate, Quat.mulVec, Quat.mul, Quat.inverse, Vec3.length, Vec3.length2, Vec3.dot] at hy
  nlinarith [mul_pos hs0 hc0]

/-- **C57**: the angle between two unit quaternions is the angle of the rotation leading from one to the other. -/
theorem C57_between (a b : Quat ℝ) (ha : a.Unit) (hb : b.Unit) :
    a.angleShortestPath b = (a.inverse.mul b).getAngleShortestPath ∧
    2 * a.angle b = (a.inverse.mul b).getAngle ∧
    a.angleShortestPath b = b.angleShortestPath a ∧
    (∀ c : Quat ℝ, c.Unit → (c.mul a).angleShortestPath (c.mul b) = a.angleShortestPath b) := by
  have hw : ∀ a b : Quat ℝ, (a.inverse.mul b).w = a.dot b := by
    intro a b; simp only [Quat.mul, Quat.inverse, Quat.dot]; ring
  have key : ∀ a b : Quat ℝ, a.Unit → b.Unit →
      a.angleShortestPath b = (a.inverse.mul b).getAngleShortestPath := by
    intro a b ha hb
    unfold Quat.angleShortestPath Quat.getAngleShortestPath
    rw [hw, (Quat.unit_iff a).1 ha, (Quat.unit_iff b).1 hb]
    simp only [mul_one, Real.sqrt_one, div_one, Quat.dot_neg, ge_iff_le]
    by_cases h : a.dot b < 0
    · rw [if_pos h, if_neg (not_le.2 h)]; ring
    · rw [if_neg h, if_pos (not_lt.1 h)]; ring
  refine ⟨key a b ha hb, ?_, ?_, ?_⟩
  · unfold Quat.angle Quat.getAngle
    rw [hw, (Quat.unit_iff a).1 ha, (Quat.unit_iff b).1 hb]
    simp
  · rw [key a b ha hb, key b a hb ha]
    unfold Quat.getAngleShortestPath
    rw [hw, hw, show b.dot a = a.dot b by simp only [Quat.dot]; ring]
  · intro c hc
    rw [key _ _ (hc.mul ha) (hc.mul hb), key a b ha hb]
    unfold Quat.getAngleShortestPath
    have : (c.mul a).dot (c.mul b) = a.dot b := by
      have h1 : (c.mul a).dot (c.mul b) = c.length2 * a.dot b := by
        simp only [Quat.mul, Quat.dot, Quat.length2]; ring
      rw [h1, (Quat.unit_iff c).1 hc, one_mul]
    rw [hw, hw, this]

/-- **C57**: the angle between two non-zero vectors or quaternions, of whatever lengths, is the number in [0, π] whose
cosine is the scalar product of the directions; half of `angleShortestPath` is the same with the absolute value, in
[0, π/2]. -/
theorem C57_angle :
    (∀ a v : Vec3 ℝ, a ≠ ⟨0, 0, 0⟩ → v ≠ ⟨0, 0, 0⟩ → 0 ≤ a.angle v ∧ a.angle v ≤ Real.pi ∧
      a.length * v.length * Real.cos (a.angle v) = a.dot v) ∧
    (∀ a b : Quat ℝ, a ≠ ⟨0, 0, 0, 0⟩ → b ≠ ⟨0, 0, 0, 0⟩ → 0 ≤ a.angle b ∧ a.angle b ≤ Real.pi ∧
      a.length * b.length * Real.cos (a.angle b) = a.dot b) ∧
    (∀ a b : Quat ℝ, a ≠ ⟨0, 0, 0, 0⟩ → b ≠ ⟨0, 0, 0, 0⟩ → 0 ≤ a.angleShortestPath b ∧ a.angleShortestPath b ≤ Real.pi ∧
      a.length * b.length * Real.cos (a.angleShortestPath b / 2) = |a.dot b|) := by
  have key : ∀ d p q : ℝ, 0 < p → 0 < q → d * d ≤ p * q →
      Real.sqrt p * Real.sqrt q * Real.cos (Real.arccos (d / Real.sqrt (p * q))) = d := by
    intro d p q hp hq h
    have hpos : 0 < Real.sqrt (p * q) := Real.sqrt_pos.2 (mul_pos hp hq)
    have habs : |d| ≤ Real.sqrt (p * q) := by
      apply Real.abs_le_sqrt; rw [sq]; exact h
    obtain ⟨h1, h2⟩ := abs_le.1 habs
    rw [Real.cos_arccos, ← Real.sqrt_mul hp.le, mul_div_cancel₀ _ hpos.ne']
    · rw [le_div_iff₀ hpos]; linarith
    · rw [div_le_one hpos]; exact h2
  have v3 : ∀ a : Vec3 ℝ, a ≠ ⟨0, 0, 0⟩ → 0 < a.length2 := by
    intro a ha
    rcases (show 0 ≤ a.length2 by simp only [Vec3.length2, Vec3.dot]; nlinarith [sq_nonneg a.x, sq_nonneg a.y, sq_nonneg a.z]).lt_or_eq with h | h
    · exact h
    · exfalso; apply ha
      simp only [Vec3.length2, Vec3.dot] at h
      have hx : a.x = 0 := by nlinarith [mul_self_nonneg a.x, mul_self_nonneg a.y, mul_self_nonneg a.z]
      have hy : a.y = 0 := by nlinarith [mul_self_nonneg a.x, mul_self_nonneg a.y, mul_self_nonneg a.z]
      have hz : a.z = 0 := by nlinarith [mul_self_nonneg a.x, mul_self_nonneg a.y, mul_self_nonneg a.z]
      ext <;> assumption
  have q4 : ∀ a : Quat ℝ, a ≠ ⟨0, 0, 0, 0⟩ → 0 < a.length2 := by
    intro a ha
    have s1 := mul_self_nonneg a.x
    have s2 := mul_self_nonneg a.y
    have s3 := mul_self_nonneg a.z
    have s4 := mul_self_nonneg a.w
    rcases (show 0 ≤ a.length2 by simp only [Quat.length2, Quat.dot]; linarith).lt_or_eq with h | h
    · exact h
    · exfalso; apply ha
      simp only [Quat.length2, Quat.dot] at h
      have hx : a.x = 0 := mul_self_eq_zero.1 (by linarith)
      have hy : a.y = 0 := mul_self_eq_zero.1 (by linarith)
      have hz : a.z = 0 := mul_self_eq_zero.1 (by linarith)
      have hw : a.w = 0 := mul_self_eq_zero.1 (by linarith)
      ext <;> assumption
  have cs : ∀ a b : Quat ℝ, a.dot b * a.dot b ≤ a.length2 * b.length2 := by
    intro a b
    simp only [Quat.dot, Quat.length2]
    nlinarith [sq_nonneg (a.x * b.y - a.y * b.x), sq_nonneg (a.x * b.z - a.z * b.x), sq_nonneg (a.x * b.w - a.w * b.x),
      sq_nonneg (a.y * b.z - a.z * b.y), sq_nonneg (a.y * b.w - a.w * b.y), sq_nonneg (a.z * b.w - a.w * b.z)]
  refine ⟨?_, ?_, ?_⟩
  · intro a v ha hv
    unfold Vec3.angle Vec3.length
    rw [tf2Acos_eq]
    refine ⟨Real.arccos_nonneg _, Real.arccos_le_pi _, key _ _ _ (v3 a ha) (v3 v hv) ?_⟩
    simp only [Vec3.dot, Vec3.length2]
    nlinarith [sq_nonneg (a.x * v.y - a.y * v.x), sq_nonneg (a.x * v.z - a.z * v.x), sq_nonneg (a.y * v.z - a.z * v.y)]
  · intro a b ha hb
    unfold Quat.angle Quat.length
    rw [tf2Acos_eq]
    exact ⟨Real.arccos_nonneg _, Real.arccos_le_pi _, key _ _ _ (q4 a ha) (q4 b hb) (cs a b)⟩
  · intro a b ha hb
    have e : a.angleShortestPath b = Real.arccos (|a.dot b| / Real.sqrt (a.length2 * b.length2)) * 2 := by
      unfold Quat.angleShortestPath
      simp only [tf2Acos_eq, Quat.dot_neg]
      split
      · next h => rw [abs_of_neg h]
      · next h => rw [abs_of_nonneg (not_lt.1 h)]
    have hnn : 0 ≤ |a.dot b| / Real.sqrt (a.length2 * b.length2) := div_nonneg (abs_nonneg _) (Real.sqrt_nonneg _)
    rw [e]
    refine ⟨by have := Real.arccos_nonneg (|a.dot b| / Real.sqrt (a.length2 * b.length2)); linarith, ?_, ?_⟩
    · have := Real.arccos_le_pi_div_two.2 hnn; linarith
    · rw [mul_div_assoc, div_self two_ne_zero, mul_one]
      unfold Quat.length
      refine key _ _ _ (q4 a ha) (q4 b hb) ?_
      rw [abs_mul_abs_self]; exact cs a b

/-- Non-vacuity: two non-zero vectors that are not unit vectors. -/
example : (⟨0, 3, 0⟩ : Vec3 ℝ) ≠ ⟨0, 0, 0⟩ ∧ (⟨2, 0, 2, 0⟩ : Quat ℝ) ≠ ⟨0, 0, 0, 0⟩ ∧
    (⟨2, 0, 2, 0⟩ : Quat ℝ).length2 ≠ 1 := by
  refine ⟨?_, ?_, ?_⟩
  · intro h; injection h with _ h _; norm_num at h
  · intro h; injection h with h; norm_num at h
  · simp only [Quat.length2, Quat.dot]; norm_num

/-- **C58**: the shortest arc quaternion of two unit vectors that are not (nearly) opposite is a unit quaternion that
turns the first into the second, about an axis orthogonal to both, by the angle between them; no rotation that
turns the first into the second has a smaller angle. -/
theorem C58_shortest_arc (v0 v1 : Vec3 ℝ) (h0 : v0.toV ⬝ᵥ v0.toV = 1) (h1 : v1.toV ⬝ᵥ v1.toV = 1) (eps : ℝ)
    (he : 0 < eps) (hd : -1 + eps ≤ v0.toV ⬝ᵥ v1.toV) :
    (shortestArcQuat eps v0 v1).Unit ∧
    (shortestArcQuat eps v0 v1).rotate v0 = v1 ∧
    (let q := shortestArcQuat eps v0 v1; q.x * v0.x + q.y * v0.y + q.z * v0.z = 0 ∧
      q.x * v1.x + q.y * v1.y + q.z * v1.z = 0) ∧
    (shortestArcQuat eps v0 v1).getAngle = Real.arccos (v0.toV ⬝ᵥ v1.toV) ∧
    (∀ q : Quat ℝ, q.Unit → q.rotate v0 = v1 → (shortestArcQuat eps v0 v1).getAngle ≤ q.getAngleShortestPath) := by
  rw [← Vec3.dot_eq] at h0 h1 hd ⊢
  change v0.length2 = 1 at h0
  change v1.length2 = 1 at h1
  have hdd := Vec3.dot_le_one h0 h1
  have hq : shortestArcQuat eps v0 v1 = ⟨(v0.cross v1).x * (1 / Real.sqrt ((1 + v0.dot v1) * 2)),
      (v0.cross v1).y * (1 / Real.sqrt ((1 + v0.dot v1) * 2)), (v0.cross v1).z * (1 / Real.sqrt ((1 + v0.dot v1) * 2)),
      Real.sqrt ((1 + v0.dot v1) * 2) * (1 / 2)⟩ := by
    unfold shortestArcQuat
    dsimp only
    rw [if_neg (not_lt.2 hd)]
  have hpos : 0 < (1 + v0.dot v1) * 2 := by nlinarith
  have hs2 : Real.sqrt ((1 + v0.dot v1) * 2) ^ 2 = (1 + v0.dot v1) * 2 := Real.sq_sqrt hpos.le
  have hsp : 0 < Real.sqrt ((1 + v0.dot v1) * 2) := Real.sqrt_pos.2 hpos
  have hangle : (shortestArcQuat eps v0 v1).getAngle = Real.arccos (v0.dot v1) := by
    have hw : (shortestArcQuat eps v0 v1).w = Real.cos (Real.arccos (v0.dot v1) / 2) := by
      have ha0 := Real.arccos_nonneg (v0.dot v1)
      have ha1 := Real.arccos_le_pi (v0.dot v1)
      rw [hq, Real.cos_half (by linarith [Real.pi_pos]) ha1, Real.cos_arccos hdd.1 hdd.2]
      dsimp only
      rw [← Real.sqrt_sq (by positivity : (0:ℝ) ≤ Real.sqrt ((1 + v0.dot v1) * 2) * (1 / 2)), mul_pow, hs2]
      congr 1; ring
    unfold Quat.getAngle
    have ha0 := Real.arccos_nonneg (v0.dot v1)
    have ha1 := Real.arccos_le_pi (v0.dot v1)
    rw [tf2Acos_eq, hw, Real.arccos_cos (by linarith) (by linarith [Real.pi_pos])]; ring
  have hwabs : (shortestArcQuat eps v0 v1).w = Real.sqrt ((1 + v0.dot v1) * 2) * (1 / 2) := by rw [hq]
  refine ⟨?_, ?_, ?_, hangle, ?_⟩
  · rw [hq]
    have hl := Vec3.lagrange v0 v1
    rw [h0, h1] at hl
    unfold Quat.Unit
    dsimp only
    generalize Real.sqrt ((1 + v0.dot v1) * 2) = s at *
    have hl' : (v0.cross v1).x ^ 2 + (v0.cross v1).y ^ 2 + (v0.cross v1).z ^ 2 = 1 - v0.dot v1 ^ 2 := by
      rw [← one_mul (1 : ℝ), ← hl]; simp only [Vec3.dot]; ring
    have e : ((v0.cross v1).x * (1 / s)) ^ 2 + ((v0.cross v1).y * (1 / s)) ^ 2 + ((v0.cross v1).z * (1 / s)) ^ 2 +
        (s * (1 / 2)) ^ 2 = ((v0.cross v1).x ^ 2 + (v0.cross v1).y ^ 2 + (v0.cross v1).z ^ 2) * (1 / s) ^ 2 +
          s ^ 2 / 4 := by
      ring
    have hr : (1 / s) ^ 2 * ((1 + v0.dot v1) * 2) = 1 := by rw [← hs2]; field_simp
    rw [e, hl', hs2]
    linear_combination (1 - v0.dot v1) / 2 * hr
  · rw [hq, Quat.rotate_expand, Vec3.lagrange, Vec3.cross_dot_left, Vec3.cross_cross_self, h0, h1]
    generalize Real.sqrt ((1 + v0.dot v1) * 2) = s at *
    have e1 : (s * (1 / 2)) ^ 2 - (1 / s) ^ 2 * (1 * 1 - v0.dot v1 ^ 2) = v0.dot v1 := by
      have hr : (1 / s) ^ 2 * ((1 + v0.dot v1) * 2) = 1 := by rw [← hs2]; field_simp
      linear_combination hs2 / 4 - (1 - v0.dot v1) / 2 * hr
    have e2 : 2 * (s * (1 / 2)) * (1 / s) = 1 := by field_simp
    rw [e1, e2]
    ext <;> simp only [Vec3.add, Vec3.scale, Vec3.sub] <;> ring
  · dsimp only
    rw [hq]
    dsimp only
    constructor
    · have := Vec3.cross_dot_left v0 v1
      simp only [Vec3.dot] at this ⊢
      linear_combination (1 / Real.sqrt ((1 + (v0.x * v1.x + v0.y * v1.y + v0.z * v1.z)) * 2)) * this
    · have := Vec3.cross_dot_right v0 v1
      simp only [Vec3.dot] at this ⊢
      linear_combination (1 / Real.sqrt ((1 + (v0.x * v1.x + v0.y * v1.y + v0.z * v1.z)) * 2)) * this
  · intro q hqu hrot
    have hdot : v0.dot v1 = (q.w ^ 2 - (q.x ^ 2 + q.y ^ 2 + q.z ^ 2)) * v0.length2 +
        2 * (q.x * v0.x + q.y * v0.y + q.z * v0.z) ^ 2 := by
      rw [← hrot]
      simp only [Quat.rotate, Quat.mulVec, Quat.mul, Quat.inverse, Vec3.dot, Vec3.length2]; ring
    have hqu' := hqu
    unfold Quat.Unit at hqu'
    have hw2 : q.w ^ 2 ≤ (1 + v0.dot v1) / 2 := by
      rw [hdot, h0]; nlinarith [sq_nonneg (q.x * v0.x + q.y * v0.y + q.z * v0.z)]
    have habs : |q.w| ≤ (shortestArcQuat eps v0 v1).w := by
      rw [hwabs]
      refine abs_le_of_sq_le_sq ?_ (by positivity)
      rw [mul_pow, hs2]; linarith
    have hsp' : q.getAngleShortestPath = 2 * Real.arccos |q.w| := by
      unfold Quat.getAngleShortestPath
      rw [tf2Acos_eq, tf2Acos_eq]
      split
      · rename_i h; rw [abs_of_nonneg h]
      · rename_i h; rw [abs_of_neg (not_le.1 h)]
    rw [hsp']
    unfold Quat.getAngle
    rw [tf2Acos_eq]
    have := Real.antitone_arccos habs
    linarith

/-- **C58**: two (nearly) opposite unit vectors: the result is a half turn that carries the first vector to its exact
opposite, which is at distance √(2 + 2 v0·v1) < √(2 eps) of the second. -/
theorem C58_opposite (v0 v1 : Vec3 ℝ) (h0 : v0.toV ⬝ᵥ v0.toV = 1) (h1 : v1.toV ⬝ᵥ v1.toV = 1) (eps : ℝ)
    (hd : v0.toV ⬝ᵥ v1.toV < -1 + eps) :
    (shortestArcQuat eps v0 v1).Unit ∧
    (shortestArcQuat eps v0 v1).getAngle = Real.pi ∧
    (shortestArcQuat eps v0 v1).rotate v0 = v0.neg ∧
    ((shortestArcQuat eps v0 v1).rotate v0).distance2 v1 = 2 + 2 * (v0.toV ⬝ᵥ v1.toV) ∧
    ((shortestArcQuat eps v0 v1).rotate v0).distance2 v1 < 2 * eps ∧
    (v1 = v0.neg → (shortestArcQuat eps v0 v1).rotate v0 = v1) := by
  rw [← Vec3.dot_eq] at h0 h1 hd ⊢
  change v0.length2 = 1 at h0
  change v1.length2 = 1 at h1
  obtain ⟨hp1, hp2, -⟩ := planeSpace1_spec h0
  have hq : shortestArcQuat eps v0 v1 = ⟨(planeSpace1 v0).1.x, (planeSpace1 v0).1.y, (planeSpace1 v0).1.z, 0⟩ := by
    unfold shortestArcQuat
    dsimp only
    rw [if_pos hd]
  rw [hq]
  generalize (planeSpace1 v0).1 = p at *
  have hr : (⟨p.x, p.y, p.z, 0⟩ : Quat ℝ).rotate v0 = v0.neg := by
    have := Quat.rotate_expand p v0 1 0
    simp only [mul_one] at this
    rw [this, hp2, show p.dot p = 1 from hp1]
    ext <;> simp [Vec3.add, Vec3.scale, Vec3.neg]
  have hdist : v0.neg.distance2 v1 = 2 + 2 * v0.dot v1 := by
    simp only [Vec3.distance2, Vec3.length2, Vec3.dot, Vec3.sub, Vec3.neg] at h0 h1 ⊢
    linear_combination h0 + h1
  rw [Vec3.length2_eq] at hp1
  rw [hr, hdist]
  refine ⟨?_, ?_, rfl, rfl, by linarith, fun h => h.symm⟩
  · unfold Quat.Unit; dsimp only; linear_combination hp1
  · unfold Quat.getAngle; dsimp only; rw [tf2Acos_eq, Real.arccos_zero]; ring

/-- **C58**: for non-zero vectors of any length, the normalising variant turns the direction of the first into the
direction of the second. -/
theorem C58_normalize2 (v0 v1 : Vec3 ℝ) (h0 : v0 ≠ ⟨0, 0, 0⟩) (h1 : v1 ≠ ⟨0, 0, 0⟩) (eps : ℝ) (he : 0 < eps)
    (hd : -1 + eps ≤ direction v0.toV ⬝ᵥ direction v1.toV) :
    (shortestArcQuatNormalize2 eps v0 v1).Unit ∧
    ((shortestArcQuatNormalize2 eps v0 v1).rotate v0.normalize).toV = direction v1.toV ∧
    v0.normalize.toV = direction v0.toV := by
  have e0 : v0.normalize.toV = direction v0.toV := Vec3.unitOf_toV v0
  have e1 : v1.normalize.toV = direction v1.toV := Vec3.unitOf_toV v1
  have u0 : v0.normalize.toV ⬝ᵥ v0.normalize.toV = 1 := by rw [← Vec3.dot_eq]; exact Vec3.unitOf_length2 h0
  have u1 : v1.normalize.toV ⬝ᵥ v1.normalize.toV = 1 := by rw [← Vec3.dot_eq]; exact Vec3.unitOf_length2 h1
  rw [← e0, ← e1] at hd
  obtain ⟨a, b, -⟩ := C58_shortest_arc _ _ u0 u1 eps he hd
  refine ⟨a, ?_, e0⟩
  unfold shortestArcQuatNormalize2
  rw [b, e1]

/-- **C58**: `tf2PlaneSpace1` completes a unit vector to a right-handed orthonormal triple. -/
theorem C58_plane_space (n : Vec3 ℝ) (h : n.toV ⬝ᵥ n.toV = 1) :
    let p := (planeSpace1 n).1.toV
    let q := (planeSpace1 n).2.toV
    p ⬝ᵥ p = 1 ∧ q ⬝ᵥ q = 1 ∧ p ⬝ᵥ n.toV = 0 ∧ q ⬝ᵥ n.toV = 0 ∧ p ⬝ᵥ q = 0 ∧ crossProduct n.toV p = q := by
  rw [← Vec3.dot_eq] at h
  change n.length2 = 1 at h
  obtain ⟨h1, h2, h3⟩ := planeSpace1_spec h
  dsimp only
  simp only [← Vec3.dot_eq, ← Vec3.toV_cross]
  rw [h3]
  refine ⟨h1, ?_, h2, Vec3.cross_dot_left _ _, ?_, rfl⟩
  · rw [Vec3.lagrange, h, h1]
    rw [show n.dot (planeSpace1 n).1 = (planeSpace1 n).1.dot n by simp only [Vec3.dot]; ring, h2]; norm_num
  · have := Vec3.cross_dot_right n (planeSpace1 n).1
    rw [← this]; simp only [Vec3.dot]; ring

/-- **C58**: `nearest` and `farthest` return the argument or its opposite (the same rotation), on the same side of
the quaternion for `nearest` and on the other side for `farthest`. -/
theorem C58_nearest (a qd : Quat ℝ) :
    (a.nearest qd = qd ∨ a.nearest qd = qd.neg) ∧ 0 ≤ a.dot (a.nearest qd) ∧
    (a.farthest qd = qd ∨ a.farthest qd = qd.neg) ∧ a.dot (a.farthest qd) ≤ 0 ∧
    (∀ v, (a.nearest qd).rotate v = qd.rotate v ∧ (a.farthest qd).rotate v = qd.rotate v) := by
  have hd : (a.sub qd).dot (a.sub qd) = (a.add qd).dot (a.add qd) - 4 * a.dot qd := by
    simp only [Quat.sub, Quat.add, Quat.dot]; ring
  have hn : a.nearest qd = qd ∧ 0 ≤ a.dot qd ∨ a.nearest qd = qd.neg ∧ a.dot qd ≤ 0 := by
    unfold Quat.nearest
    split
    · rename_i h; exact Or.inl ⟨rfl, by linarith⟩
    · rename_i h; exact Or.inr ⟨rfl, by linarith⟩
  have hf : a.farthest qd = qd ∧ a.dot qd ≤ 0 ∨ a.farthest qd = qd.neg ∧ 0 ≤ a.dot qd := by
    unfold Quat.farthest
    split
    · rename_i h; exact Or.inl ⟨rfl, by linarith⟩
    · rename_i h; exact Or.inr ⟨rfl, by linarith⟩
  refine ⟨?_, ?_, ?_, ?_, ?_⟩
  · exact hn.imp And.left And.left
  · rcases hn with ⟨h, h'⟩ | ⟨h, h'⟩ <;> rw [h]
    · exact h'
    · rw [Quat.dot_neg]; linarith
  · exact hf.imp And.left And.left
  · rcases hf with ⟨h, h'⟩ | ⟨h, h'⟩ <;> rw [h]
    · exact h'
    · rw [Quat.dot_neg]; linarith
  · intro v
    constructor
    · rcases hn with ⟨h, -⟩ | ⟨h, -⟩ <;> rw [h]
      exact Quat.neg_rotate _ _
    · rcases hf with ⟨h, -⟩ | ⟨h, -⟩ <;> rw [h]
      exact Quat.neg_rotate _ _

/-- Non-vacuity: a half turn about z, read back. -/
example : (⟨0, 0, 1, 0⟩ : Quat ℝ).Unit ∧ 10 * (1 / 100 : ℝ) ≤ 1 - (⟨0, 0, 1, 0⟩ : Quat ℝ).w ^ 2 := by
  constructor
  · simp [Quat.Unit]
  · norm_num

/-- Non-vacuity: x and y are unit vectors with angle π/2. -/
example : ((⟨1, 0, 0⟩ : Vec3 ℝ).toV ⬝ᵥ (⟨1, 0, 0⟩ : Vec3 ℝ).toV = 1) ∧
    -1 + (1 / 100 : ℝ) ≤ (⟨1, 0, 0⟩ : Vec3 ℝ).toV ⬝ᵥ (⟨0, 1, 0⟩ : Vec3 ℝ).toV := by
  constructor <;> simp [Vec3.toV] <;> norm_num

end Tf2
