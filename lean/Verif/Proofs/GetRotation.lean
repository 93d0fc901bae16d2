import Verif.Proofs.Geometry

/-! # Reading a rotation matrix back as a quaternion -/
namespace Tf2

/-- The scalar equations of a rotation matrix: rows, columns, cofactors. -/
structure RotEqs (m00 m01 m02 m10 m11 m12 m20 m21 m22 : ℝ) : Prop where
  r00 : m00 ^ 2 + m01 ^ 2 + m02 ^ 2 = 1
  r11 : m10 ^ 2 + m11 ^ 2 + m12 ^ 2 = 1
  r22 : m20 ^ 2 + m21 ^ 2 + m22 ^ 2 = 1
  r01 : m00 * m10 + m01 * m11 + m02 * m12 = 0
  r02 : m00 * m20 + m01 * m21 + m02 * m22 = 0
  r12 : m10 * m20 + m11 * m21 + m12 * m22 = 0
  c00 : m00 ^ 2 + m10 ^ 2 + m20 ^ 2 = 1
  c11 : m01 ^ 2 + m11 ^ 2 + m21 ^ 2 = 1
  c22 : m02 ^ 2 + m12 ^ 2 + m22 ^ 2 = 1
  c01 : m00 * m01 + m10 * m11 + m20 * m21 = 0
  c02 : m00 * m02 + m10 * m12 + m20 * m22 = 0
  c12 : m01 * m02 + m11 * m12 + m21 * m22 = 0
  k00 : m00 = m11 * m22 - m12 * m21
  k01 : m01 = m12 * m20 - m10 * m22
  k02 : m02 = m10 * m21 - m11 * m20
  k10 : m10 = m02 * m21 - m01 * m22
  k11 : m11 = m00 * m22 - m02 * m20
  k12 : m12 = m01 * m20 - m00 * m21
  k20 : m20 = m01 * m12 - m02 * m11
  k21 : m21 = m02 * m10 - m00 * m12
  k22 : m22 = m00 * m11 - m01 * m10

theorem Mat3.IsRotation.eqs {m : Mat3 ℝ} (h : m.IsRotation) :
    RotEqs m.r0.x m.r0.y m.r0.z m.r1.x m.r1.y m.r1.z m.r2.x m.r2.y m.r2.z := by
  have h' := h
  unfold Mat3.IsRotation at h'
  rw [Matrix.mem_specialOrthogonalGroup_iff] at h'
  obtain ⟨ho, hd⟩ := h'
  have hr : m.toM * m.toM.transpose = 1 := by
    simpa [Matrix.star_eq_conjTranspose] using (Matrix.mem_orthogonalGroup_iff _ _).1 ho
  have hc : m.toM.transpose * m.toM = 1 := by
    simpa [Matrix.star_eq_conjTranspose] using (Matrix.mem_orthogonalGroup_iff' _ _).1 ho
  have hk : m.toM.transpose = m.toM.adjugate := by
    have h1 : m.toM.adjugate * m.toM = 1 := by rw [Matrix.adjugate_mul, hd, one_smul]
    calc m.toM.transpose = (m.toM.adjugate * m.toM) * m.toM.transpose := by rw [h1, Matrix.one_mul]
      _ = _ := by rw [Matrix.mul_assoc, hr, Matrix.mul_one]
  rw [Matrix.adjugate_fin_three] at hk
  have r := fun i j => congrFun (congrFun hr i) j
  have c := fun i j => congrFun (congrFun hc i) j
  have k := fun i j => congrFun (congrFun hk i) j
  simp only [Mat3.toM, Matrix.mul_apply, Fin.sum_univ_three] at r c k
  constructor
  · have := r 0 0; simp at this; linear_combination this
  · have := r 1 1; simp at this; linear_combination this
  · have := r 2 2; simp at this; linear_combination this
  · have := r 0 1; simp at this; linear_combination this
  · have := r 0 2; simp at this; linear_combination this
  · have := r 1 2; simp at this; linear_combination this
  · have := c 0 0; simp at this; linear_combination this
  · have := c 1 1; simp at this; linear_combination this
  · have := c 2 2; simp at this; linear_combination this
  · have := c 0 1; simp at this; linear_combination this
  · have := c 0 2; simp at this; linear_combination this
  · have := c 1 2; simp at this; linear_combination this
  · have := k 0 0; simp at this; linear_combination this
  · have := k 1 0; simp at this; linear_combination this
  · have := k 2 0; simp at this; linear_combination this
  · have := k 0 1; simp at this; linear_combination this
  · have := k 1 1; simp at this; linear_combination this
  · have := k 2 1; simp at this; linear_combination this
  · have := k 0 2; simp at this; linear_combination this
  · have := k 1 2; simp at this; linear_combination this
  · have := k 2 2; simp at this; linear_combination this

section
variable {m00 m01 m02 m10 m11 m12 m20 m21 m22 : ℝ}

theorem RotEqs.piv_w_xx (h : RotEqs m00 m01 m02 m10 m11 m12 m20 m21 m22) :
    (1 + m00 + m11 + m22) * (1 + m00 - m11 - m22) = (m21 - m12) * (m21 - m12) := by
  obtain ⟨_, _, _, _, _, _, _, _, _, _, _, _, _, _, _, _, _, _, _, _, _⟩ := h
  grind
theorem RotEqs.piv_w_xy (h : RotEqs m00 m01 m02 m10 m11 m12 m20 m21 m22) :
    (1 + m00 + m11 + m22) * (m01 + m10) = (m21 - m12) * (m02 - m20) := by
  obtain ⟨_, _, _, _, _, _, _, _, _, _, _, _, _, _, _, _, _, _, _, _, _⟩ := h
  grind
theorem RotEqs.piv_w_xz (h : RotEqs m00 m01 m02 m10 m11 m12 m20 m21 m22) :
    (1 + m00 + m11 + m22) * (m02 + m20) = (m21 - m12) * (m10 - m01) := by
  obtain ⟨_, _, _, _, _, _, _, _, _, _, _, _, _, _, _, _, _, _, _, _, _⟩ := h
  grind
theorem RotEqs.piv_w_yy (h : RotEqs m00 m01 m02 m10 m11 m12 m20 m21 m22) :
    (1 + m00 + m11 + m22) * (1 - m00 + m11 - m22) = (m02 - m20) * (m02 - m20) := by
  obtain ⟨_, _, _, _, _, _, _, _, _, _, _, _, _, _, _, _, _, _, _, _, _⟩ := h
  grind
theorem RotEqs.piv_w_yz (h : RotEqs m00 m01 m02 m10 m11 m12 m20 m21 m22) :
    (1 + m00 + m11 + m22) * (m12 + m21) = (m02 - m20) * (m10 - m01) := by
  obtain ⟨_, _, _, _, _, _, _, _, _, _, _, _, _, _, _, _, _, _, _, _, _⟩ := h
  grind
theorem RotEqs.piv_w_zz (h : RotEqs m00 m01 m02 m10 m11 m12 m20 m21 m22) :
    (1 + m00 + m11 + m22) * (1 - m00 - m11 + m22) = (m10 - m01) * (m10 - m01) := by
  obtain ⟨_, _, _, _, _, _, _, _, _, _, _, _, _, _, _, _, _, _, _, _, _⟩ := h
  grind
theorem RotEqs.piv_x_ww (h : RotEqs m00 m01 m02 m10 m11 m12 m20 m21 m22) :
    (1 + m00 - m11 - m22) * (1 + m00 + m11 + m22) = (m21 - m12) * (m21 - m12) := by
  obtain ⟨_, _, _, _, _, _, _, _, _, _, _, _, _, _, _, _, _, _, _, _, _⟩ := h
  grind
theorem RotEqs.piv_x_wy (h : RotEqs m00 m01 m02 m10 m11 m12 m20 m21 m22) :
    (1 + m00 - m11 - m22) * (m02 - m20) = (m21 - m12) * (m01 + m10) := by
  obtain ⟨_, _, _, _, _, _, _, _, _, _, _, _, _, _, _, _, _, _, _, _, _⟩ := h
  grind
theorem RotEqs.piv_x_wz (h : RotEqs m00 m01 m02 m10 m11 m12 m20 m21 m22) :
    (1 + m00 - m11 - m22) * (m10 - m01) = (m21 - m12) * (m02 + m20) := by
  obtain ⟨_, _, _, _, _, _, _, _, _, _, _, _, _, _, _, _, _, _, _, _, _⟩ := h
  grind
theorem RotEqs.piv_x_yy (h : RotEqs m00 m01 m02 m10 m11 m12 m20 m21 m22) :
    (1 + m00 - m11 - m22) * (1 - m00 + m11 - m22) = (m01 + m10) * (m01 + m10) := by
  obtain ⟨_, _, _, _, _, _, _, _, _, _, _, _, _, _, _, _, _, _, _, _, _⟩ := h
  grind
theorem RotEqs.piv_x_yz (h : RotEqs m00 m01 m02 m10 m11 m12 m20 m21 m22) :
    (1 + m00 - m11 - m22) * (m12 + m21) = (m01 + m10) * (m02 + m20) := by
  obtain ⟨_, _, _, _, _, _, _, _, _, _, _, _, _, _, _, _, _, _, _, _, _⟩ := h
  grind
theorem RotEqs.piv_x_zz (h : RotEqs m00 m01 m02 m10 m11 m12 m20 m21 m22) :
    (1 + m00 - m11 - m22) * (1 - m00 - m11 + m22) = (m02 + m20) * (m02 + m20) := by
  obtain ⟨_, _, _, _, _, _, _, _, _, _, _, _, _, _, _, _, _, _, _, _, _⟩ := h
  grind
theorem RotEqs.piv_y_ww (h : RotEqs m00 m01 m02 m10 m11 m12 m20 m21 m22) :
    (1 - m00 + m11 - m22) * (1 + m00 + m11 + m22) = (m02 - m20) * (m02 - m20) := by
  obtain ⟨_, _, _, _, _, _, _, _, _, _, _, _, _, _, _, _, _, _, _, _, _⟩ := h
  grind
theorem RotEqs.piv_y_wx (h : RotEqs m00 m01 m02 m10 m11 m12 m20 m21 m22) :
    (1 - m00 + m11 - m22) * (m21 - m12) = (m02 - m20) * (m01 + m10) := by
  obtain ⟨_, _, _, _, _, _, _, _, _, _, _, _, _, _, _, _, _, _, _, _, _⟩ := h
  grind
theorem RotEqs.piv_y_wz (h : RotEqs m00 m01 m02 m10 m11 m12 m20 m21 m22) :
    (1 - m00 + m11 - m22) * (m10 - m01) = (m02 - m20) * (m12 + m21) := by
  obtain ⟨_, _, _, _, _, _, _, _, _, _, _, _, _, _, _, _, _, _, _, _, _⟩ := h
  grind
theorem RotEqs.piv_y_xx (h : RotEqs m00 m01 m02 m10 m11 m12 m20 m21 m22) :
    (1 - m00 + m11 - m22) * (1 + m00 - m11 - m22) = (m01 + m10) * (m01 + m10) := by
  obtain ⟨_, _, _, _, _, _, _, _, _, _, _, _, _, _, _, _, _, _, _, _, _⟩ := h
  grind
theorem RotEqs.piv_y_xz (h : RotEqs m00 m01 m02 m10 m11 m12 m20 m21 m22) :
    (1 - m00 + m11 - m22) * (m02 + m20) = (m01 + m10) * (m12 + m21) := by
  obtain ⟨_, _, _, _, _, _, _, _, _, _, _, _, _, _, _, _, _, _, _, _, _⟩ := h
  grind
theorem RotEqs.piv_y_zz (h : RotEqs m00 m01 m02 m10 m11 m12 m20 m21 m22) :
    (1 - m00 + m11 - m22) * (1 - m00 - m11 + m22) = (m12 + m21) * (m12 + m21) := by
  obtain ⟨_, _, _, _, _, _, _, _, _, _, _, _, _, _, _, _, _, _, _, _, _⟩ := h
  grind
theorem RotEqs.piv_z_ww (h : RotEqs m00 m01 m02 m10 m11 m12 m20 m21 m22) :
    (1 - m00 - m11 + m22) * (1 + m00 + m11 + m22) = (m10 - m01) * (m10 - m01) := by
  obtain ⟨_, _, _, _, _, _, _, _, _, _, _, _, _, _, _, _, _, _, _, _, _⟩ := h
  grind
theorem RotEqs.piv_z_wx (h : RotEqs m00 m01 m02 m10 m11 m12 m20 m21 m22) :
    (1 - m00 - m11 + m22) * (m21 - m12) = (m10 - m01) * (m02 + m20) := by
  obtain ⟨_, _, _, _, _, _, _, _, _, _, _, _, _, _, _, _, _, _, _, _, _⟩ := h
  grind
theorem RotEqs.piv_z_wy (h : RotEqs m00 m01 m02 m10 m11 m12 m20 m21 m22) :
    (1 - m00 - m11 + m22) * (m02 - m20) = (m10 - m01) * (m12 + m21) := by
  obtain ⟨_, _, _, _, _, _, _, _, _, _, _, _, _, _, _, _, _, _, _, _, _⟩ := h
  grind
theorem RotEqs.piv_z_xx (h : RotEqs m00 m01 m02 m10 m11 m12 m20 m21 m22) :
    (1 - m00 - m11 + m22) * (1 + m00 - m11 - m22) = (m02 + m20) * (m02 + m20) := by
  obtain ⟨_, _, _, _, _, _, _, _, _, _, _, _, _, _, _, _, _, _, _, _, _⟩ := h
  grind
theorem RotEqs.piv_z_xy (h : RotEqs m00 m01 m02 m10 m11 m12 m20 m21 m22) :
    (1 - m00 - m11 + m22) * (m01 + m10) = (m02 + m20) * (m12 + m21) := by
  obtain ⟨_, _, _, _, _, _, _, _, _, _, _, _, _, _, _, _, _, _, _, _, _⟩ := h
  grind
theorem RotEqs.piv_z_yy (h : RotEqs m00 m01 m02 m10 m11 m12 m20 m21 m22) :
    (1 - m00 - m11 + m22) * (1 - m00 + m11 - m22) = (m12 + m21) * (m12 + m21) := by
  obtain ⟨_, _, _, _, _, _, _, _, _, _, _, _, _, _, _, _, _, _, _, _, _⟩ := h
  grind
end

/-- A quaternion with the right products of components gives the matrix. -/
theorem Mat3.ofQuat_eq {q : Quat ℝ} {m : Mat3 ℝ}
    (hw : 4 * q.w ^ 2 = 1 + m.r0.x + m.r1.y + m.r2.z) (hx : 4 * q.x ^ 2 = 1 + m.r0.x - m.r1.y - m.r2.z)
    (hy : 4 * q.y ^ 2 = 1 - m.r0.x + m.r1.y - m.r2.z) (hz : 4 * q.z ^ 2 = 1 - m.r0.x - m.r1.y + m.r2.z)
    (hwx : 4 * (q.w * q.x) = m.r2.y - m.r1.z) (hwy : 4 * (q.w * q.y) = m.r0.z - m.r2.x)
    (hwz : 4 * (q.w * q.z) = m.r1.x - m.r0.y) (hxy : 4 * (q.x * q.y) = m.r0.y + m.r1.x)
    (hxz : 4 * (q.x * q.z) = m.r0.z + m.r2.x) (hyz : 4 * (q.y * q.z) = m.r1.z + m.r2.y) :
    q.Unit ∧ Mat3.ofQuat q = m := by
  have hu : q.Unit := by unfold Quat.Unit; linear_combination (hw + hx + hy + hz) / 4
  refine ⟨hu, ?_⟩
  have h1 := (Quat.unit_iff q).1 hu
  ext <;> simp only [Mat3.ofQuat, h1]
  · linear_combination (-hy - hz) / 2
  · linear_combination (hxy - hwz) / 2
  · linear_combination (hxz + hwy) / 2
  · linear_combination (hxy + hwz) / 2
  · linear_combination (-hx - hz) / 2
  · linear_combination (hyz - hwx) / 2
  · linear_combination (hxz - hwy) / 2
  · linear_combination (hyz + hwx) / 2
  · linear_combination (-hx - hy) / 2

private theorem piv_sq {P v : ℝ} (hP : 0 < P) : 4 * (Real.sqrt P * (1 / 2)) ^ 2 = P := by
  have := Real.sq_sqrt hP.le; linear_combination this
private theorem piv_lin {P v : ℝ} (hP : 0 < P) :
    4 * (Real.sqrt P * (1 / 2) * (v * (1 / 2 / Real.sqrt P))) = v := by
  have h0 : Real.sqrt P ≠ 0 := (Real.sqrt_pos.2 hP).ne'
  field_simp; ring
private theorem piv_prod {P u v w : ℝ} (hP : 0 < P) (h : P * w = u * v) :
    4 * ((u * (1 / 2 / Real.sqrt P)) * (v * (1 / 2 / Real.sqrt P))) = w := by
  have h0 : Real.sqrt P ≠ 0 := (Real.sqrt_pos.2 hP).ne'
  have h1 := Real.sq_sqrt hP.le
  field_simp
  rw [h1]; linear_combination -4 * h

private theorem piv_sqr {P u w : ℝ} (hP : 0 < P) (h : P * w = u * u) :
    4 * (u * (1 / 2 / Real.sqrt P)) ^ 2 = w := by
  rw [pow_two]; exact piv_prod hP h
private theorem piv_lin' {P v : ℝ} (hP : 0 < P) :
    4 * (v * (1 / 2 / Real.sqrt P) * (Real.sqrt P * (1 / 2))) = v := by
  rw [mul_comm (v * _)]; exact piv_lin hP

private theorem getRot_w {m : Mat3 ℝ} (h : m.IsRotation) (hT : 0 < m.r0.x + m.r1.y + m.r2.z + 1)
    {s : ℝ} (hs : s = Real.sqrt (m.r0.x + m.r1.y + m.r2.z + 1)) {q : Quat ℝ}
    (hq : q = ⟨(m.r2.y - m.r1.z) * (1 / 2 / s), (m.r0.z - m.r2.x) * (1 / 2 / s),
      (m.r1.x - m.r0.y) * (1 / 2 / s), s * (1 / 2)⟩) : q.Unit ∧ Mat3.ofQuat q = m := by
  have e := h.eqs
  subst hq hs
  apply Mat3.ofQuat_eq <;> dsimp only
  · linear_combination piv_sq (v := 0) hT
  · exact piv_sqr hT (by linear_combination e.piv_w_xx)
  · exact piv_sqr hT (by linear_combination e.piv_w_yy)
  · exact piv_sqr hT (by linear_combination e.piv_w_zz)
  · exact piv_lin hT
  · exact piv_lin hT
  · exact piv_lin hT
  · exact piv_prod hT (by linear_combination e.piv_w_xy)
  · exact piv_prod hT (by linear_combination e.piv_w_xz)
  · exact piv_prod hT (by linear_combination e.piv_w_yz)

private theorem getRot_x {m : Mat3 ℝ} (h : m.IsRotation) (hT : 0 < m.r0.x - m.r1.y - m.r2.z + 1)
    {s : ℝ} (hs : s = Real.sqrt (m.r0.x - m.r1.y - m.r2.z + 1)) {q : Quat ℝ}
    (hq : q = ⟨s * (1 / 2), (m.r1.x + m.r0.y) * (1 / 2 / s), (m.r2.x + m.r0.z) * (1 / 2 / s),
      (m.r2.y - m.r1.z) * (1 / 2 / s)⟩) : q.Unit ∧ Mat3.ofQuat q = m := by
  have e := h.eqs
  subst hq hs
  apply Mat3.ofQuat_eq <;> dsimp only
  · exact piv_sqr hT (by linear_combination e.piv_x_ww)
  · linear_combination piv_sq (v := 0) hT
  · exact piv_sqr hT (by linear_combination e.piv_x_yy)
  · exact piv_sqr hT (by linear_combination e.piv_x_zz)
  · exact piv_lin' hT
  · exact piv_prod hT (by linear_combination e.piv_x_wy)
  · exact piv_prod hT (by linear_combination e.piv_x_wz)
  · linear_combination piv_lin hT (v := m.r1.x + m.r0.y)
  · linear_combination piv_lin hT (v := m.r2.x + m.r0.z)
  · exact piv_prod hT (by linear_combination e.piv_x_yz)

private theorem getRot_y {m : Mat3 ℝ} (h : m.IsRotation) (hT : 0 < m.r1.y - m.r2.z - m.r0.x + 1)
    {s : ℝ} (hs : s = Real.sqrt (m.r1.y - m.r2.z - m.r0.x + 1)) {q : Quat ℝ}
    (hq : q = ⟨(m.r0.y + m.r1.x) * (1 / 2 / s), s * (1 / 2), (m.r2.y + m.r1.z) * (1 / 2 / s),
      (m.r0.z - m.r2.x) * (1 / 2 / s)⟩) : q.Unit ∧ Mat3.ofQuat q = m := by
  have e := h.eqs
  subst hq hs
  apply Mat3.ofQuat_eq <;> dsimp only
  · exact piv_sqr hT (by linear_combination e.piv_y_ww)
  · exact piv_sqr hT (by linear_combination e.piv_y_xx)
  · linear_combination piv_sq (v := 0) hT
  · exact piv_sqr hT (by linear_combination e.piv_y_zz)
  · exact piv_prod hT (by linear_combination e.piv_y_wx)
  · exact piv_lin' hT
  · exact piv_prod hT (by linear_combination e.piv_y_wz)
  · linear_combination piv_lin' hT (v := m.r0.y + m.r1.x)
  · exact piv_prod hT (by linear_combination e.piv_y_xz)
  · linear_combination piv_lin hT (v := m.r2.y + m.r1.z)

private theorem getRot_z {m : Mat3 ℝ} (h : m.IsRotation) (hT : 0 < m.r2.z - m.r0.x - m.r1.y + 1)
    {s : ℝ} (hs : s = Real.sqrt (m.r2.z - m.r0.x - m.r1.y + 1)) {q : Quat ℝ}
    (hq : q = ⟨(m.r0.z + m.r2.x) * (1 / 2 / s), (m.r1.z + m.r2.y) * (1 / 2 / s), s * (1 / 2),
      (m.r1.x - m.r0.y) * (1 / 2 / s)⟩) : q.Unit ∧ Mat3.ofQuat q = m := by
  have e := h.eqs
  subst hq hs
  apply Mat3.ofQuat_eq <;> dsimp only
  · exact piv_sqr hT (by linear_combination e.piv_z_ww)
  · exact piv_sqr hT (by linear_combination e.piv_z_xx)
  · exact piv_sqr hT (by linear_combination e.piv_z_yy)
  · linear_combination piv_sq (v := 0) hT
  · exact piv_prod hT (by linear_combination e.piv_z_wx)
  · exact piv_prod hT (by linear_combination e.piv_z_wy)
  · exact piv_lin' hT
  · exact piv_prod hT (by linear_combination e.piv_z_xy)
  · linear_combination piv_lin' hT (v := m.r0.z + m.r2.x)
  · linear_combination piv_lin' hT (v := m.r1.z + m.r2.y)

/-- Reading back any rotation matrix gives a unit quaternion of that rotation. -/
theorem Mat3.getRotation_spec {m : Mat3 ℝ} (h : m.IsRotation) :
    m.getRotation.Unit ∧ Mat3.ofQuat m.getRotation = m := by
  by_cases ht : m.r0.x + m.r1.y + m.r2.z > 0
  · exact getRot_w h (by linarith) rfl (by simp only [Mat3.getRotation, ht, if_true])
  · have ht' := not_lt.1 ht
    by_cases h01 : m.r0.x < m.r1.y
    · by_cases h12 : m.r1.y < m.r2.z
      · refine getRot_z h (by linarith) rfl ?_
        simp only [Mat3.getRotation, ht, h01, h12, if_true, if_false]
        rfl
      · have := not_lt.1 h12
        refine getRot_y h (by linarith) rfl ?_
        simp only [Mat3.getRotation, ht, h01, h12, if_true, if_false]
        rfl
    · have h01' := not_lt.1 h01
      by_cases h02 : m.r0.x < m.r2.z
      · refine getRot_z h (by linarith) rfl ?_
        simp only [Mat3.getRotation, ht, h01, h02, if_true, if_false]
        rfl
      · have := not_lt.1 h02
        refine getRot_x h (by linarith) rfl ?_
        simp only [Mat3.getRotation, ht, h01, h02, if_false]
        rfl

private theorem sum4_zero {p q r t : ℝ} (h : p ^ 2 + q ^ 2 + r ^ 2 + t ^ 2 = 0) :
    p = 0 ∧ q = 0 ∧ r = 0 ∧ t = 0 := by
  have := sq_nonneg p; have := sq_nonneg q; have := sq_nonneg r; have := sq_nonneg t
  refine ⟨?_, ?_, ?_, ?_⟩ <;> apply pow_eq_zero_iff (two_ne_zero) |>.1 <;> linarith

/-- Two unit quaternions with the same matrix are equal up to sign. -/
theorem Mat3.ofQuat_injective {a b : Quat ℝ} (ha : a.Unit) (hb : b.Unit)
    (h : Mat3.ofQuat a = Mat3.ofQuat b) : a = b ∨ a = b.neg := by
  have h1 := (Quat.unit_iff a).1 ha
  have h2 := (Quat.unit_iff b).1 hb
  have e00 := congrArg (fun m => m.r0.x) h
  have e01 := congrArg (fun m => m.r0.y) h
  have e02 := congrArg (fun m => m.r0.z) h
  have e10 := congrArg (fun m => m.r1.x) h
  have e11 := congrArg (fun m => m.r1.y) h
  have e12 := congrArg (fun m => m.r1.z) h
  have e20 := congrArg (fun m => m.r2.x) h
  have e21 := congrArg (fun m => m.r2.y) h
  have e22 := congrArg (fun m => m.r2.z) h
  simp only [Mat3.ofQuat, h1, h2] at e00 e01 e02 e10 e11 e12 e20 e21 e22
  unfold Quat.Unit at ha hb
  -- all products of two components agree
  have xx : a.x * a.x = b.x * b.x := by linear_combination (e00 - e11 - e22) / 4
  have yy : a.y * a.y = b.y * b.y := by linear_combination (e11 - e00 - e22) / 4
  have zz : a.z * a.z = b.z * b.z := by linear_combination (e22 - e00 - e11) / 4
  have ww : a.w * a.w = b.w * b.w := by linear_combination ha - hb - xx - yy - zz
  have xy : a.x * a.y = b.x * b.y := by linear_combination (e01 + e10) / 4
  have xz : a.x * a.z = b.x * b.z := by linear_combination (e02 + e20) / 4
  have yz : a.y * a.z = b.y * b.z := by linear_combination (e12 + e21) / 4
  have wx : a.w * a.x = b.w * b.x := by linear_combination (e21 - e12) / 4
  have wy : a.w * a.y = b.w * b.y := by linear_combination (e02 - e20) / 4
  have wz : a.w * a.z = b.w * b.z := by linear_combination (e10 - e01) / 4
  have hd : (a.dot b - 1) * (a.dot b + 1) = 0 := by
    unfold Quat.dot
    linear_combination b.x ^ 2 * xx + b.y ^ 2 * yy + b.z ^ 2 * zz + b.w ^ 2 * ww +
      2 * b.x * b.y * xy + 2 * b.x * b.z * xz + 2 * b.y * b.z * yz + 2 * b.w * b.x * wx +
      2 * b.w * b.y * wy + 2 * b.w * b.z * wz +
      (b.x ^ 2 + b.y ^ 2 + b.z ^ 2 + b.w ^ 2 + 1) * hb
  rcases mul_eq_zero.1 hd with hd' | hd' <;> unfold Quat.dot at hd'
  · left
    obtain ⟨p, q, r, t⟩ := sum4_zero (p := a.x - b.x) (q := a.y - b.y) (r := a.z - b.z) (t := a.w - b.w)
      (by linear_combination ha + hb - 2 * hd')
    ext <;> linarith
  · right
    obtain ⟨p, q, r, t⟩ := sum4_zero (p := a.x + b.x) (q := a.y + b.y) (r := a.z + b.z) (t := a.w + b.w)
      (by linear_combination ha + hb + 2 * hd')
    ext <;> simp only [Quat.neg] <;> linarith

theorem Mat3.getRotation_ofQuat {q : Quat ℝ} (h : q.Unit) :
    (Mat3.ofQuat q).getRotation = q ∨ (Mat3.ofQuat q).getRotation = q.neg := by
  have := Mat3.getRotation_spec (Mat3.ofQuat_isRotation q h.ne)
  exact Mat3.ofQuat_injective this.1 h this.2

end Tf2
