import Verif.Spec.Convert
import Verif.Props.GeoMsgs

/-!
# Lemmas about conversions
-/
namespace Tf2.Geo

theorem Vec3.toH_inj' {a b : Vec3 ℝ} (h : a.toH = b.toH) : a = b := by
  ext
  · exact congrArg QuaternionAlgebra.imI h
  · exact congrArg QuaternionAlgebra.imJ h
  · exact congrArg QuaternionAlgebra.imK h

theorem Mat3.ext_mulVec {a b : Mat3 ℝ} (h : ∀ v : Vec3 ℝ, a.mulVec v = b.mulVec v) : a = b := by
  have hx := h ⟨1, 0, 0⟩
  have hy := h ⟨0, 1, 0⟩
  have hz := h ⟨0, 0, 1⟩
  simp only [Mat3.mulVec, Vec3.dot, mul_one, mul_zero, add_zero, zero_add, Vec3.mk.injEq] at hx hy hz
  obtain ⟨hx0, hx1, hx2⟩ := hx
  obtain ⟨hy0, hy1, hy2⟩ := hy
  obtain ⟨hz0, hz1, hz2⟩ := hz
  ext <;> assumption

/-- A sound library's matrix is tf2's own. -/
theorem RotLib.Sound.eq {L : RotLib} (h : L.Sound) {q : Quat ℝ} (hq : q.Unit) : L.ofQuat q = Mat3.ofQuat q := by
  apply Mat3.ext_mulVec
  intro v
  apply Vec3.toH_inj'
  rw [h.ofQuat q hq, Mat3.ofQuat_mulVec_unit q hq, Quat.toH_rotate]

/-- A sound library's quaternion of a rotation matrix is tf2's own, up to the sign. -/
theorem RotLib.Sound.back {L : RotLib} (h : L.Sound) {q : Quat ℝ} (hq : q.Unit) :
    L.toQuat (Mat3.ofQuat q) = q ∨ L.toQuat (Mat3.ofQuat q) = q.neg := by
  obtain ⟨hu, he⟩ := h.toQuat _ (Mat3.ofQuat_isRotation q hq.ne)
  rw [h.eq hu] at he
  exact Mat3.ofQuat_injective hu hq he

theorem lin_sound : Lin.lib.Sound where
  ofQuat q hq v := by
    show ((Mat3.ofQuat q).mulVec v).toH = _
    rw [Mat3.ofQuat_mulVec_unit q hq, Quat.toH_rotate]
  toQuat m hm := Mat3.getRotation_spec hm

theorem eigenMatrix_eq {q : Quat ℝ} (hq : q.Unit) : eigenMatrix q = Mat3.ofQuat q := by
  have h : q.x ^ 2 + q.y ^ 2 + q.z ^ 2 + q.w ^ 2 = 1 := hq
  have hl : q.length2 = 1 := (Quat.unit_iff q).1 hq
  ext <;> simp only [eigenMatrix, Mat3.ofQuat, hl] <;> ring

theorem kdlMatrix_eq {q : Quat ℝ} (hq : q.Unit) : kdlMatrix q = Mat3.ofQuat q := by
  have h : q.x ^ 2 + q.y ^ 2 + q.z ^ 2 + q.w ^ 2 = 1 := hq
  have hl : q.length2 = 1 := (Quat.unit_iff q).1 hq
  ext <;> simp only [kdlMatrix, Mat3.ofQuat, hl] <;> first | (ring_nf; done) | linear_combination h

theorem sound_of_matrix {L : RotLib} (h1 : ∀ q : Quat ℝ, q.Unit → L.ofQuat q = Mat3.ofQuat q)
    (h2 : L.toQuat = Mat3.getRotation) : L.Sound where
  ofQuat q hq v := by rw [h1 q hq, Mat3.ofQuat_mulVec_unit q hq, Quat.toH_rotate]
  toQuat m hm := by
    rw [h2]
    obtain ⟨a, b⟩ := Mat3.getRotation_spec hm
    exact ⟨a, by rw [h1 _ a, b]⟩

end Tf2.Geo
