import Verif.Spec.RoundedProduct
import Verif.Proofs.Rounded
import Verif.Proofs.GetRotation

/-!
# The error of the matrix product and of reading the quaternion back
-/
namespace Tf2
namespace Rounding

/-- Relative error plus spacing. -/
def e (F : Rounding) : ℝ := F.u + F.η

/-- A machine good enough for the bounds below. -/
structure Good (F : Rounding) : Prop where
  u : F.u ≤ 1 / 10 ^ 9
  η : F.η ≤ 1 / 10 ^ 9
  Ω : 10 ^ 4 ≤ F.Ω

variable {F : Rounding}

theorem Good.e (h : Good F) : 0 ≤ F.e ∧ F.e ≤ 2 / 10 ^ 9 := by
  have := F.u_nonneg; have := F.η_nonneg; have := h.u; have := h.η
  unfold Rounding.e
  norm_num at *
  constructor <;> linarith

theorem rnd_ap (h : Good F) {x' x k B m : ℝ} (hx : |x' - x| ≤ k * F.e) (hB : |x| ≤ B) (h1 : 1 ≤ B) (h2 : B ≤ 100)
    (k0 : 0 ≤ k) (hk : k ≤ 10 ^ 4) (hm : k + B + 1 / 10 ≤ m) : |F.rnd x' - x| ≤ m * F.e := by
  obtain ⟨e0, e1⟩ := h.e
  have u0 := F.u_nonneg
  have n0 := F.η_nonneg
  have hke : k * F.e ≤ 1 / 10 := by
    have := mul_le_mul hk e1 e0 (by norm_num : (0 : ℝ) ≤ 10 ^ 4)
    norm_num at this ⊢; linarith
  have hx' : |x'| ≤ B + 1 / 10 := by
    have := abs_add_le (x' - x) x
    rw [sub_add_cancel] at this
    linarith
  have hr := F.err x' (by have := h.Ω; norm_num at this; linarith)
  have ht := abs_sub_le (F.rnd x') x' x
  have a1 : F.u * |x'| ≤ F.u * (B + 1 / 10) := mul_le_mul_of_nonneg_left hx' u0
  have a2 : F.u * (B + 1 / 10) + F.η ≤ (B + 1 / 10) * F.e := by unfold e; nlinarith
  have a3 : (k + B + 1 / 10) * F.e ≤ m * F.e := mul_le_mul_of_nonneg_right hm e0
  linarith

theorem mul_ap (h : Good F) {a' a b' b k l A B C m : ℝ} (ha : |a' - a| ≤ k * F.e) (hb : |b' - b| ≤ l * F.e) (hA : |a| ≤ A)
    (hB : |b| ≤ B) (hC : |a * b| ≤ C) (h1 : 1 ≤ C) (h2 : C ≤ 100) (k0 : 0 ≤ k) (k1 : k ≤ 2000) (l0 : 0 ≤ l) (l1 : l ≤ 2000)
    (hA' : A ≤ 2.2) (hB' : B ≤ 2.2)
    (hm : k * B + l * A + C + 1 / 5 ≤ m) : |F.rnd (a' * b') - a * b| ≤ m * F.e := by
  obtain ⟨e0, e1⟩ := h.e
  have A0 : 0 ≤ A := (abs_nonneg a).trans hA
  have B0 : 0 ≤ B := (abs_nonneg b).trans hB
  have kl : k * l * F.e ≤ 1 / 10 := by
    have := mul_le_mul (mul_le_mul k1 l1 l0 (by norm_num)) e1 e0 (by norm_num)
    norm_num at this ⊢; linarith
  have hd : |a' * b' - a * b| ≤ (k * B + l * A + 1 / 10) * F.e := by
    have e2 : a' * b' - a * b = (a' - a) * b + a * (b' - b) + (a' - a) * (b' - b) := by ring
    rw [e2]
    refine (abs_add_le _ _).trans ((add_le_add_left (abs_add_le _ _) _).trans ?_)
    rw [abs_mul, abs_mul, abs_mul]
    have h1 := mul_le_mul ha hB (abs_nonneg _) (by positivity)
    have h2 := mul_le_mul hA hb (abs_nonneg _) A0
    have h3 := mul_le_mul ha hb (abs_nonneg _) (by positivity)
    have h4 : k * F.e * (l * F.e) ≤ 1 / 10 * F.e := by
      have := mul_le_mul_of_nonneg_right kl e0
      linarith
    linarith
  refine rnd_ap h hd hC h1 h2 (by positivity) ?_ (by linarith)
  have a1 := mul_le_mul k1 hB' B0 (by norm_num)
  have a2 := mul_le_mul l1 hA' A0 (by norm_num)
  norm_num at *; linarith

theorem add_ap (h : Good F) {a' a b' b k l C m : ℝ} (ha : |a' - a| ≤ k * F.e) (hb : |b' - b| ≤ l * F.e) (hC : |a + b| ≤ C)
    (h1 : 1 ≤ C) (h2 : C ≤ 100) (k0 : 0 ≤ k) (k1 : k ≤ 5000) (l0 : 0 ≤ l) (l1 : l ≤ 5000)
    (hm : k + l + C + 1 / 10 ≤ m) : |F.rnd (a' + b') - (a + b)| ≤ m * F.e := by
  refine rnd_ap h (k := k + l) ?_ hC h1 h2 (by positivity) (by norm_num; linarith) hm
  have : a' + b' - (a + b) = (a' - a) + (b' - b) := by ring
  rw [this, add_mul]
  exact (abs_add_le _ _).trans (add_le_add ha hb)

theorem sub_ap (h : Good F) {a' a b' b k l C m : ℝ} (ha : |a' - a| ≤ k * F.e) (hb : |b' - b| ≤ l * F.e) (hC : |a - b| ≤ C)
    (h1 : 1 ≤ C) (h2 : C ≤ 100) (k0 : 0 ≤ k) (k1 : k ≤ 5000) (l0 : 0 ≤ l) (l1 : l ≤ 5000)
    (hm : k + l + C + 1 / 10 ≤ m) : |F.rnd (a' - b') - (a - b)| ≤ m * F.e := by
  refine rnd_ap h (k := k + l) ?_ hC h1 h2 (by positivity) (by norm_num; linarith) hm
  have : a' - b' - (a - b) = (a' - a) + -(b' - b) := by ring
  rw [this, add_mul]
  refine (abs_add_le _ _).trans (add_le_add ha ?_)
  rw [abs_neg]; exact hb

theorem div_ap (h : Good F) {c d' d k C m : ℝ} (hd : |d' - d| ≤ k * F.e) (h9 : 9 / 10 ≤ d) (c0 : 0 ≤ c) (c1 : c ≤ 2)
    (hC : c / d ≤ C) (h1 : 1 ≤ C) (h2 : C ≤ 100) (k0 : 0 ≤ k) (hk : k ≤ 2000) (hm : 5 / 4 * c * k + C + 1 / 10 ≤ m) :
    |F.rnd (c / d') - c / d| ≤ m * F.e := by
  obtain ⟨e0, e1⟩ := h.e
  have hke : k * F.e ≤ 4 / 10 ^ 6 := by
    have := mul_le_mul hk e1 e0 (by norm_num)
    norm_num at this ⊢; linarith
  have d1 : 9 / 10 - 4 / 10 ^ 6 ≤ d' := by have := (abs_le.1 hd).1; linarith
  norm_num at d1
  have d0 : 0 < d := by linarith
  have d0' : 0 < d' := by linarith
  refine rnd_ap h (k := 5 / 4 * c * k) ?_ (by rw [abs_of_nonneg (by positivity)]; exact hC) h1 h2 (by positivity) ?_ hm
  · have e2 : c / d' - c / d = c * (d - d') / (d' * d) := by field_simp
    rw [e2, abs_div, abs_mul, abs_of_nonneg c0, abs_of_pos (by positivity : 0 < d' * d), div_le_iff₀ (by positivity)]
    rw [abs_sub_comm] at hd
    have a1 : 4 / 5 ≤ d' * d := by nlinarith
    have a2 : c * |d - d'| ≤ c * (k * F.e) := mul_le_mul_of_nonneg_left hd c0
    have a3 : 0 ≤ c * (k * F.e) := by positivity
    nlinarith
  · have := mul_le_mul c1 hk k0 (by norm_num)
    norm_num; linarith

theorem sqrt_ap (h : Good F) {sqrt : ℝ → ℝ} (hs : SqrtNear F sqrt) {P' r k : ℝ} (hP : |P' - r ^ 2| ≤ k * F.e)
    (h1 : 98 / 100 ≤ r) (h2 : r ≤ 2) (k0 : 0 ≤ k) (hk : k ≤ 2000) : |sqrt P' - r| ≤ (5 / 9 * k + 12) * F.e := by
  obtain ⟨e0, e1⟩ := h.e
  have u0 := F.u_nonneg
  have n0 := F.η_nonneg
  have hke : k * F.e ≤ 4 / 10 ^ 6 := by
    have := mul_le_mul hk e1 e0 (by norm_num)
    norm_num at this ⊢; linarith
  norm_num at hke
  obtain ⟨p1, p2⟩ := abs_le.1 hP
  have q1 : (81 : ℝ) / 100 ≤ P' := by nlinarith
  have q2 : P' ≤ 5 := by nlinarith
  have s1 : 9 / 10 ≤ Real.sqrt P' := Real.le_sqrt_of_sq_le (by norm_num; linarith)
  have s2 : Real.sqrt P' ≤ 23 / 10 := Real.sqrt_le_iff.2 ⟨by norm_num, by norm_num; linarith⟩
  have s3 := Real.sq_sqrt (by linarith : 0 ≤ P')
  have h3 := hs P' (by linarith) (by linarith)
  have h4 : |Real.sqrt P' - r| ≤ 5 / 9 * (k * F.e) := by
    have e2 : (Real.sqrt P' - r) * (Real.sqrt P' + r) = P' - r ^ 2 := by linear_combination s3
    have a1 : |Real.sqrt P' - r| * (Real.sqrt P' + r) = |P' - r ^ 2| := by
      rw [← e2, abs_mul, abs_of_pos (by linarith : 0 < Real.sqrt P' + r)]
    have a2 := abs_nonneg (Real.sqrt P' - r)
    nlinarith
  have h5 := abs_sub_le (sqrt P') (Real.sqrt P') r
  have h6 : 5 * F.u * Real.sqrt P' ≤ 12 * F.u := by nlinarith
  have h7 : 12 * F.u + F.η ≤ 12 * F.e := by unfold e; linarith
  linarith


/-! ### From the quaternion to the matrix -/

/-- Entries of two matrices are close. -/
structure MatAp (F : Rounding) (k : ℝ) (m' m : Mat3 ℝ) : Prop where
  e00 : |m'.r0.x - m.r0.x| ≤ k * F.e
  e01 : |m'.r0.y - m.r0.y| ≤ k * F.e
  e02 : |m'.r0.z - m.r0.z| ≤ k * F.e
  e10 : |m'.r1.x - m.r1.x| ≤ k * F.e
  e11 : |m'.r1.y - m.r1.y| ≤ k * F.e
  e12 : |m'.r1.z - m.r1.z| ≤ k * F.e
  e20 : |m'.r2.x - m.r2.x| ≤ k * F.e
  e21 : |m'.r2.y - m.r2.y| ≤ k * F.e
  e22 : |m'.r2.z - m.r2.z| ≤ k * F.e

/-- Entries of a rotation matrix are at most one. -/
structure Entries (m : Mat3 ℝ) : Prop where
  e00 : |m.r0.x| ≤ 1
  e01 : |m.r0.y| ≤ 1
  e02 : |m.r0.z| ≤ 1
  e10 : |m.r1.x| ≤ 1
  e11 : |m.r1.y| ≤ 1
  e12 : |m.r1.z| ≤ 1
  e20 : |m.r2.x| ≤ 1
  e21 : |m.r2.y| ≤ 1
  e22 : |m.r2.z| ≤ 1

theorem row_le {a b c : ℝ} (h : a ^ 2 + b ^ 2 + c ^ 2 = 1) : |a| ≤ 1 ∧ |b| ≤ 1 ∧ |c| ≤ 1 := by
  refine ⟨?_, ?_, ?_⟩ <;> refine abs_le_one_iff_mul_self_le_one.2 ?_ <;> nlinarith [sq_nonneg a, sq_nonneg b, sq_nonneg c]

theorem entries {m : Mat3 ℝ} (h : m.IsRotation) : Entries m := by
  have q := h.eqs
  have a := row_le q.r00
  have b := row_le q.r11
  have c := row_le q.r22
  exact ⟨a.1, a.2.1, a.2.2, b.1, b.2.1, b.2.2, c.1, c.2.1, c.2.2⟩

theorem sub_self_ap (F : Rounding) (x : ℝ) : |x - x| ≤ 0 * F.e := by simp

theorem basis_of (h : Good F) {q : Quat ℝ} (d0 : 0 < q.length2)
    (P : ∀ r t : ℝ, r * r ≤ q.length2 → t * t ≤ q.length2 →
      |F.rnd (r * F.rnd (t * F.rnd (2 / F.dot q q))) - r * (t * (2 / q.length2))| ≤ 31 * F.e) :
    MatAp F 67 (F.basis q) (Mat3.ofQuat q) := by
  have el : q.length2 = q.x * q.x + q.y * q.y + q.z * q.z + q.w * q.w := rfl
  have nx := mul_self_nonneg q.x
  have ny := mul_self_nonneg q.y
  have nz := mul_self_nonneg q.z
  have nw := mul_self_nonneg q.w
  set d := q.length2 with hdd
  have lx : q.x * q.x ≤ d := by linarith
  have ly : q.y * q.y ≤ d := by linarith
  have lz : q.z * q.z ≤ d := by linarith
  have lw : q.w * q.w ≤ d := by linarith
  have hE := entries (Mat3.ofQuat_isRotation q d0.ne')
  obtain ⟨b00, b01, b02, b10, b11, b12, b20, b21, b22⟩ := hE
  simp only [Mat3.ofQuat, ← hdd] at b00 b01 b02 b10 b11 b12 b20 b21 b22
  have dg : ∀ a' a b' b : ℝ, |a' - a| ≤ 31 * F.e → |b' - b| ≤ 31 * F.e → |1 - (a + b)| ≤ 1 →
      |F.rnd (1 - F.rnd (a' + b')) - (1 - (a + b))| ≤ 67 * F.e := by
    intro a' a b' b ha hb hc
    have h3 : |a + b| ≤ 2 := by rw [abs_le] at hc ⊢; constructor <;> linarith
    exact sub_ap h (sub_self_ap F 1) (add_ap h ha hb h3 (by norm_num) (by norm_num) (by norm_num) (by norm_num) (by norm_num)
      (by norm_num) (m := 65) (by norm_num)) hc le_rfl (by norm_num) le_rfl (by norm_num) (by norm_num) (by norm_num) (by norm_num)
  have ad : ∀ a' a b' b : ℝ, |a' - a| ≤ 31 * F.e → |b' - b| ≤ 31 * F.e → |a + b| ≤ 1 →
      |F.rnd (a' + b') - (a + b)| ≤ 67 * F.e := fun a' a b' b ha hb hc =>
    add_ap h ha hb hc le_rfl (by norm_num) (by norm_num) (by norm_num) (by norm_num) (by norm_num) (by norm_num)
  have sd : ∀ a' a b' b : ℝ, |a' - a| ≤ 31 * F.e → |b' - b| ≤ 31 * F.e → |a - b| ≤ 1 →
      |F.rnd (a' - b') - (a - b)| ≤ 67 * F.e := fun a' a b' b ha hb hc =>
    sub_ap h ha hb hc le_rfl (by norm_num) (by norm_num) (by norm_num) (by norm_num) (by norm_num) (by norm_num)
  unfold basis
  constructor <;> simp only [Mat3.ofQuat, ← hdd]
  · exact dg _ _ _ _ (P _ _ ly ly) (P _ _ lz lz) b00
  · exact sd _ _ _ _ (P _ _ lx ly) (P _ _ lw lz) b01
  · exact ad _ _ _ _ (P _ _ lx lz) (P _ _ lw ly) b02
  · exact ad _ _ _ _ (P _ _ lx ly) (P _ _ lw lz) b10
  · exact dg _ _ _ _ (P _ _ lx lx) (P _ _ lz lz) b11
  · exact sd _ _ _ _ (P _ _ ly lz) (P _ _ lw lx) b12
  · exact sd _ _ _ _ (P _ _ lx lz) (P _ _ lw ly) b20
  · exact ad _ _ _ _ (P _ _ ly lz) (P _ _ lw lx) b21
  · exact dg _ _ _ _ (P _ _ lx lx) (P _ _ ly ly) b22

theorem basis_ap (h : Good F) {q : Quat ℝ} (h1 : 95 / 100 ≤ q.length2) (h2 : q.length2 ≤ 105 / 100) :
    MatAp F 67 (F.basis q) (Mat3.ofQuat q) := by
  obtain ⟨e0, e1⟩ := h.e
  have u0 := F.u_nonneg
  have n0 := F.η_nonneg
  have hu := h.u
  have hη := h.η
  have hΩ := h.Ω
  norm_num at hu hη hΩ
  have el : q.length2 = q.x * q.x + q.y * q.y + q.z * q.z + q.w * q.w := rfl
  have nx := mul_self_nonneg q.x
  have ny := mul_self_nonneg q.y
  have nz := mul_self_nonneg q.z
  have nw := mul_self_nonneg q.w
  have hd : |F.dot q q - q.length2| ≤ 8 * F.e := by
    have P : ∀ r : ℝ, r * r ≤ 2 → |F.rnd (r * r) - r * r| ≤ F.u * |r * r| + F.η := fun r hr =>
      F.err _ (by rw [abs_of_nonneg (mul_self_nonneg r)]; linarith)
    have := sum4_err (F := F) (by linarith) (P q.x (by linarith)) (P q.y (by linarith)) (P q.z (by linarith)) (P q.w (by linarith))
      (by rw [abs_of_nonneg nx, abs_of_nonneg ny, abs_of_nonneg nz, abs_of_nonneg nw]; linarith)
    rw [abs_of_nonneg nx, abs_of_nonneg ny, abs_of_nonneg nz, abs_of_nonneg nw, ← el] at this
    refine this.trans ?_
    unfold e
    nlinarith
  have d0 : 0 < q.length2 := by linarith
  set d := q.length2 with hdd
  have hs : |F.rnd (2 / F.dot q q) - 2 / d| ≤ 23 * F.e :=
    div_ap h hd (by linarith) (by norm_num) le_rfl (C := 22 / 10) (by rw [div_le_iff₀ d0]; linarith) (by norm_num) (by norm_num)
      (by norm_num) (by norm_num) (by norm_num)
  have hsb : |2 / d| ≤ 22 / 10 := by
    rw [abs_of_nonneg (by positivity), div_le_iff₀ d0]; linarith
  have cb : ∀ r : ℝ, r * r ≤ d → |r| ≤ 103 / 100 := fun r hr => abs_le_of_sq_le_sq (by nlinarith) (by norm_num)
  have pb : ∀ r t : ℝ, r * r ≤ d → t * t ≤ d → |r * (t * (2 / d))| ≤ 2 := by
    intro r t hr ht
    have a1 : |r * t| ≤ d := by
      rw [abs_le]; constructor <;> nlinarith [mul_self_nonneg (r + t), mul_self_nonneg (r - t)]
    have e2 : r * (t * (2 / d)) = r * t * (2 / d) := by ring
    rw [e2, abs_mul, abs_of_nonneg (by positivity : 0 ≤ 2 / d)]
    have := mul_le_mul_of_nonneg_right a1 (by positivity : 0 ≤ 2 / d)
    have e3 : d * (2 / d) = 2 := by field_simp
    linarith
  have sb : ∀ t : ℝ, t * t ≤ d → |t * (2 / d)| ≤ 22 / 10 := by
    intro t ht
    have e2 : (t * (2 / d)) * (t * (2 / d)) ≤ 4 / d := by
      have : (t * (2 / d)) * (t * (2 / d)) = (t * t) * (4 / (d * d)) := by field_simp; ring
      rw [this]
      have e3 : 4 / d = d * (4 / (d * d)) := by field_simp
      rw [e3]
      exact mul_le_mul_of_nonneg_right ht (by positivity)
    have e4 : 4 / d ≤ 4.4 := by rw [div_le_iff₀ d0]; norm_num at *; linarith
    refine abs_le_of_sq_le_sq ?_ (by norm_num)
    norm_num at *; nlinarith
  have S : ∀ t : ℝ, t * t ≤ d → |F.rnd (t * F.rnd (2 / F.dot q q)) - t * (2 / d)| ≤ 27 * F.e := fun t ht =>
    mul_ap h (sub_self_ap F t) hs (cb t ht) hsb (sb t ht) (by norm_num) (by norm_num) le_rfl (by norm_num) (by norm_num) (by norm_num)
      (by norm_num) (by norm_num) (by norm_num)
  have P : ∀ r t : ℝ, r * r ≤ d → t * t ≤ d →
      |F.rnd (r * F.rnd (t * F.rnd (2 / F.dot q q))) - r * (t * (2 / d))| ≤ 31 * F.e := fun r t hr ht =>
    mul_ap h (sub_self_ap F r) (S t ht) (cb r hr) (sb t ht) (pb r t hr ht) (by norm_num) (by norm_num) le_rfl (by norm_num)
      (by norm_num) (by norm_num) (by norm_num) (by norm_num) (by norm_num)
  exact basis_of h d0 P

/-! ### The product -/

theorem dot3_ap (h : Good F) {a b c a' b' c' x y z x' y' z' : ℝ} (ha : |a' - a| ≤ 67 * F.e) (hb : |b' - b| ≤ 67 * F.e)
    (hc : |c' - c| ≤ 67 * F.e) (hx : |x' - x| ≤ 67 * F.e) (hy : |y' - y| ≤ 67 * F.e) (hz : |z' - z| ≤ 67 * F.e)
    (a1 : |a| ≤ 1) (b1 : |b| ≤ 1) (c1 : |c| ≤ 1) (x1 : |x| ≤ 1) (y1 : |y| ≤ 1) (z1 : |z| ≤ 1)
    (h1 : |a * x + b * y + c * z| ≤ 1) :
    |F.dot3 a' x' b' y' c' z' - (a * x + b * y + c * z)| ≤ 412 * F.e := by
  have P : ∀ {r t r' t' : ℝ}, |r' - r| ≤ 67 * F.e → |t' - t| ≤ 67 * F.e → |r| ≤ 1 → |t| ≤ 1 →
      |r * t| ≤ 1 ∧ |F.rnd (r' * t') - r * t| ≤ 136 * F.e := by
    intro r t r' t' hr ht r1 t1
    have : |r * t| ≤ 1 := by rw [abs_mul]; exact mul_le_one₀ r1 (abs_nonneg _) t1
    exact ⟨this, mul_ap h hr ht r1 t1 this le_rfl (by norm_num) (by norm_num) (by norm_num) (by norm_num) (by norm_num) (by norm_num)
      (by norm_num) (by norm_num)⟩
  obtain ⟨p1, q1⟩ := P ha hx a1 x1
  obtain ⟨p2, q2⟩ := P hb hy b1 y1
  obtain ⟨p3, q3⟩ := P hc hz c1 z1
  have s : |a * x + b * y| ≤ 2 := (abs_add_le _ _).trans (by linarith)
  exact add_ap h (add_ap h q1 q2 s (by norm_num) (by norm_num) (by norm_num) (by norm_num) (by norm_num) (by norm_num) (m := 2741 / 10)
    (by norm_num)) q3 h1 le_rfl (by norm_num) (by norm_num) (by norm_num) (by norm_num) (by norm_num) (by norm_num)

theorem matMul_ap (h : Good F) {m1' m1 m2' m2 : Mat3 ℝ} (h1 : MatAp F 67 m1' m1) (h2 : MatAp F 67 m2' m2) (r1 : m1.IsRotation)
    (r2 : m2.IsRotation) (r3 : (m1.mul m2).IsRotation) : MatAp F 412 (F.matMul m1' m2') (m1.mul m2) := by
  have a := entries r1
  have b := entries r2
  have c := entries r3
  obtain ⟨c00, c01, c02, c10, c11, c12, c20, c21, c22⟩ := c
  simp only [Mat3.mul, Mat3.tdotx, Mat3.tdoty, Mat3.tdotz] at c00 c01 c02 c10 c11 c12 c20 c21 c22
  constructor <;> simp only [Mat3.mul, matMul, rowTimes, Mat3.tdotx, Mat3.tdoty, Mat3.tdotz]
  · exact dot3_ap h h2.e00 h2.e10 h2.e20 h1.e00 h1.e01 h1.e02 b.e00 b.e10 b.e20 a.e00 a.e01 a.e02 c00
  · exact dot3_ap h h2.e01 h2.e11 h2.e21 h1.e00 h1.e01 h1.e02 b.e01 b.e11 b.e21 a.e00 a.e01 a.e02 c01
  · exact dot3_ap h h2.e02 h2.e12 h2.e22 h1.e00 h1.e01 h1.e02 b.e02 b.e12 b.e22 a.e00 a.e01 a.e02 c02
  · exact dot3_ap h h2.e00 h2.e10 h2.e20 h1.e10 h1.e11 h1.e12 b.e00 b.e10 b.e20 a.e10 a.e11 a.e12 c10
  · exact dot3_ap h h2.e01 h2.e11 h2.e21 h1.e10 h1.e11 h1.e12 b.e01 b.e11 b.e21 a.e10 a.e11 a.e12 c11
  · exact dot3_ap h h2.e02 h2.e12 h2.e22 h1.e10 h1.e11 h1.e12 b.e02 b.e12 b.e22 a.e10 a.e11 a.e12 c12
  · exact dot3_ap h h2.e00 h2.e10 h2.e20 h1.e20 h1.e21 h1.e22 b.e00 b.e10 b.e20 a.e20 a.e21 a.e22 c20
  · exact dot3_ap h h2.e01 h2.e11 h2.e21 h1.e20 h1.e21 h1.e22 b.e01 b.e11 b.e21 a.e20 a.e21 a.e22 c21
  · exact dot3_ap h h2.e02 h2.e12 h2.e22 h1.e20 h1.e21 h1.e22 b.e02 b.e12 b.e22 a.e20 a.e21 a.e22 c22

/-! ### From the matrix back to the quaternion -/

/-- The largest component `r`, from `P' ≈ 4 r²`. -/
theorem pivot (h : Good F) {sqrt : ℝ → ℝ} (hs : SqrtNear F sqrt) {P' r : ℝ} (hP : |P' - (2 * r) ^ 2| ≤ 1250 * F.e)
    (h1 : 49 / 100 ≤ r) (h2 : r ≤ 1) :
    |F.rnd (sqrt P' * (1 / 2)) - r| ≤ 1400 * F.e ∧
    ∀ {N' v : ℝ}, |N' - 4 * (r * v)| ≤ 827 * F.e → r ^ 2 + v ^ 2 ≤ 1 →
      |F.rnd (N' * F.rnd ((1 / 2) / sqrt P')) - v| ≤ 1400 * F.e := by
  have a1 := sqrt_ap h hs hP (by linarith) (by linarith) (by norm_num) (by norm_num)
  have a2 : |sqrt P' - 2 * r| ≤ 707 * F.e := a1.trans (mul_le_mul_of_nonneg_right (by norm_num) h.e.1)
  constructor
  · have := mul_ap h a2 (sub_self_ap F (1 / 2)) (A := 2) (B := 1 / 2) (C := 1) (by rw [abs_of_nonneg (by linarith)]; linarith)
      (by rw [abs_of_nonneg (by norm_num)]) (by rw [abs_of_nonneg (by linarith)]; linarith) le_rfl (by norm_num) (by norm_num)
      (by norm_num) le_rfl (by norm_num) (by norm_num) (by norm_num) (m := 1400) (by norm_num)
    rw [show 2 * r * (1 / 2) = r by ring] at this
    exact this
  · intro N' v hN hv
    have r0 : 0 < r := by linarith
    have g : (1 / 2) / (2 * r) ≤ 52 / 100 := by rw [div_le_iff₀ (by linarith)]; linarith
    have a3 := div_ap h a2 (by linarith) (by norm_num : (0 : ℝ) ≤ 1 / 2) (by norm_num) (C := 1) (by linarith) le_rfl (by norm_num)
      (by norm_num) (by norm_num) (m := 443) (by norm_num)
    have v1 : |v| ≤ 1 := abs_le_one_iff_mul_self_le_one.2 (by nlinarith)
    have n1 : |4 * (r * v)| ≤ 2 := by
      rw [abs_le]; constructor <;> nlinarith [sq_nonneg (r + v), sq_nonneg (r - v)]
    have ev : 4 * (r * v) * ((1 / 2) / (2 * r)) = v := by field_simp; ring
    have := mul_ap h hN a3 n1 (B := 52 / 100) (by rw [abs_of_nonneg (by positivity)]; exact g) (C := 1) (by rw [ev]; exact v1) le_rfl
      (by norm_num) (by norm_num) (by norm_num) (by norm_num) (by norm_num) (by norm_num) (by norm_num) (m := 1400) (by norm_num)
    rw [ev] at this
    exact this


theorem ofQuat_neg (q : Quat ℝ) : Mat3.ofQuat q.neg = Mat3.ofQuat q := by
  simp only [Mat3.ofQuat, Quat.neg, Quat.length2, Quat.dot]
  simp

/-- The entries of the matrix of a unit quaternion. -/
theorem ofQuat_unit {q : Quat ℝ} (h : q.Unit) : Mat3.ofQuat q =
    ⟨⟨1 - 2 * (q.y ^ 2 + q.z ^ 2), 2 * (q.x * q.y - q.w * q.z), 2 * (q.x * q.z + q.w * q.y)⟩,
     ⟨2 * (q.x * q.y + q.w * q.z), 1 - 2 * (q.x ^ 2 + q.z ^ 2), 2 * (q.y * q.z - q.w * q.x)⟩,
     ⟨2 * (q.x * q.z - q.w * q.y), 2 * (q.y * q.z + q.w * q.x), 1 - 2 * (q.x ^ 2 + q.y ^ 2)⟩⟩ := by
  have h1 : q.length2 = 1 := (Quat.unit_iff q).1 h
  simp only [Mat3.ofQuat, h1]
  ext <;> simp <;> ring

/-- Sums of three entries and one. -/
theorem sum_ap (h : Good F) {a b c a' b' c' : ℝ} (ha : |a' - a| ≤ 412 * F.e) (hb : |b' - b| ≤ 412 * F.e) (hc : |c' - c| ≤ 412 * F.e)
    (a1 : |a| ≤ 1) (b1 : |b| ≤ 1) (c1 : |c| ≤ 1) :
    |F.rnd (F.rnd (a' + b') + c') - (a + b + c)| ≤ 1243 * F.e ∧
    |F.rnd (F.rnd (F.rnd (a' + b') + c') + 1) - (a + b + c + 1)| ≤ 1250 * F.e ∧
    |F.rnd (F.rnd (F.rnd (a' - b') - c') + 1) - (a - b - c + 1)| ≤ 1250 * F.e := by
  rw [abs_le] at a1 b1 c1
  have k1 : |F.rnd (F.rnd (a' + b') + c') - (a + b + c)| ≤ 1243 * F.e :=
    add_ap h (add_ap h ha hb (C := 2) (m := 827) (by rw [abs_le]; constructor <;> linarith) (by norm_num) (by norm_num) (by norm_num)
      (by norm_num) (by norm_num) (by norm_num) (by norm_num)) hc (C := 3) (by rw [abs_le]; constructor <;> linarith) (by norm_num)
      (by norm_num) (by norm_num) (by norm_num) (by norm_num) (by norm_num) (by norm_num)
  have k2 : |F.rnd (F.rnd (a' - b') - c') - (a - b - c)| ≤ 1243 * F.e :=
    sub_ap h (sub_ap h ha hb (C := 2) (m := 827) (by rw [abs_le]; constructor <;> linarith) (by norm_num) (by norm_num) (by norm_num)
      (by norm_num) (by norm_num) (by norm_num) (by norm_num)) hc (C := 3) (by rw [abs_le]; constructor <;> linarith) (by norm_num)
      (by norm_num) (by norm_num) (by norm_num) (by norm_num) (by norm_num) (by norm_num)
  refine ⟨k1, ?_, ?_⟩
  · exact add_ap h k1 (sub_self_ap F 1) (C := 4) (by rw [abs_le]; constructor <;> linarith) (by norm_num) (by norm_num) (by norm_num)
      (by norm_num) (by norm_num) (by norm_num) (by norm_num)
  · exact add_ap h k2 (sub_self_ap F 1) (C := 4) (by rw [abs_le]; constructor <;> linarith) (by norm_num) (by norm_num) (by norm_num)
      (by norm_num) (by norm_num) (by norm_num) (by norm_num)

theorem pair_ap (h : Good F) {a b a' b' : ℝ} (ha : |a' - a| ≤ 412 * F.e) (hb : |b' - b| ≤ 412 * F.e) (a1 : |a| ≤ 1) (b1 : |b| ≤ 1) :
    |F.rnd (a' + b') - (a + b)| ≤ 827 * F.e ∧ |F.rnd (a' - b') - (a - b)| ≤ 827 * F.e := by
  rw [abs_le] at a1 b1
  constructor
  · exact add_ap h ha hb (C := 2) (by rw [abs_le]; constructor <;> linarith) (by norm_num) (by norm_num) (by norm_num)
      (by norm_num) (by norm_num) (by norm_num) (by norm_num)
  · exact sub_ap h ha hb (C := 2) (by rw [abs_le]; constructor <;> linarith) (by norm_num) (by norm_num) (by norm_num)
      (by norm_num) (by norm_num) (by norm_num) (by norm_num)

/-- One of `q` and `-q` has a given component that is not negative. -/
theorem with_sign (c : Quat ℝ → ℝ) (hc : ∀ q, c q.neg = -c q) {p : Quat ℝ} (hp : p.Unit) :
    ∃ p' : Quat ℝ, (p' = p ∨ p' = p.neg) ∧ 0 ≤ c p' ∧ p'.Unit ∧ Mat3.ofQuat p' = Mat3.ofQuat p := by
  by_cases h : 0 ≤ c p
  · exact ⟨p, .inl rfl, h, hp, rfl⟩
  · refine ⟨p.neg, .inr rfl, by rw [hc]; linarith, ?_, ofQuat_neg p⟩
    unfold Quat.Unit Quat.neg at *
    simpa using hp

theorem le_one_of_sq {c : ℝ} (h : c ^ 2 ≤ 1) : c ≤ 1 := by nlinarith

theorem half_le {c : ℝ} (h0 : 0 ≤ c) (h : 98 / 100 ≤ 4 * c ^ 2) : 49 / 100 ≤ c := by nlinarith

set_option maxHeartbeats 1000000 in
theorem getRotation_near (h : Good F) {sqrt : ℝ → ℝ} (hs : SqrtNear F sqrt) {m : Mat3 ℝ} {p : Quat ℝ} (hp : p.Unit)
    (hm : MatAp F 412 m (Mat3.ofQuat p)) : ∃ p' : Quat ℝ, (p' = p ∨ p' = p.neg) ∧ (F.getRotation sqrt m).apart p' ≤ 2800 * F.e := by
  obtain ⟨e0, e1⟩ := h.e
  have small : 1250 * F.e ≤ 1 / 10 ^ 5 := by norm_num at *; linarith
  norm_num at small
  have hE := entries (Mat3.ofQuat_isRotation p hp.ne)
  have e2 : 2800 * F.e = 2 * (1400 * F.e) := by ring
  rw [e2]
  have tr := sum_ap h hm.e00 hm.e11 hm.e22 hE.e00 hE.e11 hE.e22
  unfold getRotation
  simp only
  by_cases ht : F.rnd (F.rnd (m.r0.x + m.r1.y) + m.r2.z) > 0
  · rw [if_pos ht]
    obtain ⟨p', h1, h2, h3, h4⟩ := with_sign (fun q => q.w) (fun _ => rfl) hp
    rw [← h4] at hm hE tr
    have hl : p'.x ^ 2 + p'.y ^ 2 + p'.z ^ 2 + p'.w ^ 2 = 1 := h3
    have nx := sq_nonneg p'.x
    have ny := sq_nonneg p'.y
    have nz := sq_nonneg p'.z
    have nw := sq_nonneg p'.w
    rw [ofQuat_unit h3] at hm hE tr
    dsimp only at tr
    obtain ⟨t1, t2, -⟩ := tr
    have w1 : 49 / 100 ≤ p'.w := half_le h2 (by have := (abs_le.1 t1).2; linarith)
    have w2 : p'.w ≤ 1 := le_one_of_sq (by linarith)
    have hP : |F.rnd (F.rnd (F.rnd (m.r0.x + m.r1.y) + m.r2.z) + 1) - (2 * p'.w) ^ 2| ≤ 1250 * F.e := by
      refine le_trans (le_of_eq ?_) t2
      congr 2
      linarith
    obtain ⟨a1, a2⟩ := pivot h hs hP w1 w2
    refine ⟨p', h1, Quat.apart_le ?_ ?_ ?_ ?_⟩
    · refine a2 ?_ (by linarith)
      refine le_trans (le_of_eq ?_) (pair_ap h hm.e21 hm.e12 hE.e21 hE.e12).2
      congr 2; dsimp only; ring
    · refine a2 ?_ (by linarith)
      refine le_trans (le_of_eq ?_) (pair_ap h hm.e02 hm.e20 hE.e02 hE.e20).2
      congr 2; dsimp only; ring
    · refine a2 ?_ (by linarith)
      refine le_trans (le_of_eq ?_) (pair_ap h hm.e10 hm.e01 hE.e10 hE.e01).2
      congr 2; dsimp only; ring
    · exact a1
  · rw [if_neg ht]
    have c0 : ∀ {a b a' b' : ℝ}, |a' - a| ≤ 412 * F.e → |b' - b| ≤ 412 * F.e → b' ≤ a' → b - a ≤ 1 / 100000 := by
      intro a b a' b' ha hb hab
      rw [abs_le] at ha hb
      linarith
    by_cases g0 : m.r0.x < m.r1.y
    · by_cases g1 : m.r1.y < m.r2.z
      · -- z
        rw [if_pos g0, if_pos g1]
        obtain ⟨p', h1, h2, h3, h4⟩ := with_sign (fun q => q.z) (fun _ => rfl) hp
        rw [← h4] at hm hE tr
        have hl : p'.x ^ 2 + p'.y ^ 2 + p'.z ^ 2 + p'.w ^ 2 = 1 := h3
        have nx := sq_nonneg p'.x
        have ny := sq_nonneg p'.y
        have nz := sq_nonneg p'.z
        have nw := sq_nonneg p'.w
        rw [ofQuat_unit h3] at hm hE tr
        dsimp only at tr
        obtain ⟨t1, -, -⟩ := tr
        have t3 := (sum_ap h hm.e22 hm.e00 hm.e11 hE.e22 hE.e00 hE.e11).2.2
        have d1 := c0 hm.e22 hm.e11 g1.le
        have d2 := c0 hm.e22 hm.e00 (g0.trans g1).le
        dsimp only at d1 d2 t3
        have w1 : 49 / 100 ≤ p'.z := half_le h2 (by have := (abs_le.1 t1).1; linarith)
        have w2 : p'.z ≤ 1 := le_one_of_sq (by linarith)
        have hP : |F.rnd (F.rnd (F.rnd (m.r2.z - m.r0.x) - m.r1.y) + 1) - (2 * p'.z) ^ 2| ≤ 1250 * F.e := by
          refine le_trans (le_of_eq ?_) t3
          congr 2
          linarith
        obtain ⟨a1, a2⟩ := pivot h hs hP w1 w2
        refine ⟨p', h1, Quat.apart_le ?_ ?_ ?_ ?_⟩
        · refine a2 ?_ (by linarith)
          refine le_trans (le_of_eq ?_) (pair_ap h hm.e02 hm.e20 hE.e02 hE.e20).1
          congr 2; dsimp only; ring
        · refine a2 ?_ (by linarith)
          refine le_trans (le_of_eq ?_) (pair_ap h hm.e12 hm.e21 hE.e12 hE.e21).1
          congr 2; dsimp only; ring
        · exact a1
        · refine a2 ?_ (by linarith)
          refine le_trans (le_of_eq ?_) (pair_ap h hm.e10 hm.e01 hE.e10 hE.e01).2
          congr 2; dsimp only; ring
      · -- y
        rw [if_pos g0, if_neg g1]
        obtain ⟨p', h1, h2, h3, h4⟩ := with_sign (fun q => q.y) (fun _ => rfl) hp
        rw [← h4] at hm hE tr
        have hl : p'.x ^ 2 + p'.y ^ 2 + p'.z ^ 2 + p'.w ^ 2 = 1 := h3
        have nx := sq_nonneg p'.x
        have ny := sq_nonneg p'.y
        have nz := sq_nonneg p'.z
        have nw := sq_nonneg p'.w
        rw [ofQuat_unit h3] at hm hE tr
        dsimp only at tr
        obtain ⟨t1, -, -⟩ := tr
        have t3 := (sum_ap h hm.e11 hm.e22 hm.e00 hE.e11 hE.e22 hE.e00).2.2
        have d1 := c0 hm.e11 hm.e22 (not_lt.1 g1)
        have d2 := c0 hm.e11 hm.e00 g0.le
        dsimp only at d1 d2 t3
        have w1 : 49 / 100 ≤ p'.y := half_le h2 (by have := (abs_le.1 t1).1; linarith)
        have w2 : p'.y ≤ 1 := le_one_of_sq (by linarith)
        have hP : |F.rnd (F.rnd (F.rnd (m.r1.y - m.r2.z) - m.r0.x) + 1) - (2 * p'.y) ^ 2| ≤ 1250 * F.e := by
          refine le_trans (le_of_eq ?_) t3
          congr 2
          linarith
        obtain ⟨a1, a2⟩ := pivot h hs hP w1 w2
        refine ⟨p', h1, Quat.apart_le ?_ ?_ ?_ ?_⟩
        · refine a2 ?_ (by linarith)
          refine le_trans (le_of_eq ?_) (pair_ap h hm.e01 hm.e10 hE.e01 hE.e10).1
          congr 2; dsimp only; ring
        · exact a1
        · refine a2 ?_ (by linarith)
          refine le_trans (le_of_eq ?_) (pair_ap h hm.e21 hm.e12 hE.e21 hE.e12).1
          congr 2; dsimp only; ring
        · refine a2 ?_ (by linarith)
          refine le_trans (le_of_eq ?_) (pair_ap h hm.e02 hm.e20 hE.e02 hE.e20).2
          congr 2; dsimp only; ring
    · by_cases g1 : m.r0.x < m.r2.z
      · -- z
        rw [if_neg g0, if_pos g1]
        obtain ⟨p', h1, h2, h3, h4⟩ := with_sign (fun q => q.z) (fun _ => rfl) hp
        rw [← h4] at hm hE tr
        have hl : p'.x ^ 2 + p'.y ^ 2 + p'.z ^ 2 + p'.w ^ 2 = 1 := h3
        have nx := sq_nonneg p'.x
        have ny := sq_nonneg p'.y
        have nz := sq_nonneg p'.z
        have nw := sq_nonneg p'.w
        rw [ofQuat_unit h3] at hm hE tr
        dsimp only at tr
        obtain ⟨t1, -, -⟩ := tr
        have t3 := (sum_ap h hm.e22 hm.e00 hm.e11 hE.e22 hE.e00 hE.e11).2.2
        have d1 := c0 hm.e22 hm.e11 ((not_lt.1 g0).trans g1.le)
        have d2 := c0 hm.e22 hm.e00 g1.le
        dsimp only at d1 d2 t3
        have w1 : 49 / 100 ≤ p'.z := half_le h2 (by have := (abs_le.1 t1).1; linarith)
        have w2 : p'.z ≤ 1 := le_one_of_sq (by linarith)
        have hP : |F.rnd (F.rnd (F.rnd (m.r2.z - m.r0.x) - m.r1.y) + 1) - (2 * p'.z) ^ 2| ≤ 1250 * F.e := by
          refine le_trans (le_of_eq ?_) t3
          congr 2
          linarith
        obtain ⟨a1, a2⟩ := pivot h hs hP w1 w2
        refine ⟨p', h1, Quat.apart_le ?_ ?_ ?_ ?_⟩
        · refine a2 ?_ (by linarith)
          refine le_trans (le_of_eq ?_) (pair_ap h hm.e02 hm.e20 hE.e02 hE.e20).1
          congr 2; dsimp only; ring
        · refine a2 ?_ (by linarith)
          refine le_trans (le_of_eq ?_) (pair_ap h hm.e12 hm.e21 hE.e12 hE.e21).1
          congr 2; dsimp only; ring
        · exact a1
        · refine a2 ?_ (by linarith)
          refine le_trans (le_of_eq ?_) (pair_ap h hm.e10 hm.e01 hE.e10 hE.e01).2
          congr 2; dsimp only; ring
      · -- x
        rw [if_neg g0, if_neg g1]
        obtain ⟨p', h1, h2, h3, h4⟩ := with_sign (fun q => q.x) (fun _ => rfl) hp
        rw [← h4] at hm hE tr
        have hl : p'.x ^ 2 + p'.y ^ 2 + p'.z ^ 2 + p'.w ^ 2 = 1 := h3
        have nx := sq_nonneg p'.x
        have ny := sq_nonneg p'.y
        have nz := sq_nonneg p'.z
        have nw := sq_nonneg p'.w
        rw [ofQuat_unit h3] at hm hE tr
        dsimp only at tr
        obtain ⟨t1, -, -⟩ := tr
        have t3 := (sum_ap h hm.e00 hm.e11 hm.e22 hE.e00 hE.e11 hE.e22).2.2
        have d1 := c0 hm.e00 hm.e11 (not_lt.1 g0)
        have d2 := c0 hm.e00 hm.e22 (not_lt.1 g1)
        dsimp only at d1 d2 t3
        have w1 : 49 / 100 ≤ p'.x := half_le h2 (by have := (abs_le.1 t1).1; linarith)
        have w2 : p'.x ≤ 1 := le_one_of_sq (by linarith)
        have hP : |F.rnd (F.rnd (F.rnd (m.r0.x - m.r1.y) - m.r2.z) + 1) - (2 * p'.x) ^ 2| ≤ 1250 * F.e := by
          refine le_trans (le_of_eq ?_) t3
          congr 2
          linarith
        obtain ⟨a1, a2⟩ := pivot h hs hP w1 w2
        refine ⟨p', h1, Quat.apart_le ?_ ?_ ?_ ?_⟩
        · exact a1
        · refine a2 ?_ (by linarith)
          refine le_trans (le_of_eq ?_) (pair_ap h hm.e10 hm.e01 hE.e10 hE.e01).1
          congr 2; dsimp only; ring
        · refine a2 ?_ (by linarith)
          refine le_trans (le_of_eq ?_) (pair_ap h hm.e20 hm.e02 hE.e20 hE.e02).1
          congr 2; dsimp only; ring
        · refine a2 ?_ (by linarith)
          refine le_trans (le_of_eq ?_) (pair_ap h hm.e21 hm.e12 hE.e21 hE.e12).2
          congr 2; dsimp only; ring

end Rounding
end Tf2
