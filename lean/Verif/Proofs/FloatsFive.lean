import Verif.Proofs.FloatsEdge
import Verif.Proofs.RoundedFive

/-!
# The product of the five-argument lookup on numbers of any size

`Verif.Proofs.RoundedProduct` bounds the error of the matrices for quaternions of length about one.  The quaternions of long
paths are between 1e-6 and 1e6 long: the error is the same, for the rounding of numbers scaled by the length.
-/
namespace Tf2

namespace Rounding

variable {F : Rounding}

/-- The same rounding, with coarser bounds. -/
noncomputable def coarse (F : Rounding) (hF : Fine F) : Rounding where
  rnd := F.rnd
  u := 12 / 10 ^ 17
  η := 1 / 10 ^ 16
  Ω := 10 ^ 5
  u_nonneg := by norm_num
  η_nonneg := by norm_num
  err x hx := by
    have h1 := F.err x (hx.trans (le_trans (by norm_num) hF.Ω))
    have h2 : F.u * |x| ≤ 12 / 10 ^ 17 * |x| := mul_le_mul_of_nonneg_right hF.u (abs_nonneg _)
    have h3 : F.η ≤ 1 / 10 ^ 16 := hF.η.trans (by norm_num)
    linarith
  interp := F.interp

/-- The rounding of numbers that are `l` times as large. -/
noncomputable def scaled (F : Rounding) (hF : Fine F) (l : ℝ) (h0 : 1 / 10 ^ 13 ≤ l) (h1 : l ≤ 10 ^ 13) : Rounding where
  rnd x := F.rnd (l * x) / l
  u := 12 / 10 ^ 17
  η := 1 / 10 ^ 16
  Ω := 10 ^ 5
  u_nonneg := by norm_num
  η_nonneg := by norm_num
  err x hx := by
    have l0 : 0 < l := lt_of_lt_of_le (by norm_num) h0
    have hlx : |l * x| ≤ F.Ω := by
      rw [abs_mul, abs_of_pos l0]
      exact (mul_le_mul h1 hx (abs_nonneg _) (by norm_num)).trans (le_trans (by norm_num) hF.Ω)
    have e1 := F.err _ hlx
    have e : F.rnd (l * x) / l - x = (F.rnd (l * x) - l * x) / l := by field_simp
    rw [e, abs_div, abs_of_pos l0, div_le_iff₀ l0]
    rw [abs_mul, abs_of_pos l0] at e1
    have h2 : F.u * (l * |x|) ≤ 12 / 10 ^ 17 * (l * |x|) := mul_le_mul_of_nonneg_right hF.u (mul_nonneg l0.le (abs_nonneg _))
    have h3 : F.η ≤ 1 / 10 ^ 16 * l := by
      have := mul_le_mul_of_nonneg_left h0 (by norm_num : (0 : ℝ) ≤ 1 / 10 ^ 16)
      exact hF.η.trans (le_trans (by norm_num) this)
    have e2 : (12 / 10 ^ 17 * |x| + 1 / 10 ^ 16) * l = 12 / 10 ^ 17 * (l * |x|) + 1 / 10 ^ 16 * l := by ring
    rw [e2]
    linarith
  interp := F.interp

theorem coarse_good (hF : Fine F) : Good (F.coarse hF) := ⟨by norm_num [coarse], by norm_num [coarse], by norm_num [coarse]⟩

theorem scaled_good (hF : Fine F) {l : ℝ} (h0 : 1 / 10 ^ 13 ≤ l) (h1 : l ≤ 10 ^ 13) : Good (F.scaled hF l h0 h1) :=
  ⟨by norm_num [scaled], by norm_num [scaled], by norm_num [scaled]⟩

theorem scaled_e (hF : Fine F) {l : ℝ} (h0 : 1 / 10 ^ 13 ≤ l) (h1 : l ≤ 10 ^ 13) : (F.scaled hF l h0 h1).e = (F.coarse hF).e := rfl

theorem coarse_e (hF : Fine F) : (F.coarse hF).e = 22 / 10 ^ 17 := by norm_num [coarse, e]

theorem coarse_sqrt (hF : Fine F) {M : Libm} (hM : M.Accurate) : SqrtNear (F.coarse hF) M.sqrt := by
  intro x h0 h1
  have h := hM.sqrt x h0 h1
  have s0 := Real.sqrt_nonneg x
  show |M.sqrt x - Real.sqrt x| ≤ 5 * (12 / 10 ^ 17) * Real.sqrt x + 1 / 10 ^ 16
  norm_num at h ⊢
  linarith

/-- A unit quaternion's squared length. -/
theorem dot_unit (h : Good F) {q : Quat ℝ} (hq : q.length2 = 1) : |F.dot q q - 1| ≤ 8 * F.e := by
  have u0 := F.u_nonneg
  have n0 := F.η_nonneg
  have hu := h.u
  have hη := h.η
  have hΩ := h.Ω
  norm_num at hu hη hΩ
  have el : q.length2 = q.x * q.x + q.y * q.y + q.z * q.z + q.w * q.w := rfl
  have nx := mul_self_nonneg q.x
  have ny := mul_self_nonneg q.y
  have nz := mul_self_nonneg q.z
  have nw := mul_self_nonneg q.w
  have P : ∀ r : ℝ, r * r ≤ 2 → |F.rnd (r * r) - r * r| ≤ F.u * |r * r| + F.η := fun r hr =>
    F.err _ (by rw [abs_of_nonneg (mul_self_nonneg r)]; linarith)
  have := sum4_err (F := F) (by linarith) (P q.x (by linarith)) (P q.y (by linarith)) (P q.z (by linarith)) (P q.w (by linarith))
    (by rw [abs_of_nonneg nx, abs_of_nonneg ny, abs_of_nonneg nz, abs_of_nonneg nw]; linarith)
  rw [abs_of_nonneg nx, abs_of_nonneg ny, abs_of_nonneg nz, abs_of_nonneg nw, ← el, hq] at this
  refine this.trans ?_
  unfold e
  linarith

/-- What `setRotation` computes, each in its scale. -/
structure Scales (F : Rounding) (e : ℝ) (q : Quat ℝ) : Prop where
  d : |F.dot q q / q.length2 - 1| ≤ 8 * e
  s : |F.rnd (2 / F.dot q q) * q.length2 - 2| ≤ 23 * e
  p : ∀ t : ℝ, t * t ≤ q.length2 → |F.rnd (t * F.rnd (2 / F.dot q q)) * q.length - t / q.length * 2| ≤ 27 * e
  r : ∀ r t : ℝ, r * r ≤ q.length2 → t * t ≤ q.length2 →
    |F.rnd (r * F.rnd (t * F.rnd (2 / F.dot q q))) - r * (t * (2 / q.length2))| ≤ 31 * e

theorem scales (hF : Fine F) {q : Quat ℝ} (hq : q.Sound) : Scales F (F.coarse hF).e q := by
  obtain ⟨q1, q2⟩ := hq
  have l0 : 0 < q.length := lt_of_lt_of_le (by norm_num) q1
  have hN : q.length2 = q.length ^ 2 := (Quat.length_sq q).symm
  have n1 : 1 / 10 ^ 12 ≤ q.length2 := by
    rw [hN]; exact le_trans (by norm_num) (pow_le_pow_left₀ (by norm_num) q1 2)
  have n2 : q.length2 ≤ 10 ^ 12 := by
    rw [hN]; exact (pow_le_pow_left₀ l0.le q2 2).trans (by norm_num)
  have N0 : 0 < q.length2 := lt_of_lt_of_le (by norm_num) n1
  have a0 : 1 / 10 ^ 13 ≤ q.length2 := le_trans (by norm_num) n1
  have a1 : q.length2 ≤ 10 ^ 13 := n2.trans (by norm_num)
  have b0 : 1 / 10 ^ 13 ≤ 1 / q.length2 := by
    rw [le_div_iff₀ N0]; norm_num at *; linarith
  have b1 : 1 / q.length2 ≤ 10 ^ 13 := by
    rw [div_le_iff₀ N0]; norm_num at *; linarith
  have c0 : 1 / 10 ^ 13 ≤ 1 / q.length := by
    rw [le_div_iff₀ l0]; norm_num at *; linarith
  have c1 : 1 / q.length ≤ 10 ^ 13 := by
    rw [div_le_iff₀ l0]; norm_num at *; linarith
  have hd : |F.dot q q / q.length2 - 1| ≤ 8 * (F.coarse hF).e := by
    have hu : q.normalize.length2 = 1 := (Quat.unit_iff _).1 (Quat.normalize_unit l0)
    have := dot_unit (scaled_good hF a0 a1) hu
    rw [scaled_e] at this
    refine le_trans (le_of_eq ?_) this
    congr 2
    have sq : ∀ x : ℝ, (F.scaled hF q.length2 a0 a1).rnd (x * (1 / q.length) * (x * (1 / q.length))) = F.rnd (x * x) / q.length2 := by
      intro x
      show F.rnd (q.length2 * (x * (1 / q.length) * (x * (1 / q.length)))) / q.length2 = _
      congr 2
      rw [hN]; field_simp
    have ad : ∀ x y : ℝ, (F.scaled hF q.length2 a0 a1).rnd (x / q.length2 + y / q.length2) = F.rnd (x + y) / q.length2 := by
      intro x y
      show F.rnd (q.length2 * (x / q.length2 + y / q.length2)) / q.length2 = _
      congr 2
      field_simp
    unfold dot sum4 Quat.normalize Quat.scale
    simp only [sq, ad]
  have hs : |F.rnd (2 / F.dot q q) * q.length2 - 2| ≤ 23 * (F.coarse hF).e := by
    have := div_ap (scaled_good hF b0 b1) (c := 2) (d' := F.dot q q / q.length2) (d := 1) (k := 8) (C := 22 / 10) (m := 23)
      (by rw [scaled_e]; exact hd) (by norm_num) (by norm_num) le_rfl (by norm_num) (by norm_num) (by norm_num) (by norm_num)
      (by norm_num) (by norm_num)
    rw [scaled_e] at this
    refine le_trans (le_of_eq ?_) this
    congr 2
    · show _ = F.rnd (1 / q.length2 * (2 / (F.dot q q / q.length2))) / (1 / q.length2)
      rw [div_div_eq_mul_div, div_one]
      congr 2
      rw [div_div_eq_mul_div, ← mul_div_assoc]
      congr 1
      field_simp
    · norm_num
  have cb : ∀ {t : ℝ}, t * t ≤ q.length2 → |t / q.length| ≤ 1 := by
    intro t ht
    rw [abs_div, abs_of_pos l0, div_le_one l0]
    refine Real.abs_le_sqrt ?_
    rw [sq]; exact ht
  have hp : ∀ t : ℝ, t * t ≤ q.length2 →
      |F.rnd (t * F.rnd (2 / F.dot q q)) * q.length - t / q.length * 2| ≤ 27 * (F.coarse hF).e := by
    intro t ht
    have := mul_ap (scaled_good hF c0 c1) (a' := t / q.length) (a := t / q.length) (b' := F.rnd (2 / F.dot q q) * q.length2) (b := 2)
      (k := 0) (l := 23) (A := 1) (B := 22 / 10) (C := 22 / 10) (m := 27) (sub_self_ap _ _) (by rw [scaled_e]; exact hs) (cb ht)
      (by norm_num) (by rw [abs_mul, abs_of_pos (by norm_num : (0 : ℝ) < 2)]; linarith [cb ht]) (by norm_num) (by norm_num) le_rfl
      (by norm_num) (by norm_num) (by norm_num) (by norm_num) (by norm_num) (by norm_num)
    rw [scaled_e] at this
    refine le_trans (le_of_eq ?_) this
    congr 2
    show _ = F.rnd (1 / q.length * (t / q.length * (F.rnd (2 / F.dot q q) * q.length2))) / (1 / q.length)
    rw [div_div_eq_mul_div, div_one]
    congr 2
    rw [hN]; field_simp
  refine ⟨hd, hs, hp, ?_⟩
  intro r t hr ht
  have pb : |t / q.length * 2| ≤ 2 := by rw [abs_mul, abs_of_pos (by norm_num : (0 : ℝ) < 2)]; linarith [cb ht]
  have := mul_ap (coarse_good hF) (a' := r / q.length) (a := r / q.length) (b' := F.rnd (t * F.rnd (2 / F.dot q q)) * q.length)
    (b := t / q.length * 2) (k := 0) (l := 27) (A := 1) (B := 2) (C := 2) (m := 31) (sub_self_ap _ _) (hp t ht) (cb hr) pb
    (by rw [abs_mul]; have := mul_le_mul (cb hr) pb (abs_nonneg _) (by norm_num); linarith) (by norm_num) (by norm_num) le_rfl (by norm_num)
    (by norm_num) (by norm_num) (by norm_num) (by norm_num) (by norm_num)
  refine le_trans (le_of_eq ?_) this
  congr 2
  · show _ = F.rnd (r / q.length * (F.rnd (t * F.rnd (2 / F.dot q q)) * q.length))
    congr 1
    field_simp
  · rw [hN]; field_simp

theorem basis_sound (hF : Fine F) {q : Quat ℝ} (hq : q.Sound) : MatAp (F.coarse hF) 67 (F.basis q) (Mat3.ofQuat q) := by
  have l0 : 0 < q.length := lt_of_lt_of_le (by norm_num) hq.1
  exact basis_of (coarse_good hF) (by rw [← Quat.length_sq]; positivity) (scales hF hq).r

/-- The matrix of the product. -/
theorem product_sound (hF : Fine F) {a b : Quat ℝ} (ha : a.Sound) (hb : b.Sound) :
    MatAp (F.coarse hF) 412 (F.matMul (F.basis a) (F.basis b)) (Mat3.ofQuat (a.mul b).normalize) ∧ (a.mul b).normalize.Unit := by
  have la : 0 < a.length := lt_of_lt_of_le (by norm_num) ha.1
  have lb : 0 < b.length := lt_of_lt_of_le (by norm_num) hb.1
  have na := Quat.length_pos la
  have nb := Quat.length_pos lb
  have lp : 0 < (a.mul b).length := by rw [Quat.length_mul]; positivity
  refine ⟨?_, Quat.normalize_unit lp⟩
  rw [Quat.ofQuat_normalize lp, Mat3.ofQuat_mul _ _ na nb]
  exact matMul_ap (coarse_good hF) (basis_sound hF ha) (basis_sound hF hb) (Mat3.ofQuat_isRotation _ na) (Mat3.ofQuat_isRotation _ nb)
    (by rw [← Mat3.ofQuat_mul _ _ na nb]; exact Mat3.ofQuat_isRotation _ (Quat.length_pos lp))

end Rounding

/-! ### On the machine -/

/-- Embedding. -/
def Mat3.up (m : Mat3 ℝ) : Mat3 Fl := ⟨m.r0.up, m.r1.up, m.r2.up⟩

/-- Bounds on the entries. -/
def Mat3.Box (A : ℝ) (m : Mat3 ℝ) : Prop := m.r0.Box A ∧ m.r1.Box A ∧ m.r2.Box A

theorem Rounding.MatAp.box {F : Rounding} {k A : ℝ} {m' m : Mat3 ℝ} (h : Rounding.MatAp F k m' m) (e : Rounding.Entries m)
    (hA : 1 + k * F.e ≤ A) : m'.Box A := by
  have b : ∀ {x y : ℝ}, |x - y| ≤ k * F.e → |y| ≤ 1 → |x| ≤ A := fun {x y} hx hy => by
    have := abs_sub_abs_le_abs_sub x y
    linarith
  exact ⟨⟨b h.e00 e.e00, b h.e01 e.e01, b h.e02 e.e02⟩, ⟨b h.e10 e.e10, b h.e11 e.e11, b h.e12 e.e12⟩,
    ⟨b h.e20 e.e20, b h.e21 e.e21, b h.e22 e.e22⟩⟩

namespace Extends

variable {K : Machine} {F : Rounding}

theorem sum4_up (h : Extends K F) {p q r s C : ℝ} (h1 : 1 ≤ C) (hp : |p| ≤ C) (hq : |q| ≤ C) (hr : |r| ≤ C) (hs : |s| ≤ C)
    (hC : 5 * C ≤ F.Ω) : K.sum4 (.fin p) (.fin q) (.fin r) (.fin s) = .fin (F.sum4 p q r s) := (h.sum4 h1 hp hq hr hs hC).1

theorem dot_big (h : Extends K F) {a : Quat ℝ} (ha : a.Box (10 ^ 6)) : K.dot a.up a.up = .fin (F.dot a a) := by
  have hΩ := h.omega
  obtain ⟨ax, ay, az, aw⟩ := ha
  have P : ∀ {x : ℝ}, |x| ≤ 10 ^ 6 → K.mul (.fin x) (.fin x) = .fin (F.rnd (x * x)) ∧ |F.rnd (x * x)| ≤ 102 / 100 * 10 ^ 12 :=
    fun hx => h.prod (by norm_num) hx hx (by norm_num) (by norm_num at *; linarith)
  unfold Machine.dot Quat.up Rounding.dot
  dsimp only
  rw [(P ax).1, (P ay).1, (P az).1, (P aw).1]
  exact (h.sum4 (C := 102 / 100 * 10 ^ 12) (by norm_num) (P ax).2 (P ay).2 (P az).2 (P aw).2 (by norm_num at *; linarith)).1

theorem basis (h : Extends K F) {q : Quat ℝ} (hq : q.Sound) : K.basis q.up = (F.basis q).up := by
  have hΩ := h.omega
  have hs := Rounding.scales h.fine hq
  have ee := Rounding.coarse_e h.fine
  rw [ee] at hs
  obtain ⟨q1, q2⟩ := hq
  have l0 : 0 < q.length := lt_of_lt_of_le (by norm_num) q1
  have hN : q.length2 = q.length ^ 2 := (Quat.length_sq q).symm
  have n1 : 1 / 10 ^ 12 ≤ q.length2 := by
    rw [hN]; exact le_trans (by norm_num) (pow_le_pow_left₀ (by norm_num) q1 2)
  have N0 : 0 < q.length2 := lt_of_lt_of_le (by norm_num) n1
  have el : q.length2 = q.x * q.x + q.y * q.y + q.z * q.z + q.w * q.w := rfl
  have nx := mul_self_nonneg q.x
  have ny := mul_self_nonneg q.y
  have nz := mul_self_nonneg q.z
  have nw := mul_self_nonneg q.w
  have lx : q.x * q.x ≤ q.length2 := by linarith
  have ly : q.y * q.y ≤ q.length2 := by linarith
  have lz : q.z * q.z ≤ q.length2 := by linarith
  have lw : q.w * q.w ≤ q.length2 := by linarith
  have hd := h.dot_big (q.box_length.mono q2)
  have d9 : 9 / 10 ≤ F.dot q q / q.length2 := by
    have := (abs_le.1 hs.d).1
    norm_num at *; linarith
  have d9' : 9 / 10 * q.length2 ≤ F.dot q q := (le_div_iff₀ N0).1 d9
  have dp : 9 / 10 ^ 13 ≤ F.dot q q := by
    refine le_trans ?_ d9'
    have := mul_le_mul_of_nonneg_left n1 (by norm_num : (0 : ℝ) ≤ 9 / 10)
    norm_num at *; linarith
  have d0 : 0 < F.dot q q := lt_of_lt_of_le (by norm_num) dp
  have hdiv : K.div (.fin 2) (.fin (F.dot q q)) = .fin (F.rnd (2 / F.dot q q)) := by
    unfold Machine.div
    dsimp only
    rw [if_neg d0.ne']
    refine h.fl _ ?_
    rw [abs_of_pos (by positivity)]
    refine le_trans ?_ hΩ
    rw [div_le_iff₀ d0]
    norm_num at *; linarith
  -- the sizes
  have tl : ∀ {t : ℝ}, t * t ≤ q.length2 → |t| ≤ q.length := fun {t} ht => Real.abs_le_sqrt (by rw [sq]; exact ht)
  have S1 : |F.rnd (2 / F.dot q q)| * q.length2 ≤ 3 := by
    have h1 := hs.s
    have h2 := abs_sub_abs_le_abs_sub (F.rnd (2 / F.dot q q) * q.length2) 2
    rw [abs_mul, abs_of_pos N0, abs_of_pos (by norm_num : (0 : ℝ) < 2)] at h2
    norm_num at *; linarith
  have M1 : ∀ {t : ℝ}, t * t ≤ q.length2 → K.mul (.fin t) (.fin (F.rnd (2 / F.dot q q))) = .fin (F.rnd (t * F.rnd (2 / F.dot q q))) := by
    intro t ht
    refine h.fl _ (le_trans ?_ hΩ)
    rw [abs_mul]
    have a1 : |t| * |F.rnd (2 / F.dot q q)| ≤ q.length * |F.rnd (2 / F.dot q q)| := mul_le_mul_of_nonneg_right (tl ht) (abs_nonneg _)
    have a2 : q.length * |F.rnd (2 / F.dot q q)| ≤ 3 * 10 ^ 6 := by
      rw [hN] at S1
      have a3 : q.length * |F.rnd (2 / F.dot q q)| * q.length ≤ 3 := by
        calc _ = |F.rnd (2 / F.dot q q)| * q.length ^ 2 := by ring
          _ ≤ 3 := S1
      have a4 : 0 ≤ q.length * |F.rnd (2 / F.dot q q)| := by positivity
      have a5 := mul_le_mul_of_nonneg_left q1 a4
      norm_num at *; linarith
    norm_num at *; linarith
  have R2 : ∀ {r t : ℝ}, r * r ≤ q.length2 → t * t ≤ q.length2 → |r * (t * (2 / q.length2))| ≤ 2 := by
    intro r t hr ht
    have a1 : |r * t| ≤ q.length2 := by
      rw [abs_le]; constructor <;> nlinarith [mul_self_nonneg (r + t), mul_self_nonneg (r - t)]
    have e2 : r * (t * (2 / q.length2)) = r * t * (2 / q.length2) := by ring
    rw [e2, abs_mul, abs_of_nonneg (by positivity : 0 ≤ 2 / q.length2)]
    have := mul_le_mul_of_nonneg_right a1 (by positivity : 0 ≤ 2 / q.length2)
    have e3 : q.length2 * (2 / q.length2) = 2 := by field_simp
    linarith
  have M2 : ∀ {r t : ℝ}, r * r ≤ q.length2 → t * t ≤ q.length2 →
      K.mul (.fin r) (.fin (F.rnd (t * F.rnd (2 / F.dot q q)))) = .fin (F.rnd (r * F.rnd (t * F.rnd (2 / F.dot q q)))) ∧
      |F.rnd (r * F.rnd (t * F.rnd (2 / F.dot q q)))| ≤ 3 := by
    intro r t hr ht
    constructor
    · refine h.fl _ (le_trans ?_ hΩ)
      rw [abs_mul]
      have p := hs.p t ht
      have h2 := abs_sub_abs_le_abs_sub (F.rnd (t * F.rnd (2 / F.dot q q)) * q.length) (t / q.length * 2)
      rw [abs_mul, abs_of_pos l0] at h2
      have h3 : |t / q.length * 2| ≤ 2 := by
        rw [abs_mul, abs_div, abs_of_pos l0, abs_of_pos (by norm_num : (0 : ℝ) < 2)]
        have := (div_le_one l0).2 (tl ht)
        linarith
      have a1 : |r| * |F.rnd (t * F.rnd (2 / F.dot q q))| ≤ q.length * |F.rnd (t * F.rnd (2 / F.dot q q))| :=
        mul_le_mul_of_nonneg_right (tl hr) (abs_nonneg _)
      norm_num at *; linarith
    · have p := hs.r r t hr ht
      have h2 := abs_sub_abs_le_abs_sub (F.rnd (r * F.rnd (t * F.rnd (2 / F.dot q q)))) (r * (t * (2 / q.length2)))
      have h3 := R2 hr ht
      norm_num at *; linarith
  have A : ∀ {x y : ℝ}, |x| ≤ 3 → |y| ≤ 3 → K.add (.fin x) (.fin y) = .fin (F.rnd (x + y)) ∧ |F.rnd (x + y)| ≤ 102 / 100 * 6 :=
    fun hx hy => h.add (by norm_num) ((Extends.abs_add hx hy).trans (by norm_num)) (by norm_num at *; linarith)
  have S : ∀ {x y : ℝ}, |x| ≤ 3 → |y| ≤ 3 → K.sub (.fin x) (.fin y) = .fin (F.rnd (x - y)) :=
    fun hx hy => (h.sub (C := 6) (by norm_num) ((Extends.abs_sub' hx hy).trans (by norm_num)) (by norm_num at *; linarith)).1
  have D : ∀ {x : ℝ}, |x| ≤ 102 / 100 * 6 → K.sub (.fin 1) (.fin x) = .fin (F.rnd (1 - x)) :=
    fun hx => (h.sub (C := 8) (by norm_num) ((Extends.abs_sub' (by norm_num : |(1 : ℝ)| ≤ 1) hx).trans (by norm_num)) (by norm_num at *; linarith)).1
  unfold Machine.basis Rounding.basis
  simp only [hd, hdiv]
  simp only [Quat.up, M1 lx, M1 ly, M1 lz]
  simp only [(M2 lw lx).1, (M2 lw ly).1, (M2 lw lz).1, (M2 lx lx).1, (M2 lx ly).1, (M2 lx lz).1, (M2 ly ly).1, (M2 ly lz).1, (M2 lz lz).1]
  rw [(A (M2 ly ly).2 (M2 lz lz).2).1, D (A (M2 ly ly).2 (M2 lz lz).2).2, S (M2 lx ly).2 (M2 lw lz).2, (A (M2 lx lz).2 (M2 lw ly).2).1,
    (A (M2 lx ly).2 (M2 lw lz).2).1, (A (M2 lx lx).2 (M2 lz lz).2).1, D (A (M2 lx lx).2 (M2 lz lz).2).2, S (M2 ly lz).2 (M2 lw lx).2,
    S (M2 lx lz).2 (M2 lw ly).2, (A (M2 ly lz).2 (M2 lw lx).2).1, (A (M2 lx lx).2 (M2 ly ly).2).1, D (A (M2 lx lx).2 (M2 ly ly).2).2]
  rfl

theorem dot3 (h : Extends K F) {a b c x y z T : ℝ} (hT : 1 ≤ T) (hΩ : 10 * T ≤ F.Ω) (ha : |a| ≤ 11 / 10) (hb : |b| ≤ 11 / 10)
    (hc : |c| ≤ 11 / 10) (hx : |x| ≤ T) (hy : |y| ≤ T) (hz : |z| ≤ T) :
    K.dot3 (.fin a) (.fin x) (.fin b) (.fin y) (.fin c) (.fin z) = .fin (F.dot3 a x b y c z) ∧ |F.dot3 a x b y c z| ≤ 36 / 10 * T := by
  have P : ∀ {r t : ℝ}, |r| ≤ 11 / 10 → |t| ≤ T → K.mul (.fin r) (.fin t) = .fin (F.rnd (r * t)) ∧ |F.rnd (r * t)| ≤ 102 / 100 * (11 / 10 * T) :=
    fun hr ht => h.prod (by linarith) hr ht le_rfl (by linarith)
  obtain ⟨e1, b1⟩ := P ha hx
  obtain ⟨e2, b2⟩ := P hb hy
  obtain ⟨e3, b3⟩ := P hc hz
  obtain ⟨e4, b4⟩ := h.add (C := 2244 / 1000 * T) (by linarith) ((Extends.abs_add b1 b2).trans (by linarith)) (by linarith)
  obtain ⟨e5, b5⟩ := h.add (C := 342 / 100 * T) (by linarith) ((Extends.abs_add b4 b3).trans (by linarith)) (by linarith)
  unfold Machine.dot3 Rounding.dot3
  rw [e1, e2, e3, e4, e5]
  exact ⟨rfl, b5.trans (by linarith)⟩

theorem rowTimes (h : Extends K F) {v : Vec3 ℝ} {m : Mat3 ℝ} (hv : v.Box (11 / 10)) (hm : m.Box (11 / 10)) :
    K.rowTimes v.up m.up = (F.rowTimes v m).up := by
  have hΩ := h.omega
  have D : ∀ {a b c x y z : ℝ}, |a| ≤ 11 / 10 → |b| ≤ 11 / 10 → |c| ≤ 11 / 10 → |x| ≤ 11 / 10 → |y| ≤ 11 / 10 → |z| ≤ 11 / 10 →
      K.dot3 (.fin a) (.fin x) (.fin b) (.fin y) (.fin c) (.fin z) = .fin (F.dot3 a x b y c z) :=
    fun ha hb hc hx hy hz => (h.dot3 (T := 11 / 10) (by norm_num) (by norm_num at *; linarith) ha hb hc hx hy hz).1
  obtain ⟨v1, v2, v3⟩ := hv
  obtain ⟨⟨a1, a2, a3⟩, ⟨b1, b2, b3⟩, ⟨c1, c2, c3⟩⟩ := hm
  unfold Machine.rowTimes Vec3.up Mat3.up Vec3.up
  dsimp only
  rw [D a1 b1 c1 v1 v2 v3, D a2 b2 c2 v1 v2 v3, D a3 b3 c3 v1 v2 v3]
  rfl

theorem matMul (h : Extends K F) {m1 m2 : Mat3 ℝ} (h1 : m1.Box (11 / 10)) (h2 : m2.Box (11 / 10)) :
    K.matMul m1.up m2.up = (F.matMul m1 m2).up := by
  unfold Machine.matMul
  show (⟨K.rowTimes m1.r0.up m2.up, K.rowTimes m1.r1.up m2.up, K.rowTimes m1.r2.up m2.up⟩ : Mat3 Fl) = _
  rw [h.rowTimes h1.1 h2, h.rowTimes h1.2.1 h2, h.rowTimes h1.2.2 h2]
  rfl

theorem apply (h : Extends K F) {t : Xform ℝ} {v : Vec3 ℝ} {T : ℝ} (hT : 1 ≤ T) (hΩ : 10 * T ≤ F.Ω) (hb : t.basis.Box (11 / 10))
    (ho : t.origin.Box T) (hv : v.Box T) : K.apply ⟨t.basis.up, t.origin.up⟩ v.up = (F.apply t v).up := by
  obtain ⟨v1, v2, v3⟩ := hv
  obtain ⟨o1, o2, o3⟩ := ho
  obtain ⟨⟨a1, a2, a3⟩, ⟨b1, b2, b3⟩, ⟨c1, c2, c3⟩⟩ := hb
  have A : ∀ {x y : ℝ}, |x| ≤ 36 / 10 * T → |y| ≤ T → K.add (.fin x) (.fin y) = .fin (F.rnd (x + y)) :=
    fun hx hy => (h.add (C := 46 / 10 * T) (by linarith) ((Extends.abs_add hx hy).trans (by linarith)) (by linarith)).1
  obtain ⟨e1, d1⟩ := h.dot3 hT hΩ a1 a2 a3 v1 v2 v3
  obtain ⟨e2, d2⟩ := h.dot3 hT hΩ b1 b2 b3 v1 v2 v3
  obtain ⟨e3, d3⟩ := h.dot3 hT hΩ c1 c2 c3 v1 v2 v3
  unfold Machine.apply Vec3.up Mat3.up Vec3.up
  dsimp only
  rw [e1, e2, e3, A d1 o1, A d2 o2, A d3 o3]
  rfl

/-- The root, its half, one over its double, and products with that. -/
theorem pivot (h : Extends K F) (hM : K.lib.Accurate) {P : ℝ} (h0 : 1 / 4 ≤ P) (h1 : P ≤ 5) :
    K.sqrt (.fin P) = .fin (K.lib.sqrt P) ∧ K.mul (.fin (K.lib.sqrt P)) (.fin (1 / 2)) = .fin (F.rnd (K.lib.sqrt P * (1 / 2))) ∧
    K.div (.fin (1 / 2)) (.fin (K.lib.sqrt P)) = .fin (F.rnd ((1 / 2) / K.lib.sqrt P)) ∧
    ∀ {N : ℝ}, |N| ≤ 3 → K.mul (.fin N) (.fin (F.rnd ((1 / 2) / K.lib.sqrt P))) = .fin (F.rnd (N * F.rnd ((1 / 2) / K.lib.sqrt P))) := by
  have hΩ := h.omega
  have s1 : 1 / 2 ≤ Real.sqrt P := Real.le_sqrt_of_sq_le (by norm_num at *; linarith)
  have s2 : Real.sqrt P ≤ 3 := Real.sqrt_le_iff.2 ⟨by norm_num, by norm_num; linarith⟩
  have hs := hM.sqrt P (by linarith) (by linarith)
  obtain ⟨a1, a2⟩ := abs_le.1 hs
  have b1 : 4 / 10 ≤ K.lib.sqrt P := by norm_num at *; linarith
  have b2 : K.lib.sqrt P ≤ 4 := by norm_num at *; linarith
  have e0 : K.sqrt (.fin P) = .fin (K.lib.sqrt P) := by
    unfold Machine.sqrt
    dsimp only
    rw [if_neg (by linarith)]
  generalize K.lib.sqrt P = r at *
  have b3 : |r| ≤ 4 := by rw [abs_of_pos (by linarith)]; exact b2
  have q0 : |(1 / 2) / r| ≤ 2 := by
    rw [abs_of_pos (by positivity), div_le_iff₀ (by linarith)]; linarith
  have q1 : |F.rnd ((1 / 2) / r)| ≤ 102 / 100 * 2 := h.rnd_le (by norm_num) q0 (by norm_num at *; linarith)
  refine ⟨?_, ?_, ?_, ?_⟩
  · exact e0
  · exact (h.prod (C := 4) (by norm_num) b3 (by rw [abs_of_pos (by norm_num)]) (by norm_num) (by norm_num at *; linarith)).1
  · unfold Machine.div
    dsimp only
    rw [if_neg (by linarith)]
    exact h.fl _ (q0.trans (by norm_num at *; linarith))
  · intro N hN
    exact (h.prod (C := 10) (by norm_num) hN q1 (by norm_num) (by norm_num at *; linarith)).1

theorem getRotation (h : Extends K F) (hM : K.lib.Accurate) {m : Mat3 ℝ} {p : Quat ℝ} (hp : p.Unit)
    (hm : Rounding.MatAp (F.coarse h.fine) 412 m (Mat3.ofQuat p)) : K.getRotation m.up = (F.getRotation K.lib.sqrt m).up := by
  have hΩ := h.omega
  have hE := Rounding.entries (Mat3.ofQuat_isRotation p hp.ne)
  have hg := Rounding.coarse_good h.fine
  have ee := Rounding.coarse_e h.fine
  have hb : m.Box (11 / 10) := hm.box hE (by rw [ee]; norm_num)
  obtain ⟨⟨a1, a2, a3⟩, ⟨b1, b2, b3⟩, ⟨c1, c2, c3⟩⟩ := hb
  -- sums and differences of two entries, and the four sums of the diagonal
  have A : ∀ {x y : ℝ}, |x| ≤ 11 / 10 → |y| ≤ 11 / 10 → K.add (.fin x) (.fin y) = .fin (F.rnd (x + y)) ∧ |F.rnd (x + y)| ≤ 3 := by
    intro x y hx hy
    obtain ⟨e1, e2⟩ := h.add (C := 22 / 10) (by norm_num) ((Extends.abs_add hx hy).trans (by norm_num)) (by norm_num at *; linarith)
    exact ⟨e1, e2.trans (by norm_num)⟩
  have S : ∀ {x y : ℝ}, |x| ≤ 11 / 10 → |y| ≤ 11 / 10 → K.sub (.fin x) (.fin y) = .fin (F.rnd (x - y)) ∧ |F.rnd (x - y)| ≤ 3 := by
    intro x y hx hy
    obtain ⟨e1, e2⟩ := h.sub (C := 22 / 10) (by norm_num) ((Extends.abs_sub' hx hy).trans (by norm_num)) (by norm_num at *; linarith)
    exact ⟨e1, e2.trans (by norm_num)⟩
  have A3 : ∀ {x y : ℝ}, |x| ≤ 3 → |y| ≤ 11 / 10 → K.add (.fin x) (.fin y) = .fin (F.rnd (x + y)) ∧ |F.rnd (x + y)| ≤ 5 := by
    intro x y hx hy
    obtain ⟨e1, e2⟩ := h.add (C := 41 / 10) (by norm_num) ((Extends.abs_add hx hy).trans (by norm_num)) (by norm_num at *; linarith)
    exact ⟨e1, e2.trans (by norm_num)⟩
  have S3 : ∀ {x y : ℝ}, |x| ≤ 3 → |y| ≤ 11 / 10 → K.sub (.fin x) (.fin y) = .fin (F.rnd (x - y)) ∧ |F.rnd (x - y)| ≤ 5 := by
    intro x y hx hy
    obtain ⟨e1, e2⟩ := h.sub (C := 41 / 10) (by norm_num) ((Extends.abs_sub' hx hy).trans (by norm_num)) (by norm_num at *; linarith)
    exact ⟨e1, e2.trans (by norm_num)⟩
  have A4 : ∀ {x : ℝ}, |x| ≤ 5 → K.add (.fin x) (.fin 1) = .fin (F.rnd (x + 1)) := fun hx =>
    (h.add (C := 6) (by norm_num) ((Extends.abs_add hx (by norm_num : |(1 : ℝ)| ≤ 1)).trans (by norm_num)) (by norm_num at *; linarith)).1
  have tr0 : -1 ≤ (Mat3.ofQuat p).r0.x + (Mat3.ofQuat p).r1.y + (Mat3.ofQuat p).r2.z := by
    have hl : p.x ^ 2 + p.y ^ 2 + p.z ^ 2 + p.w ^ 2 = 1 := hp
    rw [Rounding.ofQuat_unit hp]
    dsimp only
    nlinarith [sq_nonneg p.w]
  have tr := Rounding.sum_ap hg hm.e00 hm.e11 hm.e22 hE.e00 hE.e11 hE.e22
  have p0 := (Rounding.sum_ap hg hm.e00 hm.e11 hm.e22 hE.e00 hE.e11 hE.e22).2.2
  have p1 := (Rounding.sum_ap hg hm.e11 hm.e22 hm.e00 hE.e11 hE.e22 hE.e00).2.2
  have p2 := (Rounding.sum_ap hg hm.e22 hm.e00 hm.e11 hE.e22 hE.e00 hE.e11).2.2
  obtain ⟨t1, t2, -⟩ := tr
  have m0 := hm.e00
  have m1 := hm.e11
  have m2 := hm.e22
  rw [ee] at t1 t2 p0 p1 p2 m0 m1 m2
  have x0 := abs_le.1 hE.e00
  have x1 := abs_le.1 hE.e11
  have x2 := abs_le.1 hE.e22
  change |F.rnd (F.rnd (m.r0.x + m.r1.y) + m.r2.z) - _| ≤ _ at t1
  change |F.rnd (F.rnd (F.rnd (m.r0.x + m.r1.y) + m.r2.z) + 1) - _| ≤ _ at t2
  change |F.rnd (F.rnd (F.rnd (m.r0.x - m.r1.y) - m.r2.z) + 1) - _| ≤ _ at p0
  change |F.rnd (F.rnd (F.rnd (m.r1.y - m.r2.z) - m.r0.x) + 1) - _| ≤ _ at p1
  change |F.rnd (F.rnd (F.rnd (m.r2.z - m.r0.x) - m.r1.y) + 1) - _| ≤ _ at p2
  rw [abs_le] at t1 t2 p0 p1 p2 m0 m1 m2
  generalize (Mat3.ofQuat p).r0.x = X at *
  generalize (Mat3.ofQuat p).r1.y = Y at *
  generalize (Mat3.ofQuat p).r2.z = Z at *
  have etr : K.add (K.add m.up.r0.x m.up.r1.y) m.up.r2.z = .fin (F.rnd (F.rnd (m.r0.x + m.r1.y) + m.r2.z)) := by
    show K.add (K.add (.fin m.r0.x) (.fin m.r1.y)) (.fin m.r2.z) = _
    rw [(A a1 b2).1, (A3 (A a1 b2).2 c3).1]
  have elt : (Fl.fin 0).lt (.fin (F.rnd (F.rnd (m.r0.x + m.r1.y) + m.r2.z))) = decide (0 < F.rnd (F.rnd (m.r0.x + m.r1.y) + m.r2.z)) := rfl
  have l01 : m.up.r0.x.lt m.up.r1.y = decide (m.r0.x < m.r1.y) := rfl
  have l12 : m.up.r1.y.lt m.up.r2.z = decide (m.r1.y < m.r2.z) := rfl
  have l02 : m.up.r0.x.lt m.up.r2.z = decide (m.r0.x < m.r2.z) := rfl
  unfold Machine.getRotation Rounding.getRotation
  simp only [etr, elt, l01, l12, l02, gt_iff_lt]
  by_cases ht : 0 < F.rnd (F.rnd (m.r0.x + m.r1.y) + m.r2.z)
  · simp only [ht, decide_true, if_true]
    rw [A4 (A3 (A a1 b2).2 c3).2]
    obtain ⟨v1, v2, v3, v4⟩ := h.pivot hM (P := F.rnd (F.rnd (F.rnd (m.r0.x + m.r1.y) + m.r2.z) + 1))
      (by norm_num at *; linarith) (by norm_num at *; linarith)
    rw [v1, v2, v3]
    show (⟨K.mul (K.sub (.fin m.r2.y) (.fin m.r1.z)) _, K.mul (K.sub (.fin m.r0.z) (.fin m.r2.x)) _, 
      K.mul (K.sub (.fin m.r1.x) (.fin m.r0.y)) _, _⟩ : Quat Fl) = _
    rw [(S c2 b3).1, (S a3 c1).1, (S b1 a2).1, v4 (S c2 b3).2, v4 (S a3 c1).2, v4 (S b1 a2).2]
    rfl
  · simp only [ht, decide_false, if_false, Bool.false_eq_true, decide_eq_true_eq]
    rw [not_lt] at ht
    -- the three cases
    have go0 : m.r1.y ≤ m.r0.x → m.r2.z ≤ m.r0.x → 1 / 4 ≤ F.rnd (F.rnd (F.rnd (m.r0.x - m.r1.y) - m.r2.z) + 1) ∧
        F.rnd (F.rnd (F.rnd (m.r0.x - m.r1.y) - m.r2.z) + 1) ≤ 5 := by
      intro g1 g2; norm_num at *; constructor <;> linarith
    have go1 : m.r2.z ≤ m.r1.y → m.r0.x ≤ m.r1.y → 1 / 4 ≤ F.rnd (F.rnd (F.rnd (m.r1.y - m.r2.z) - m.r0.x) + 1) ∧
        F.rnd (F.rnd (F.rnd (m.r1.y - m.r2.z) - m.r0.x) + 1) ≤ 5 := by
      intro g1 g2; norm_num at *; constructor <;> linarith
    have go2 : m.r0.x ≤ m.r2.z → m.r1.y ≤ m.r2.z → 1 / 4 ≤ F.rnd (F.rnd (F.rnd (m.r2.z - m.r0.x) - m.r1.y) + 1) ∧
        F.rnd (F.rnd (F.rnd (m.r2.z - m.r0.x) - m.r1.y) + 1) ≤ 5 := by
      intro g1 g2; norm_num at *; constructor <;> linarith
    have i0 : m.r1.y ≤ m.r0.x → m.r2.z ≤ m.r0.x → 
        (⟨K.mul (K.sqrt (K.add (K.sub (K.sub (.fin m.r0.x) (.fin m.r1.y)) (.fin m.r2.z)) (.fin 1))) (.fin (1 / 2)),
          K.mul (K.add (.fin m.r1.x) (.fin m.r0.y)) (K.div (.fin (1 / 2)) (K.sqrt (K.add (K.sub (K.sub (.fin m.r0.x) (.fin m.r1.y)) (.fin m.r2.z)) (.fin 1)))),
          K.mul (K.add (.fin m.r2.x) (.fin m.r0.z)) (K.div (.fin (1 / 2)) (K.sqrt (K.add (K.sub (K.sub (.fin m.r0.x) (.fin m.r1.y)) (.fin m.r2.z)) (.fin 1)))),
          K.mul (K.sub (.fin m.r2.y) (.fin m.r1.z)) (K.div (.fin (1 / 2)) (K.sqrt (K.add (K.sub (K.sub (.fin m.r0.x) (.fin m.r1.y)) (.fin m.r2.z)) (.fin 1))))⟩ : Quat Fl) =
        (⟨F.rnd (K.lib.sqrt (F.rnd (F.rnd (F.rnd (m.r0.x - m.r1.y) - m.r2.z) + 1)) * (1 / 2)),
          F.rnd (F.rnd (m.r1.x + m.r0.y) * F.rnd ((1 / 2) / K.lib.sqrt (F.rnd (F.rnd (F.rnd (m.r0.x - m.r1.y) - m.r2.z) + 1)))),
          F.rnd (F.rnd (m.r2.x + m.r0.z) * F.rnd ((1 / 2) / K.lib.sqrt (F.rnd (F.rnd (F.rnd (m.r0.x - m.r1.y) - m.r2.z) + 1)))),
          F.rnd (F.rnd (m.r2.y - m.r1.z) * F.rnd ((1 / 2) / K.lib.sqrt (F.rnd (F.rnd (F.rnd (m.r0.x - m.r1.y) - m.r2.z) + 1))))⟩ : Quat ℝ).up := by
      intro g1 g2
      obtain ⟨v1, v2, v3, v4⟩ := h.pivot hM (go0 g1 g2).1 (go0 g1 g2).2
      rw [(S a1 b2).1, (S3 (S a1 b2).2 c3).1, A4 (S3 (S a1 b2).2 c3).2, v1, v2, v3, (A b1 a2).1, (A c1 a3).1, (S c2 b3).1,
        v4 (A b1 a2).2, v4 (A c1 a3).2, v4 (S c2 b3).2]
      rfl
    have i1 : m.r2.z ≤ m.r1.y → m.r0.x ≤ m.r1.y → 
        (⟨K.mul (K.add (.fin m.r0.y) (.fin m.r1.x)) (K.div (.fin (1 / 2)) (K.sqrt (K.add (K.sub (K.sub (.fin m.r1.y) (.fin m.r2.z)) (.fin m.r0.x)) (.fin 1)))),
          K.mul (K.sqrt (K.add (K.sub (K.sub (.fin m.r1.y) (.fin m.r2.z)) (.fin m.r0.x)) (.fin 1))) (.fin (1 / 2)),
          K.mul (K.add (.fin m.r2.y) (.fin m.r1.z)) (K.div (.fin (1 / 2)) (K.sqrt (K.add (K.sub (K.sub (.fin m.r1.y) (.fin m.r2.z)) (.fin m.r0.x)) (.fin 1)))),
          K.mul (K.sub (.fin m.r0.z) (.fin m.r2.x)) (K.div (.fin (1 / 2)) (K.sqrt (K.add (K.sub (K.sub (.fin m.r1.y) (.fin m.r2.z)) (.fin m.r0.x)) (.fin 1))))⟩ : Quat Fl) =
        (⟨F.rnd (F.rnd (m.r0.y + m.r1.x) * F.rnd ((1 / 2) / K.lib.sqrt (F.rnd (F.rnd (F.rnd (m.r1.y - m.r2.z) - m.r0.x) + 1)))),
          F.rnd (K.lib.sqrt (F.rnd (F.rnd (F.rnd (m.r1.y - m.r2.z) - m.r0.x) + 1)) * (1 / 2)),
          F.rnd (F.rnd (m.r2.y + m.r1.z) * F.rnd ((1 / 2) / K.lib.sqrt (F.rnd (F.rnd (F.rnd (m.r1.y - m.r2.z) - m.r0.x) + 1)))),
          F.rnd (F.rnd (m.r0.z - m.r2.x) * F.rnd ((1 / 2) / K.lib.sqrt (F.rnd (F.rnd (F.rnd (m.r1.y - m.r2.z) - m.r0.x) + 1))))⟩ : Quat ℝ).up := by
      intro g1 g2
      obtain ⟨v1, v2, v3, v4⟩ := h.pivot hM (go1 g1 g2).1 (go1 g1 g2).2
      rw [(S b2 c3).1, (S3 (S b2 c3).2 a1).1, A4 (S3 (S b2 c3).2 a1).2, v1, v2, v3, (A a2 b1).1, (A c2 b3).1, (S a3 c1).1,
        v4 (A a2 b1).2, v4 (A c2 b3).2, v4 (S a3 c1).2]
      rfl
    have i2 : m.r0.x ≤ m.r2.z → m.r1.y ≤ m.r2.z → 
        (⟨K.mul (K.add (.fin m.r0.z) (.fin m.r2.x)) (K.div (.fin (1 / 2)) (K.sqrt (K.add (K.sub (K.sub (.fin m.r2.z) (.fin m.r0.x)) (.fin m.r1.y)) (.fin 1)))),
          K.mul (K.add (.fin m.r1.z) (.fin m.r2.y)) (K.div (.fin (1 / 2)) (K.sqrt (K.add (K.sub (K.sub (.fin m.r2.z) (.fin m.r0.x)) (.fin m.r1.y)) (.fin 1)))),
          K.mul (K.sqrt (K.add (K.sub (K.sub (.fin m.r2.z) (.fin m.r0.x)) (.fin m.r1.y)) (.fin 1))) (.fin (1 / 2)),
          K.mul (K.sub (.fin m.r1.x) (.fin m.r0.y)) (K.div (.fin (1 / 2)) (K.sqrt (K.add (K.sub (K.sub (.fin m.r2.z) (.fin m.r0.x)) (.fin m.r1.y)) (.fin 1))))⟩ : Quat Fl) =
        (⟨F.rnd (F.rnd (m.r0.z + m.r2.x) * F.rnd ((1 / 2) / K.lib.sqrt (F.rnd (F.rnd (F.rnd (m.r2.z - m.r0.x) - m.r1.y) + 1)))),
          F.rnd (F.rnd (m.r1.z + m.r2.y) * F.rnd ((1 / 2) / K.lib.sqrt (F.rnd (F.rnd (F.rnd (m.r2.z - m.r0.x) - m.r1.y) + 1)))),
          F.rnd (K.lib.sqrt (F.rnd (F.rnd (F.rnd (m.r2.z - m.r0.x) - m.r1.y) + 1)) * (1 / 2)),
          F.rnd (F.rnd (m.r1.x - m.r0.y) * F.rnd ((1 / 2) / K.lib.sqrt (F.rnd (F.rnd (F.rnd (m.r2.z - m.r0.x) - m.r1.y) + 1))))⟩ : Quat ℝ).up := by
      intro g1 g2
      obtain ⟨v1, v2, v3, v4⟩ := h.pivot hM (go2 g1 g2).1 (go2 g1 g2).2
      rw [(S c3 a1).1, (S3 (S c3 a1).2 b2).1, A4 (S3 (S c3 a1).2 b2).2, v1, v2, v3, (A a3 c1).1, (A b3 c2).1, (S b1 a2).1,
        v4 (A a3 c1).2, v4 (A b3 c2).2, v4 (S b1 a2).2]
      rfl
    by_cases g0 : m.r0.x < m.r1.y
    · by_cases g1 : m.r1.y < m.r2.z
      · simp only [g0, g1, if_true]
        exact i2 (g0.trans g1).le g1.le
      · simp only [g0, g1, if_true, if_false]
        exact i1 (not_lt.1 g1) g0.le
    · by_cases g1 : m.r0.x < m.r2.z
      · simp only [g0, g1, if_true, if_false]
        exact i2 g1.le ((not_lt.1 g0).trans g1.le)
      · simp only [g0, g1, if_false]
        exact i0 (not_lt.1 g0) (not_lt.1 g1)

/-- The rotation of the product: a unit quaternion, that of the product of the two. -/
theorem mulMsg_rotation (h : Extends K F) (hM : K.lib.Accurate) {a b : FPose} {p q : Quat ℝ} (ha : a.1 = p.up) (hb : b.1 = q.up)
    (hp : p.Sound) (hq : q.Sound) : ∃ r : Quat ℝ, (K.mulMsg a b).1 = r.up ∧ r.gap (p.mul q).normalize ≤ 62 / 10 ^ 14 ∧
      |r.length2 - 1| ≤ 13 / 10 ^ 13 := by
  have ee := Rounding.coarse_e h.fine
  have box : ∀ {q : Quat ℝ}, q.Sound → (F.basis q).Box (11 / 10) := fun {q} hq =>
    (Rounding.basis_sound h.fine hq).box (Rounding.entries (Mat3.ofQuat_isRotation _ (Quat.length_pos (lt_of_lt_of_le (by norm_num) hq.1))))
      (by rw [ee]; norm_num)
  obtain ⟨hm, hu⟩ := Rounding.product_sound h.fine hp hq
  obtain ⟨p', hp', hap⟩ := Rounding.getRotation_near (Rounding.coarse_good h.fine) (Rounding.coarse_sqrt h.fine hM) hu hm
  rw [ee] at hap
  change (F.getRotation K.lib.sqrt (F.matMul (F.basis p) (F.basis q))).apart p' ≤ _ at hap
  have e : (K.mulMsg a b).1 = (F.getRotation K.lib.sqrt (F.matMul (F.basis p) (F.basis q))).up := by
    show K.getRotation (K.matMul (K.basis a.1) (K.basis b.1)) = _
    rw [ha, hb, h.basis hp, h.basis hq, h.matMul (box hp) (box hq), h.getRotation hM hu hm]
  refine ⟨_, e, ?_, ?_⟩
  · generalize F.getRotation K.lib.sqrt (F.matMul (F.basis p) (F.basis q)) = r at *
    unfold Quat.gap
    rcases hp' with rfl | rfl
    · exact (min_le_left _ _).trans (by norm_num at *; linarith)
    · exact (min_le_right _ _).trans (by norm_num at *; linarith)
  · generalize F.getRotation K.lib.sqrt (F.matMul (F.basis p) (F.basis q)) = r at *
    have lp : p'.length = 1 := by
      have hu' : (p.mul q).normalize.length = 1 := by
        unfold Quat.length; rw [(Quat.unit_iff _).1 hu]; exact Real.sqrt_one
      rcases hp' with rfl | rfl
      · exact hu'
      · rw [← hu']; simp only [Quat.length, Quat.length2, Quat.dot, Quat.neg]; congr 1; ring
    have l1 := Quat.length_le_apart r p'
    have l2 := Quat.length_le_apart p' r
    rw [Quat.apart_comm] at l2
    rw [lp] at l1 l2
    rw [← Quat.length_sq, abs_le]
    norm_num at hap ⊢
    constructor <;> nlinarith

/-- The whole product. -/
theorem mulMsg (h : Extends K F) (hM : K.lib.Accurate) {B : ℝ} (hB : 0 ≤ B) (hΩ : 10 ^ 16 * (B + 1) ≤ F.Ω) {a b : FPose}
    (ha : FSound B a) (hb : FSound B b) : (K.mulMsg a b).Finite := by
  obtain ⟨x, rfl, x1, x2⟩ := ha
  obtain ⟨y, rfl, y1, y2⟩ := hb
  obtain ⟨r, e, _⟩ := h.mulMsg_rotation hM (a := x.up) (b := y.up) rfl rfl x1 y1
  have ee := Rounding.coarse_e h.fine
  have box := (Rounding.basis_sound h.fine x1).box
    (Rounding.entries (Mat3.ofQuat_isRotation _ (Quat.length_pos (lt_of_lt_of_le (by norm_num) x1.1)))) (A := 11 / 10) (by rw [ee]; norm_num)
  have e2 : (K.mulMsg x.up y.up).2 = (F.apply ⟨F.basis x.rot, x.trans⟩ y.trans).up := by
    show K.apply ⟨K.basis x.rot.up, x.trans.up⟩ y.trans.up = _
    rw [h.basis x1]
    exact h.apply (t := ⟨F.basis x.rot, x.trans⟩) (T := 10 ^ 15 * (B + 1)) (by norm_num; linarith) (by norm_num at *; linarith) box x2 y2
  unfold FPose.Finite
  rw [e, e2]
  exact ⟨⟨⟨_, rfl⟩, ⟨_, rfl⟩, ⟨_, rfl⟩, ⟨_, rfl⟩⟩, ⟨_, rfl⟩, ⟨_, rfl⟩, ⟨_, rfl⟩⟩

end Extends

end Tf2
