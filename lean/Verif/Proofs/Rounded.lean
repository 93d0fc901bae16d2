import Verif.Spec.Rounded
import Verif.Proofs.Drift

/-!
# Rounding errors of the arithmetic of a lookup
-/
namespace Tf2

namespace Quat

/-- componentwise difference -/
def minus (a b : Quat ℝ) : Quat ℝ := ⟨a.x - b.x, a.y - b.y, a.z - b.z, a.w - b.w⟩

theorem apart_eq (a b : Quat ℝ) : a.apart b = (a.minus b).length := by
  unfold apart length length2 dot minus
  congr 1; ring

theorem length_nonneg' (a : Quat ℝ) : 0 ≤ a.length := Real.sqrt_nonneg _

theorem length_sq (a : Quat ℝ) : a.length ^ 2 = a.length2 := Real.sq_sqrt (length2_nonneg' a)

theorem apart_nonneg (a b : Quat ℝ) : 0 ≤ a.apart b := Real.sqrt_nonneg _

theorem length_mul (a b : Quat ℝ) : (a.mul b).length = a.length * b.length := by
  unfold length
  rw [length2_mul, Real.sqrt_mul (length2_nonneg' a)]

theorem length_inverse (a : Quat ℝ) : a.inverse.length = a.length := by
  unfold length; rw [length2_inverse]

/-- Cauchy and Schwarz, with absolute values. -/
theorem cs (a b : Quat ℝ) : |a.x * b.x| + |a.y * b.y| + |a.z * b.z| + |a.w * b.w| ≤ a.length * b.length := by
  have h : 0 ≤ a.length * b.length := mul_nonneg (length_nonneg' a) (length_nonneg' b)
  refine le_trans (le_abs_self _) (abs_le_of_sq_le_sq ?_ h)
  rw [mul_pow, length_sq, length_sq]
  simp only [abs_mul, length2, dot]
  rw [← abs_mul_abs_self a.x, ← abs_mul_abs_self a.y, ← abs_mul_abs_self a.z, ← abs_mul_abs_self a.w,
    ← abs_mul_abs_self b.x, ← abs_mul_abs_self b.y, ← abs_mul_abs_self b.z, ← abs_mul_abs_self b.w]
  generalize |a.x| = ax; generalize |a.y| = ay; generalize |a.z| = az; generalize |a.w| = aw
  generalize |b.x| = bx; generalize |b.y| = b_y; generalize |b.z| = bz; generalize |b.w| = bw
  nlinarith [sq_nonneg (ax * b_y - ay * bx), sq_nonneg (ax * bz - az * bx), sq_nonneg (ax * bw - aw * bx),
      sq_nonneg (ay * bz - az * b_y), sq_nonneg (ay * bw - aw * b_y), sq_nonneg (az * bw - aw * bz)]

theorem length_add_le (a b : Quat ℝ) : (⟨a.x + b.x, a.y + b.y, a.z + b.z, a.w + b.w⟩ : Quat ℝ).length ≤ a.length + b.length := by
  have h1 := length_nonneg' a
  have h2 := length_nonneg' b
  have hc := cs a b
  refine Real.sqrt_le_iff.2 ⟨by positivity, ?_⟩
  have e1 := length_sq a
  have e2 := length_sq b
  have k1 := le_abs_self (a.x * b.x)
  have k2 := le_abs_self (a.y * b.y)
  have k3 := le_abs_self (a.z * b.z)
  have k4 := le_abs_self (a.w * b.w)
  simp only [length2, dot] at *
  nlinarith

theorem apart_triangle (a b c : Quat ℝ) : a.apart c ≤ a.apart b + b.apart c := by
  rw [apart_eq, apart_eq, apart_eq]
  have := length_add_le (a.minus b) (b.minus c)
  refine le_trans (le_of_eq ?_) this
  simp only [minus]; congr 1; ext <;> simp

theorem apart_comm (a b : Quat ℝ) : a.apart b = b.apart a := by
  unfold apart; congr 1; ring

theorem apart_self (a : Quat ℝ) : a.apart a = 0 := by unfold apart; simp

theorem length_le_apart (a b : Quat ℝ) : a.length ≤ b.length + a.apart b := by
  rw [apart_eq]
  have := length_add_le b (a.minus b)
  refine le_trans (le_of_eq ?_) this
  simp only [minus]; congr 1; ext <;> simp

theorem apart_mul_left (a b c : Quat ℝ) : (a.mul b).apart (a.mul c) = a.length * b.apart c := by
  rw [apart_eq, apart_eq, ← length_mul]
  congr 1
  ext <;> simp only [minus, mul] <;> ring

theorem apart_mul_right (a b c : Quat ℝ) : (b.mul a).apart (c.mul a) = b.apart c * a.length := by
  rw [apart_eq, apart_eq, ← length_mul]
  congr 1
  ext <;> simp only [minus, mul] <;> ring

theorem apart_mul (a b a' b' : Quat ℝ) : (a.mul b).apart (a'.mul b') ≤ a.apart a' * b.length + a'.length * b.apart b' := by
  rw [← apart_mul_right, ← apart_mul_left]
  exact apart_triangle _ _ _

theorem apart_inverse (a b : Quat ℝ) : a.inverse.apart b.inverse = a.apart b := by
  unfold apart inverse; congr 1; ring

theorem apart_le {a b : Quat ℝ} {m : ℝ} (hx : |a.x - b.x| ≤ m) (hy : |a.y - b.y| ≤ m) (hz : |a.z - b.z| ≤ m)
    (hw : |a.w - b.w| ≤ m) : a.apart b ≤ 2 * m := by
  have h0 : 0 ≤ m := (abs_nonneg _).trans hx
  refine Real.sqrt_le_iff.2 ⟨by positivity, ?_⟩
  have s : ∀ {r : ℝ}, |r| ≤ m → r ^ 2 ≤ m ^ 2 := fun h => sq_le_sq.2 (by rwa [abs_of_nonneg h0])
  have := s hx; have := s hy; have := s hz; have := s hw
  linarith

/-- a vector as a quaternion without real part -/
def pure (v : Vec3 ℝ) : Quat ℝ := ⟨v.x, v.y, v.z, 0⟩

theorem length_pure (v : Vec3 ℝ) : (pure v).length = v.length := by
  unfold pure length length2 dot Vec3.length Vec3.length2 Vec3.dot; simp

theorem apart_pure (v w : Vec3 ℝ) : (pure v).apart (pure w) = v.apart w := by
  unfold pure apart Vec3.apart; simp

theorem pure_rotate (q : Quat ℝ) (v : Vec3 ℝ) : pure (q.rotate v) = (q.mul (pure v)).mul q.inverse := by
  ext <;> simp only [pure, rotate, mulVec, mul, inverse] <;> ring

theorem mulVec_eq (q : Quat ℝ) (v : Vec3 ℝ) : q.mulVec v = q.mul (pure v) := by
  ext <;> simp only [pure, mulVec, mul] <;> ring

end Quat

namespace Vec3

theorem apart_nonneg (a b : Vec3 ℝ) : 0 ≤ a.apart b := Real.sqrt_nonneg _

theorem apart_triangle (a b c : Vec3 ℝ) : a.apart c ≤ a.apart b + b.apart c := by
  simp only [← Quat.apart_pure]; exact Quat.apart_triangle _ _ _

theorem apart_self (a : Vec3 ℝ) : a.apart a = 0 := by unfold apart; simp

theorem length_le_apart (a b : Vec3 ℝ) : a.length ≤ b.length + a.apart b := by
  simp only [← Quat.apart_pure, ← Quat.length_pure]; exact Quat.length_le_apart _ _

theorem apart_neg (a b : Vec3 ℝ) : a.neg.apart b.neg = a.apart b := by
  unfold apart neg; congr 1; ring

theorem apart_add (a b a' b' : Vec3 ℝ) : (a.add b).apart (a'.add b') ≤ a.apart a' + b.apart b' := by
  refine (apart_triangle _ (a'.add b) _).trans ?_
  have e1 : (a.add b).apart (a'.add b) = a.apart a' := by unfold apart add; simp
  have e2 : (a'.add b).apart (a'.add b') = b.apart b' := by unfold apart add; simp
  rw [e1, e2]

theorem apart_le {a b : Vec3 ℝ} {m : ℝ} (hx : |a.x - b.x| ≤ m) (hy : |a.y - b.y| ≤ m) (hz : |a.z - b.z| ≤ m) :
    a.apart b ≤ 2 * m := by
  rw [← Quat.apart_pure]
  exact Quat.apart_le hx hy hz (by simp [Quat.pure]; exact (abs_nonneg _).trans hx)

theorem apart_rotate (q q' : Quat ℝ) (v v' : Vec3 ℝ) : (q.rotate v).apart (q'.rotate v') ≤
    q.length ^ 2 * v.apart v' + (q.length + q'.length) * q.apart q' * v'.length := by
  have e1 : (q.rotate v).apart (q.rotate v') = q.length ^ 2 * v.apart v' := by
    rw [← Quat.apart_pure, Quat.pure_rotate, Quat.pure_rotate, Quat.apart_mul_right, Quat.apart_mul_left, Quat.apart_pure,
      Quat.length_inverse]; ring
  have e2 : (q.rotate v').apart (q'.rotate v') ≤ (q.length + q'.length) * q.apart q' * v'.length := by
    rw [← Quat.apart_pure, Quat.pure_rotate, Quat.pure_rotate]
    refine (Quat.apart_mul _ _ _ _).trans (le_of_eq ?_)
    rw [Quat.apart_mul_right, Quat.length_inverse, Quat.length_mul, Quat.apart_inverse, Quat.length_pure]; ring
  calc _ ≤ _ := apart_triangle _ (q.rotate v') _
    _ ≤ _ := add_le_add e1.le e2

end Vec3

namespace Rounding

variable {F : Rounding}

theorem sum4_err (hu : F.u ≤ 1 / 1000) {p1 p2 p3 p4 a1 a2 a3 a4 : ℝ} (h1 : |p1 - a1| ≤ F.u * |a1| + F.η)
    (h2 : |p2 - a2| ≤ F.u * |a2| + F.η) (h3 : |p3 - a3| ≤ F.u * |a3| + F.η) (h4 : |p4 - a4| ≤ F.u * |a4| + F.η)
    (hΩ : 2 * (|a1| + |a2| + |a3| + |a4|) + 10 * F.η ≤ F.Ω) :
    |F.sum4 p1 p2 p3 p4 - (a1 + a2 + a3 + a4)| ≤ 5 * F.u * (|a1| + |a2| + |a3| + |a4|) + 8 * F.η := by
  have u0 := F.u_nonneg
  have e0 := F.η_nonneg
  have n1 := abs_nonneg a1
  have n2 := abs_nonneg a2
  have n3 := abs_nonneg a3
  have n4 := abs_nonneg a4
  set S := |a1| + |a2| + |a3| + |a4| with hS
  have b : ∀ {p a : ℝ}, |p - a| ≤ F.u * |a| + F.η → |p| ≤ |a| + F.u * |a| + F.η := by
    intro p a h
    have := abs_add_le (p - a) a
    rw [sub_add_cancel] at this
    linarith
  have q1 := b h1
  have q2 := b h2
  have q3 := b h3
  have q4 := b h4
  have um : ∀ {r s : ℝ}, r ≤ s → F.u * r ≤ F.u * s := fun h => mul_le_mul_of_nonneg_left h u0
  have us : ∀ {s : ℝ}, 0 ≤ s → F.u * s ≤ 1 / 1000 * s := fun h => mul_le_mul_of_nonneg_right hu h
  have uS := us (by positivity : 0 ≤ S)
  have uE := us e0
  have eS : F.u * S = F.u * |a1| + F.u * |a2| + F.u * |a3| + F.u * |a4| := by rw [hS]; ring
  have m1 := mul_nonneg u0 n1
  have m2 := mul_nonneg u0 n2
  have m3 := mul_nonneg u0 n3
  have m4 := mul_nonneg u0 n4
  -- first sum
  have s2 : |p1 + p2| ≤ S + F.u * S + 2 * F.η := by
    have := abs_add_le p1 p2; linarith
  have r2 := F.err (p1 + p2) (by linarith)
  have t2 : |F.rnd (p1 + p2)| ≤ |p1 + p2| + (F.u * |p1 + p2| + F.η) := by
    have := abs_add_le (F.rnd (p1 + p2) - (p1 + p2)) (p1 + p2)
    rw [sub_add_cancel] at this; linarith
  have k2 := um s2
  have uuS : F.u * (F.u * S) ≤ 1 / 1000 * (F.u * S) := us (mul_nonneg u0 (by positivity))
  have v2 : F.u * |p1 + p2| ≤ 1001 / 1000 * (F.u * S) + 2 / 1000 * F.η := by
    have : F.u * (S + F.u * S + 2 * F.η) = F.u * S + F.u * (F.u * S) + 2 * (F.u * F.η) := by ring
    linarith
  -- second sum
  have w3 : |F.rnd (p1 + p2) + p3| ≤ S + F.u * S + 3 * F.η + 1001 / 1000 * (F.u * S) + 2 / 1000 * F.η + F.η := by
    have := abs_add_le (F.rnd (p1 + p2)) p3
    have := abs_add_le p1 p2
    linarith
  have r3 := F.err (F.rnd (p1 + p2) + p3) (by linarith)
  have k3 := um w3
  have v3 : F.u * |F.rnd (p1 + p2) + p3| ≤ 101 / 100 * (F.u * S) + 1 / 100 * F.η := by
    have : F.u * (S + F.u * S + 3 * F.η + 1001 / 1000 * (F.u * S) + 2 / 1000 * F.η + F.η) =
      F.u * S + 2001 / 1000 * (F.u * (F.u * S)) + 4002 / 1000 * (F.u * F.η) := by ring
    linarith
  have t3 : |F.rnd (F.rnd (p1 + p2) + p3)| ≤ |F.rnd (p1 + p2) + p3| + (F.u * |F.rnd (p1 + p2) + p3| + F.η) := by
    have := abs_add_le (F.rnd (F.rnd (p1 + p2) + p3) - (F.rnd (p1 + p2) + p3)) (F.rnd (p1 + p2) + p3)
    rw [sub_add_cancel] at this; linarith
  -- third sum
  have w4 : |F.rnd (F.rnd (p1 + p2) + p3) + p4| ≤ S + 4 * (F.u * S) + 7 * F.η := by
    have := abs_add_le (F.rnd (F.rnd (p1 + p2) + p3)) p4
    have := abs_add_le (F.rnd (p1 + p2)) p3
    have := abs_add_le p1 p2
    linarith
  have r4 := F.err (F.rnd (F.rnd (p1 + p2) + p3) + p4) (by linarith)
  have k4 := um w4
  have v4 : F.u * |F.rnd (F.rnd (p1 + p2) + p3) + p4| ≤ 101 / 100 * (F.u * S) + 1 / 100 * F.η := by
    have : F.u * (S + 4 * (F.u * S) + 7 * F.η) = F.u * S + 4 * (F.u * (F.u * S)) + 7 * (F.u * F.η) := by ring
    linarith
  unfold sum4
  rw [abs_le] at *
  constructor <;> linarith [h1.1, h1.2, h2.1, h2.2, h3.1, h3.2, h4.1, h4.2, r2.1, r2.2, r3.1, r3.2, r4.1, r4.2]

theorem sum3_err (hu : F.u ≤ 1 / 1000) {p1 p2 p3 a1 a2 a3 : ℝ} (h1 : |p1 - a1| ≤ F.u * |a1| + F.η)
    (h2 : |p2 - a2| ≤ F.u * |a2| + F.η) (h3 : |p3 - a3| ≤ F.u * |a3| + F.η)
    (hΩ : 2 * (|a1| + |a2| + |a3|) + 10 * F.η ≤ F.Ω) :
    |F.rnd (F.rnd (p1 + p2) + p3) - (a1 + a2 + a3)| ≤ 5 * F.u * (|a1| + |a2| + |a3|) + 8 * F.η := by
  have u0 := F.u_nonneg
  have e0 := F.η_nonneg
  have n1 := abs_nonneg a1
  have n2 := abs_nonneg a2
  have n3 := abs_nonneg a3
  set S := |a1| + |a2| + |a3| with hS
  have b : ∀ {p a : ℝ}, |p - a| ≤ F.u * |a| + F.η → |p| ≤ |a| + F.u * |a| + F.η := by
    intro p a h
    have := abs_add_le (p - a) a
    rw [sub_add_cancel] at this
    linarith
  have q1 := b h1
  have q2 := b h2
  have q3 := b h3
  have um : ∀ {r s : ℝ}, r ≤ s → F.u * r ≤ F.u * s := fun h => mul_le_mul_of_nonneg_left h u0
  have us : ∀ {s : ℝ}, 0 ≤ s → F.u * s ≤ 1 / 1000 * s := fun h => mul_le_mul_of_nonneg_right hu h
  have uS := us (by positivity : 0 ≤ S)
  have uE := us e0
  have eS : F.u * S = F.u * |a1| + F.u * |a2| + F.u * |a3| := by rw [hS]; ring
  have m1 := mul_nonneg u0 n1
  have m2 := mul_nonneg u0 n2
  have m3 := mul_nonneg u0 n3
  have s2 : |p1 + p2| ≤ S + F.u * S + 2 * F.η := by
    have := abs_add_le p1 p2; linarith
  have r2 := F.err (p1 + p2) (by linarith)
  have t2 : |F.rnd (p1 + p2)| ≤ |p1 + p2| + (F.u * |p1 + p2| + F.η) := by
    have := abs_add_le (F.rnd (p1 + p2) - (p1 + p2)) (p1 + p2)
    rw [sub_add_cancel] at this; linarith
  have k2 := um s2
  have uuS : F.u * (F.u * S) ≤ 1 / 1000 * (F.u * S) := us (mul_nonneg u0 (by positivity))
  have v2 : F.u * |p1 + p2| ≤ 1001 / 1000 * (F.u * S) + 2 / 1000 * F.η := by
    have : F.u * (S + F.u * S + 2 * F.η) = F.u * S + F.u * (F.u * S) + 2 * (F.u * F.η) := by ring
    linarith
  have w3 : |F.rnd (p1 + p2) + p3| ≤ S + F.u * S + 3 * F.η + 1001 / 1000 * (F.u * S) + 2 / 1000 * F.η + F.η := by
    have := abs_add_le (F.rnd (p1 + p2)) p3
    have := abs_add_le p1 p2
    linarith
  have r3 := F.err (F.rnd (p1 + p2) + p3) (by linarith)
  have k3 := um w3
  have v3 : F.u * |F.rnd (p1 + p2) + p3| ≤ 101 / 100 * (F.u * S) + 1 / 100 * F.η := by
    have : F.u * (S + F.u * S + 3 * F.η + 1001 / 1000 * (F.u * S) + 2 / 1000 * F.η + F.η) =
      F.u * S + 2001 / 1000 * (F.u * (F.u * S)) + 4002 / 1000 * (F.u * F.η) := by ring
    linarith
  have uS0 : 0 ≤ F.u * S := mul_nonneg u0 (by positivity)
  rw [abs_le] at *
  constructor <;> linarith [h1.1, h1.2, h2.1, h2.2, h3.1, h3.2, r2.1, r2.2, r3.1, r3.2]

theorem neg_err {p a c : ℝ} (h : |p - a| ≤ c) : |-p - -a| ≤ c := by
  rw [← abs_neg] at h
  rw [show -p - -a = -(p - a) by ring]; exact h

theorem prod_err {a b : ℝ} {A : ℝ} (h : |a * b| ≤ A) (hΩ : 2 * A + 10 * F.η ≤ F.Ω) :
    |F.rnd (a * b) - a * b| ≤ F.u * |a * b| + F.η :=
  F.err _ (by have := F.η_nonneg; have := abs_nonneg (a * b); linarith)

/-- Four rounded products, summed with rounding. -/
theorem dot4_err (hu : F.u ≤ 1 / 1000) (a b : Quat ℝ) {p1 p2 p3 p4 a1 a2 a3 a4 A : ℝ}
    (h1 : |p1 - a1| ≤ F.u * |a1| + F.η) (h2 : |p2 - a2| ≤ F.u * |a2| + F.η)
    (h3 : |p3 - a3| ≤ F.u * |a3| + F.η) (h4 : |p4 - a4| ≤ F.u * |a4| + F.η)
    (hA : |a1| + |a2| + |a3| + |a4| ≤ A) (hΩ : 2 * A + 10 * F.η ≤ F.Ω) :
    |F.sum4 p1 p2 p3 p4 - (a1 + a2 + a3 + a4)| ≤ 5 * F.u * A + 8 * F.η := by
  refine (sum4_err hu h1 h2 h3 h4 (by linarith)).trans ?_
  have := mul_le_mul_of_nonneg_left hA (by have := F.u_nonneg; positivity : 0 ≤ 5 * F.u)
  linarith

theorem dot3_err (hu : F.u ≤ 1 / 1000) {p1 p2 p3 a1 a2 a3 A : ℝ}
    (h1 : |p1 - a1| ≤ F.u * |a1| + F.η) (h2 : |p2 - a2| ≤ F.u * |a2| + F.η)
    (h3 : |p3 - a3| ≤ F.u * |a3| + F.η)
    (hA : |a1| + |a2| + |a3| ≤ A) (hΩ : 2 * A + 10 * F.η ≤ F.Ω) :
    |F.rnd (F.rnd (p1 + p2) + p3) - (a1 + a2 + a3)| ≤ 5 * F.u * A + 8 * F.η := by
  refine (sum3_err hu h1 h2 h3 (by linarith)).trans ?_
  have := mul_le_mul_of_nonneg_left hA (by have := F.u_nonneg; positivity : 0 ≤ 5 * F.u)
  linarith

theorem mul_err (hu : F.u ≤ 1 / 1000) (a b : Quat ℝ) (hΩ : 2 * (a.length * b.length) + 10 * F.η ≤ F.Ω) :
    (F.mul a b).apart (a.mul b) ≤ 10 * F.u * (a.length * b.length) + 16 * F.η := by
  have sw : ∀ c : Quat ℝ, c.length = b.length →
      |a.x * c.x| + |a.y * c.y| + |a.z * c.z| + |a.w * c.w| ≤ a.length * b.length := by
    intro c hc; rw [← hc]; exact Quat.cs a c
  have lx := sw ⟨b.w, b.z, b.y, b.x⟩ (by unfold Quat.length Quat.length2 Quat.dot; congr 1; ring)
  have ly := sw ⟨b.z, b.w, b.x, b.y⟩ (by unfold Quat.length Quat.length2 Quat.dot; congr 1; ring)
  have lz := sw ⟨b.y, b.x, b.w, b.z⟩ (by unfold Quat.length Quat.length2 Quat.dot; congr 1; ring)
  have lw := sw b rfl
  simp only at lx ly lz lw
  have P : ∀ {r s : ℝ}, |r * s| ≤ a.length * b.length → |F.rnd (r * s) - r * s| ≤ F.u * |r * s| + F.η :=
    fun h => prod_err h hΩ
  have N : ∀ {r s : ℝ}, |r * s| ≤ a.length * b.length → |-F.rnd (r * s) - -(r * s)| ≤ F.u * |-(r * s)| + F.η :=
    fun h => by rw [abs_neg (_ * _)]; exact neg_err (P h)
  have nn := fun r s : ℝ => abs_nonneg (r * s)
  have e : 10 * F.u * (a.length * b.length) + 16 * F.η = 2 * (5 * F.u * (a.length * b.length) + 8 * F.η) := by ring
  rw [e]
  have cx : |(F.mul a b).x - (a.mul b).x| ≤ 5 * F.u * (a.length * b.length) + 8 * F.η := by
    have := dot4_err hu a b (P (r := a.w) (s := b.x) (by linarith [nn a.x b.w, nn a.y b.z, nn a.z b.y]))
      (P (r := a.x) (s := b.w) (by linarith [nn a.w b.x, nn a.y b.z, nn a.z b.y]))
      (P (r := a.y) (s := b.z) (by linarith [nn a.w b.x, nn a.x b.w, nn a.z b.y]))
      (N (r := a.z) (s := b.y) (by linarith [nn a.w b.x, nn a.x b.w, nn a.y b.z])) (by rw [abs_neg]; linarith) hΩ
    rw [show (a.mul b).x = a.w * b.x + a.x * b.w + a.y * b.z + -(a.z * b.y) by simp only [Quat.mul]; ring]
    exact this
  have cy : |(F.mul a b).y - (a.mul b).y| ≤ 5 * F.u * (a.length * b.length) + 8 * F.η := by
    have := dot4_err hu a b (P (r := a.w) (s := b.y) (by linarith [nn a.y b.w, nn a.z b.x, nn a.x b.z]))
      (P (r := a.y) (s := b.w) (by linarith [nn a.w b.y, nn a.z b.x, nn a.x b.z]))
      (P (r := a.z) (s := b.x) (by linarith [nn a.w b.y, nn a.y b.w, nn a.x b.z]))
      (N (r := a.x) (s := b.z) (by linarith [nn a.w b.y, nn a.y b.w, nn a.z b.x])) (by rw [abs_neg]; linarith) hΩ
    rw [show (a.mul b).y = a.w * b.y + a.y * b.w + a.z * b.x + -(a.x * b.z) by simp only [Quat.mul]; ring]
    exact this
  have cz : |(F.mul a b).z - (a.mul b).z| ≤ 5 * F.u * (a.length * b.length) + 8 * F.η := by
    have := dot4_err hu a b (P (r := a.w) (s := b.z) (by linarith [nn a.z b.w, nn a.x b.y, nn a.y b.x]))
      (P (r := a.z) (s := b.w) (by linarith [nn a.w b.z, nn a.x b.y, nn a.y b.x]))
      (P (r := a.x) (s := b.y) (by linarith [nn a.w b.z, nn a.z b.w, nn a.y b.x]))
      (N (r := a.y) (s := b.x) (by linarith [nn a.w b.z, nn a.z b.w, nn a.x b.y])) (by rw [abs_neg]; linarith) hΩ
    rw [show (a.mul b).z = a.w * b.z + a.z * b.w + a.x * b.y + -(a.y * b.x) by simp only [Quat.mul]; ring]
    exact this
  have cw : |(F.mul a b).w - (a.mul b).w| ≤ 5 * F.u * (a.length * b.length) + 8 * F.η := by
    have := dot4_err hu a b (P (r := a.w) (s := b.w) (by linarith [nn a.x b.x, nn a.y b.y, nn a.z b.z]))
      (N (r := a.x) (s := b.x) (by linarith [nn a.w b.w, nn a.y b.y, nn a.z b.z]))
      (N (r := a.y) (s := b.y) (by linarith [nn a.w b.w, nn a.x b.x, nn a.z b.z]))
      (N (r := a.z) (s := b.z) (by linarith [nn a.w b.w, nn a.x b.x, nn a.y b.y]))
      (by rw [abs_neg, abs_neg, abs_neg]; linarith) hΩ
    rw [show (a.mul b).w = a.w * b.w + -(a.x * b.x) + -(a.y * b.y) + -(a.z * b.z) by simp only [Quat.mul]; ring]
    exact this
  exact Quat.apart_le cx cy cz cw

theorem mulVec_err (hu : F.u ≤ 1 / 1000) (a : Quat ℝ) (v : Vec3 ℝ) (hΩ : 2 * (a.length * v.length) + 10 * F.η ≤ F.Ω) :
    (F.mulVec a v).apart (a.mulVec v) ≤ 10 * F.u * (a.length * v.length) + 16 * F.η := by
  have sw : ∀ c : Quat ℝ, c.length = v.length →
      |a.x * c.x| + |a.y * c.y| + |a.z * c.z| + |a.w * c.w| ≤ a.length * v.length := by
    intro c hc; rw [← hc]; exact Quat.cs a c
  have hl : ∀ x y z w : ℝ, x * x + y * y + z * z + w * w = v.x * v.x + v.y * v.y + v.z * v.z →
      (⟨x, y, z, w⟩ : Quat ℝ).length = v.length := by
    intro x y z w h
    unfold Quat.length Quat.length2 Quat.dot Vec3.length Vec3.length2 Vec3.dot; rw [← h]
  have lx := sw ⟨0, v.z, v.y, v.x⟩ (hl _ _ _ _ (by ring))
  have ly := sw ⟨v.z, 0, v.x, v.y⟩ (hl _ _ _ _ (by ring))
  have lz := sw ⟨v.y, v.x, 0, v.z⟩ (hl _ _ _ _ (by ring))
  have lw := sw ⟨v.x, v.y, v.z, 0⟩ (hl _ _ _ _ (by ring))
  simp only [mul_zero, abs_zero] at lx ly lz lw
  have P : ∀ {r s : ℝ}, |r * s| ≤ a.length * v.length → |F.rnd (r * s) - r * s| ≤ F.u * |r * s| + F.η :=
    fun h => prod_err h hΩ
  have N : ∀ {r s : ℝ}, |r * s| ≤ a.length * v.length → |-F.rnd (r * s) - -(r * s)| ≤ F.u * |-(r * s)| + F.η :=
    fun h => by rw [abs_neg (_ * _)]; exact neg_err (P h)
  have nn := fun r s : ℝ => abs_nonneg (r * s)
  have e : 10 * F.u * (a.length * v.length) + 16 * F.η = 2 * (5 * F.u * (a.length * v.length) + 8 * F.η) := by ring
  rw [e]
  have cx : |(F.mulVec a v).x - (a.mulVec v).x| ≤ 5 * F.u * (a.length * v.length) + 8 * F.η := by
    have := dot3_err hu (P (r := a.w) (s := v.x) (by linarith [nn a.y v.z, nn a.z v.y]))
      (P (r := a.y) (s := v.z) (by linarith [nn a.w v.x, nn a.z v.y]))
      (N (r := a.z) (s := v.y) (by linarith [nn a.w v.x, nn a.y v.z])) (by rw [abs_neg]; linarith) hΩ
    rw [show (a.mulVec v).x = a.w * v.x + a.y * v.z + -(a.z * v.y) by simp only [Quat.mulVec]; ring]
    simp only [← sub_eq_add_neg] at this
    exact this
  have cy : |(F.mulVec a v).y - (a.mulVec v).y| ≤ 5 * F.u * (a.length * v.length) + 8 * F.η := by
    have := dot3_err hu (P (r := a.w) (s := v.y) (by linarith [nn a.z v.x, nn a.x v.z]))
      (P (r := a.z) (s := v.x) (by linarith [nn a.w v.y, nn a.x v.z]))
      (N (r := a.x) (s := v.z) (by linarith [nn a.w v.y, nn a.z v.x])) (by rw [abs_neg]; linarith) hΩ
    rw [show (a.mulVec v).y = a.w * v.y + a.z * v.x + -(a.x * v.z) by simp only [Quat.mulVec]; ring]
    simp only [← sub_eq_add_neg] at this
    exact this
  have cz : |(F.mulVec a v).z - (a.mulVec v).z| ≤ 5 * F.u * (a.length * v.length) + 8 * F.η := by
    have := dot3_err hu (P (r := a.w) (s := v.z) (by linarith [nn a.x v.y, nn a.y v.x]))
      (P (r := a.x) (s := v.y) (by linarith [nn a.w v.z, nn a.y v.x]))
      (N (r := a.y) (s := v.x) (by linarith [nn a.w v.z, nn a.x v.y])) (by rw [abs_neg]; linarith) hΩ
    rw [show (a.mulVec v).z = a.w * v.z + a.x * v.y + -(a.y * v.x) by simp only [Quat.mulVec]; ring]
    simp only [← sub_eq_add_neg] at this
    exact this
  have cw : |(F.mulVec a v).w - (a.mulVec v).w| ≤ 5 * F.u * (a.length * v.length) + 8 * F.η := by
    have hneg : |-a.x * v.x| = |a.x * v.x| := by rw [neg_mul, abs_neg]
    have := dot3_err hu (P (r := -a.x) (s := v.x) (by rw [hneg]; linarith [nn a.y v.y, nn a.z v.z]))
      (N (r := a.y) (s := v.y) (by linarith [nn a.x v.x, nn a.z v.z]))
      (N (r := a.z) (s := v.z) (by linarith [nn a.x v.x, nn a.y v.y])) (by rw [abs_neg, abs_neg, hneg]; linarith) hΩ
    rw [show (a.mulVec v).w = -a.x * v.x + -(a.y * v.y) + -(a.z * v.z) by simp only [Quat.mulVec]; ring]
    simp only [← sub_eq_add_neg] at this
    exact this
  exact Quat.apart_le cx cy cz cw

theorem addVec_err (a b : Vec3 ℝ) (hΩ : (a.add b).length ≤ F.Ω) :
    (F.addVec a b).apart (a.add b) ≤ 2 * F.u * (a.add b).length + 2 * F.η := by
  have comp : ∀ r : ℝ, r ^ 2 ≤ (a.add b).length2 → |F.rnd r - r| ≤ F.u * (a.add b).length + F.η := by
    intro r hr
    have h : |r| ≤ (a.add b).length := Real.abs_le_sqrt hr
    have := mul_le_mul_of_nonneg_left h F.u_nonneg
    have := F.err r (h.trans hΩ)
    linarith
  have e : 2 * F.u * (a.add b).length + 2 * F.η = 2 * (F.u * (a.add b).length + F.η) := by ring
  rw [e]
  refine Vec3.apart_le (comp _ ?_) (comp _ ?_) (comp _ ?_) <;> simp only [Vec3.length2, Vec3.dot, Vec3.add] <;>
    nlinarith [mul_self_nonneg (a.x + b.x), mul_self_nonneg (a.y + b.y), mul_self_nonneg (a.z + b.z)]

theorem rotate_err (hu : F.u ≤ 1 / 1000000) (hη : F.η ≤ 1) (q : Quat ℝ) (hq : q.length ≤ 101 / 100) (v : Vec3 ℝ)
    (hΩ : 3 * v.length + 100 ≤ F.Ω) :
    (F.rotate q v).apart (q.rotate v) ≤ 21 * F.u * v.length + 33 * F.η := by
  have u0 := F.u_nonneg
  have e0 := F.η_nonneg
  have q0 := q.length_nonneg'
  have v0 := v.length_nonneg'
  have hqv : q.length * v.length ≤ 101 / 100 * v.length := mul_le_mul_of_nonneg_right hq v0
  have h1 := mulVec_err (F := F) (by linarith) q v (by linarith)
  rw [Quat.mulVec_eq] at h1
  have hl : (F.mulVec q v).length ≤ 102 / 100 * v.length + 16 * F.η := by
    have h := Quat.length_le_apart (F.mulVec q v) (q.mul (Quat.pure v))
    rw [Quat.length_mul, Quat.length_pure] at h
    have : 10 * F.u * (q.length * v.length) ≤ 10 * (1 / 1000000) * (101 / 100 * v.length) :=
      mul_le_mul (by linarith) hqv (by positivity) (by norm_num)
    linarith
  have l0 := (F.mulVec q v).length_nonneg'
  have hlq : (F.mulVec q v).length * q.length ≤ 1031 / 1000 * v.length + 17 * F.η := by
    have := mul_le_mul hl hq q0 (by linarith)
    linarith
  have hlqn : 0 ≤ (F.mulVec q v).length * q.length := mul_nonneg l0 q0
  have h2 := mul_err (F := F) (by linarith) (F.mulVec q v) q.inverse (by rw [Quat.length_inverse]; linarith)
  rw [Quat.length_inverse] at h2
  have h3 : ((F.mulVec q v).mul q.inverse).apart ((q.mul (Quat.pure v)).mul q.inverse) ≤
      (10 * F.u * (q.length * v.length) + 16 * F.η) * (101 / 100) := by
    rw [Quat.apart_mul_right, Quat.length_inverse]
    exact mul_le_mul h1 hq q0 (by positivity)
  have h4 : (F.rotate q v).apart (q.rotate v) ≤ (F.mul (F.mulVec q v) q.inverse).apart ((q.mul (Quat.pure v)).mul q.inverse) := by
    rw [← Quat.pure_rotate]
    unfold Vec3.apart Quat.apart rotate Quat.pure
    refine Real.sqrt_le_sqrt ?_
    simp only
    nlinarith [sq_nonneg ((F.mul (F.mulVec q v) q.inverse).w - 0)]
  have h5 := Quat.apart_triangle (F.mul (F.mulVec q v) q.inverse) ((F.mulVec q v).mul q.inverse) ((q.mul (Quat.pure v)).mul q.inverse)
  have k1 : 10 * F.u * (q.length * v.length) ≤ 10 * F.u * (101 / 100 * v.length) :=
    mul_le_mul_of_nonneg_left hqv (by positivity)
  have k2 : 10 * F.u * ((F.mulVec q v).length * q.length) ≤ 10 * F.u * (1031 / 1000 * v.length + 17 * F.η) :=
    mul_le_mul_of_nonneg_left hlq (by positivity)
  have k3 : F.u * F.η ≤ 1 / 1000000 * F.η := mul_le_mul_of_nonneg_right hu e0
  have k4 : 0 ≤ F.u * v.length := mul_nonneg u0 v0
  linarith


/-! ### One step -/

theorem comp_rot (hu : F.u ≤ 1 / 1000) (e x e' x' : Pose) (hΩ : 2 * (e.rot.length * x.rot.length) + 10 * F.η ≤ F.Ω) :
    (F.comp e x).rot.apart (Pose.comp e' x').rot ≤ 10 * F.u * (e.rot.length * x.rot.length) + 16 * F.η +
      e.rot.apart e'.rot * x.rot.length + e'.rot.length * x.rot.apart x'.rot := by
  have h1 := mul_err hu e.rot x.rot hΩ
  have h2 := Quat.apart_mul e.rot x.rot e'.rot x'.rot
  have h3 := Quat.apart_triangle (F.mul e.rot x.rot) (e.rot.mul x.rot) (e'.rot.mul x'.rot)
  have e1 : (F.comp e x).rot.apart (Pose.comp e' x').rot = (F.mul e.rot x.rot).apart (e'.rot.mul x'.rot) := rfl
  rw [e1]
  linarith

theorem comp_trans (hu : F.u ≤ 1 / 1000000) (hη : F.η ≤ 1) (e x e' x' : Pose) (he : e.rot.length ≤ 101 / 100)
    (hΩ : 3 * x.trans.length + e.trans.length + 100 ≤ F.Ω) :
    (F.comp e x).trans.apart (Pose.comp e' x').trans ≤ e.rot.length ^ 2 * x.trans.apart x'.trans +
      (e.rot.length + e'.rot.length) * e.rot.apart e'.rot * x'.trans.length + e.trans.apart e'.trans +
      24 * F.u * x.trans.length + 2 * F.u * e.trans.length + 36 * F.η := by
  have u0 := F.u_nonneg
  have e0 := F.η_nonneg
  have x0 := x.trans.length_nonneg'
  have t0 := e.trans.length_nonneg'
  have q0 := e.rot.length_nonneg'
  have h1 := rotate_err hu hη e.rot he x.trans (by linarith)
  have h2 := Vec3.length_le_apart (F.rotate e.rot x.trans) (e.rot.rotate x.trans)
  rw [Quat.length_rotate, ← Quat.length_sq] at h2
  have h3 : e.rot.length ^ 2 * x.trans.length ≤ (101 / 100) ^ 2 * x.trans.length :=
    mul_le_mul_of_nonneg_right (pow_le_pow_left₀ q0 he 2) x0
  have ux : F.u * x.trans.length ≤ 1 / 1000000 * x.trans.length := mul_le_mul_of_nonneg_right hu x0
  have ux0 : 0 ≤ F.u * x.trans.length := mul_nonneg u0 x0
  have h4 := Vec3.length_add_le (F.rotate e.rot x.trans) e.trans
  have hz : ((F.rotate e.rot x.trans).add e.trans).length ≤ 103 / 100 * x.trans.length + 33 * F.η + e.trans.length := by
    norm_num at h3
    linarith
  have h5 := addVec_err (F := F) (F.rotate e.rot x.trans) e.trans (by linarith)
  have h6 := mul_le_mul_of_nonneg_left hz (by linarith : 0 ≤ 2 * F.u)
  have uη : F.u * F.η ≤ 1 / 1000000 * F.η := mul_le_mul_of_nonneg_right hu e0
  have h7 := Vec3.apart_add (F.rotate e.rot x.trans) e.trans (e'.rot.rotate x'.trans) e'.trans
  have h8 := Vec3.apart_triangle (F.rotate e.rot x.trans) (e.rot.rotate x.trans) (e'.rot.rotate x'.trans)
  have h9 := Vec3.apart_rotate e.rot e'.rot x.trans x'.trans
  have h10 := Vec3.apart_triangle (F.addVec (F.rotate e.rot x.trans) e.trans) ((F.rotate e.rot x.trans).add e.trans)
    ((e'.rot.rotate x'.trans).add e'.trans)
  have e1 : (F.comp e x).trans.apart (Pose.comp e' x').trans =
    (F.addVec (F.rotate e.rot x.trans) e.trans).apart ((e'.rot.rotate x'.trans).add e'.trans) := rfl
  rw [e1]
  linarith

theorem inv_rot (y y' : Pose) : (F.inv y).rot.apart (Pose.inv y').rot = y.rot.apart y'.rot := Quat.apart_inverse _ _

theorem inv_trans (hu : F.u ≤ 1 / 1000000) (hη : F.η ≤ 1) (y y' : Pose) (he : y.rot.length ≤ 101 / 100)
    (hΩ : 3 * y.trans.length + 100 ≤ F.Ω) :
    (F.inv y).trans.apart (Pose.inv y').trans ≤ y.rot.length ^ 2 * y.trans.apart y'.trans +
      (y.rot.length + y'.rot.length) * y.rot.apart y'.rot * y'.trans.length + 21 * F.u * y.trans.length + 33 * F.η := by
  have h1 := rotate_err hu hη y.rot.inverse (by rw [Quat.length_inverse]; exact he) y.trans.neg (by rw [Vec3.length_neg]; exact hΩ)
  have h9 := Vec3.apart_rotate y.rot.inverse y'.rot.inverse y.trans.neg y'.trans.neg
  rw [Quat.length_inverse, Quat.length_inverse, Quat.apart_inverse, Vec3.length_neg, Vec3.apart_neg] at h9
  rw [Vec3.length_neg] at h1
  have h8 := Vec3.apart_triangle (F.rotate y.rot.inverse y.trans.neg) (y.rot.inverse.rotate y.trans.neg) (y'.rot.inverse.rotate y'.trans.neg)
  have e1 : (F.inv y).trans.apart (Pose.inv y').trans =
    (F.rotate y.rot.inverse y.trans.neg).apart (y'.rot.inverse.rotate y'.trans.neg) := rfl
  rw [e1]
  linarith

end Rounding

/-- An edge in both arithmetics. -/
structure EdgeNear (L dq dt : ℝ) (e e' : Pose) : Prop where
  len : |e'.rot.length2 - 1| ≤ 1 / 1000000
  tlen : e'.trans.length ≤ L
  rot : e.rot.apart e'.rot ≤ dq
  trans : e.trans.apart e'.trans ≤ dt

/-- Accumulated transforms of `n` edges in both arithmetics; `s` is a growth factor. -/
structure Near (F : Rounding) (L dq dt : ℝ) (n : ℕ) (x x' : Pose) : Prop where
  low : (1 - 1 / 1000000) ^ n ≤ x'.rot.length
  len : x'.rot.length ≤ (1 + 3 / 1000000) ^ n
  tlen : x'.trans.length ≤ n * (1 + 3 / 1000000) ^ n * L
  rot : x.rot.apart x'.rot ≤ 102 / 100 * n * (1 + 3 / 1000000) ^ n * (10 * F.u + dq + 16 * F.η)
  trans : x.trans.apart x'.trans ≤ (1 + 3 / 1000000) ^ n * (n ^ 2 * (13 * F.u + 11 / 10 * dq) * L + n * (102 / 100 * dt + 37 * F.η))

theorem Near.zero (F : Rounding) (L dq dt : ℝ) : Near F L dq dt 0 Pose.one Pose.one := by
  refine ⟨?_, ?_, ?_, ?_, ?_⟩
  · simp [Pose.one, Quat.identity, Quat.length, Quat.length2, Quat.dot]
  · simp [Pose.one, Quat.identity, Quat.length, Quat.length2, Quat.dot]
  · simp [Pose.one, Vec3.zero, Vec3.length, Vec3.length2, Vec3.dot]
  · simp [Quat.apart_self]
  · simp [Vec3.apart_self]

theorem growth {n : ℕ} (h : n ≤ 1001) : (1 + 3 / 1000000 : ℝ) ^ n ≤ 1004 / 1000 := by
  refine (pow_le_pow_right₀ (by norm_num) h).trans ?_
  have h1 : (1 + 3 / 1000000 : ℝ) ^ 7 ≤ 1 + 22 / 1000000 := by norm_num
  have h2 : (1 + 3 / 1000000 : ℝ) ^ (7 * 11) ≤ 1 + 243 / 1000000 := by
    rw [pow_mul]; refine (pow_le_pow_left₀ (by norm_num) h1 11).trans (by norm_num)
  have h3 : (1 + 3 / 1000000 : ℝ) ^ (7 * 11 * 13) ≤ 1004 / 1000 := by
    rw [pow_mul]; refine (pow_le_pow_left₀ (by norm_num) h2 13).trans (by norm_num)
  exact h3

/-- Numbers derived from `Near`. -/
theorem Near.bounds {F : Rounding} {L dq dt : ℝ} (T : Tame F L dq dt) {n : ℕ} (hn : n ≤ 1001) {x x' : Pose}
    (h : Near F L dq dt n x x') :
    x'.rot.length ≤ 1004 / 1000 ∧ x'.trans.length ≤ 1004 / 1000 * n * L ∧
    x.rot.apart x'.rot ≤ 103 / 100 * n * (10 * F.u + dq + 16 * F.η) ∧
    x.trans.apart x'.trans ≤ 1004 / 1000 * (n ^ 2 * (13 * F.u + 11 / 10 * dq) * L + n * (102 / 100 * dt + 37 * F.η)) ∧
    x.rot.length ≤ 1005 / 1000 ∧ x.trans.length ≤ 1100 * (L + 1) := by
  have g := growth hn
  have u0 := F.u_nonneg
  have e0 := F.η_nonneg
  have L0 := T.L0
  have dq0 := T.dq0
  have dt0 := T.dt0
  have n0 : (0 : ℝ) ≤ n := Nat.cast_nonneg n
  have n1 : (n : ℝ) ≤ 1001 := by exact_mod_cast hn
  have a1 : x'.trans.length ≤ 1004 / 1000 * n * L := by
    refine h.tlen.trans ?_
    have := mul_le_mul_of_nonneg_left g (mul_nonneg n0 L0)
    linarith
  have a2 : x.rot.apart x'.rot ≤ 103 / 100 * n * (10 * F.u + dq + 16 * F.η) := by
    refine h.rot.trans ?_
    have := mul_le_mul_of_nonneg_left g (mul_nonneg n0 (by positivity : 0 ≤ 10 * F.u + dq + 16 * F.η))
    have := mul_nonneg n0 (by positivity : 0 ≤ 10 * F.u + dq + 16 * F.η)
    linarith
  have a3 := h.trans.trans (mul_le_mul_of_nonneg_right g (by positivity))
  have hs : 10 * F.u + dq + 16 * F.η ≤ 527 / 10 ^ 9 := by
    have := T.u; have := T.η; have := T.dq1
    norm_num at *; linarith
  have a4 : x.rot.apart x'.rot ≤ 1 / 1000 := by
    refine a2.trans ?_
    have := mul_le_mul n1 hs (by positivity) (by norm_num : (0 : ℝ) ≤ 1001)
    norm_num at this ⊢; linarith
  have a5 : x.trans.apart x'.trans ≤ 50 * (L + 1) + 1040 := by
    refine a3.trans ?_
    have k : 13 * F.u + 11 / 10 * dq ≤ 564 / 10 ^ 9 := by
      have := T.u; have := T.dq1
      norm_num at *; linarith
    have n2 : (n : ℝ) ^ 2 ≤ 1001 ^ 2 := pow_le_pow_left₀ n0 n1 2
    have k1 := mul_le_mul_of_nonneg_right (mul_le_mul n2 k (by positivity) (by norm_num)) L0
    have k2 : 102 / 100 * dt + 37 * F.η ≤ 103 / 100 := by
      have := T.η; have := T.dt1
      norm_num at *; linarith
    have k3 := mul_le_mul n1 k2 (by positivity) (by norm_num : (0 : ℝ) ≤ 1001)
    norm_num at k1 k3 ⊢; linarith
  have a6 := Quat.length_le_apart x.rot x'.rot
  have a7 := Vec3.length_le_apart x.trans x'.trans
  have a8 := mul_le_mul_of_nonneg_right n1 L0
  refine ⟨h.len.trans g, a1, a2, a3, ?_, ?_⟩
  · have := h.len.trans g
    linarith
  · linarith


theorem EdgeNear.length {L dq dt : ℝ} {e e' : Pose} (h : EdgeNear L dq dt e e') : e'.rot.length ≤ 1 + 6 / 10000000 := by
  have := (abs_le.1 h.len).2
  refine Real.sqrt_le_iff.2 ⟨by norm_num, ?_⟩
  norm_num at *; linarith

theorem EdgeNear.low {L dq dt : ℝ} {e e' : Pose} (h : EdgeNear L dq dt e e') : 1 - 1 / 1000000 ≤ e'.rot.length := by
  have := (abs_le.1 h.len).1
  refine Real.le_sqrt_of_sq_le ?_
  norm_num at *; linarith

set_option maxHeartbeats 2000000 in
theorem Near.step {F : Rounding} {L dq dt : ℝ} (T : Tame F L dq dt) {n : ℕ} (hn : n ≤ 1000) {x x' e e' : Pose}
    (h : Near F L dq dt n x x') (he : EdgeNear L dq dt e e') :
    Near F L dq dt (n + 1) (F.comp e x) (Pose.comp e' x') := by
  obtain ⟨b1, b2, b3, b4, b5, b6⟩ := h.bounds T (by omega)
  have u0 := F.u_nonneg
  have e0 := F.η_nonneg
  have L0 := T.L0
  have dq0 := T.dq0
  have dt0 := T.dt0
  have n0 : (0 : ℝ) ≤ n := Nat.cast_nonneg n
  have u1 := T.u
  have e1 := T.η
  have dq1 := T.dq1
  have dt1 := T.dt1
  have hΩ := T.Ω
  norm_num at u1 e1 dq1
  have l' := he.length
  have l'0 := e'.rot.length_nonneg'
  have l0 := e.rot.length_nonneg'
  have x0 := x.rot.length_nonneg'
  have t0 := x.trans.length_nonneg'
  have t'0 := x'.trans.length_nonneg'
  have et0 := e.trans.length_nonneg'
  have ap0 := e.rot.apart_nonneg e'.rot
  have l1 : e.rot.length ≤ 1 + 12 / 10000000 := by
    have := Quat.length_le_apart e.rot e'.rot
    have := he.rot
    linarith
  have et : e.trans.length ≤ L + dt := by
    have := Vec3.length_le_apart e.trans e'.trans
    have := he.tlen
    have := he.trans
    linarith
  obtain ⟨hlow, hlen, htlen, hrot, htrans⟩ := h
  set g : ℝ := (1 + 3 / 1000000) ^ n with hg
  have g1 : 1 ≤ g := one_le_pow₀ (by norm_num)
  have gs : (1 + 3 / 1000000 : ℝ) ^ (n + 1) = g * (1 + 3 / 1000000) := pow_succ _ _
  have cast : ((n + 1 : ℕ) : ℝ) = n + 1 := by push_cast; ring
  refine ⟨?_, ?_, ?_, ?_, ?_⟩
  · have e2 : (Pose.comp e' x').rot.length = e'.rot.length * x'.rot.length := Quat.length_mul _ _
    rw [e2, pow_succ, mul_comm e'.rot.length]
    have p0 : (0 : ℝ) ≤ (1 - 1 / 1000000) ^ n := pow_nonneg (by norm_num) n
    exact mul_le_mul hlow he.low (by norm_num) (p0.trans hlow)
  · have e2 : (Pose.comp e' x').rot.length = e'.rot.length * x'.rot.length := Quat.length_mul _ _
    rw [e2, gs, mul_comm]
    exact mul_le_mul hlen (by linarith) l'0 (by linarith)
  · have e2 : (Pose.comp e' x').trans = (e'.rot.rotate x'.trans).add e'.trans := rfl
    rw [e2, gs, cast]
    refine (Vec3.length_add_le _ _).trans ?_
    rw [Quat.length_rotate]
    have hl2 : e'.rot.length2 ≤ 1 + 3 / 1000000 := by
      have := (abs_le.1 he.len).2
      linarith
    have k1 := mul_le_mul hl2 htlen t'0 (by norm_num)
    have k2 := he.tlen
    have k3 : L ≤ g * (1 + 3 / 1000000) * L := by
      have : (1 : ℝ) ≤ g * (1 + 3 / 1000000) := by linarith
      nlinarith
    linarith
  · refine (Rounding.comp_rot (by linarith) e x e' x' ?_).trans ?_
    · have := mul_le_mul l1 b5 x0 (by norm_num)
      norm_num at this
      linarith
    · rw [gs, cast]
      set A := 102 / 100 * n * g * (10 * F.u + dq + 16 * F.η) with hA
      have k1 : 10 * F.u * (e.rot.length * x.rot.length) ≤ 10 * F.u * ((1 + 12 / 10000000) * (1005 / 1000)) :=
        mul_le_mul_of_nonneg_left (mul_le_mul l1 b5 x0 (by norm_num)) (by positivity)
      have k2 : e.rot.apart e'.rot * x.rot.length ≤ dq * (1005 / 1000) := mul_le_mul he.rot b5 x0 dq0
      have k3 : e'.rot.length * x.rot.apart x'.rot ≤ (1 + 6 / 10000000) * A :=
        mul_le_mul l' hrot (Quat.apart_nonneg _ _) (by norm_num)
      have A0 : 0 ≤ A := by positivity
      have k4 : 102 / 100 * (n + 1) * (g * (1 + 3 / 1000000)) * (10 * F.u + dq + 16 * F.η) =
        (1 + 3 / 1000000) * A + g * ((1 + 3 / 1000000) * (102 / 100 * (10 * F.u + dq + 16 * F.η))) := by rw [hA]; ring
      have k5 : (10 * F.u + dq + 16 * F.η) * (102 / 100) ≤ g * ((1 + 3 / 1000000) * (102 / 100 * (10 * F.u + dq + 16 * F.η))) := by
        have s0 : 0 ≤ 10 * F.u + dq + 16 * F.η := by positivity
        have : (1 : ℝ) * (102 / 100 * (10 * F.u + dq + 16 * F.η)) ≤
            g * ((1 + 3 / 1000000) * (102 / 100 * (10 * F.u + dq + 16 * F.η))) :=
          mul_le_mul g1 (by linarith) (by linarith) (by linarith)
        linarith
      rw [k4]
      linarith
  · refine (Rounding.comp_trans (by linarith) (by linarith) e x e' x' (by linarith) (by linarith)).trans ?_
    rw [gs, cast]
    set C := n ^ 2 * (13 * F.u + 11 / 10 * dq) * L + n * (102 / 100 * dt + 37 * F.η) with hC
    have C0 : 0 ≤ C := by positivity
    have B : x.trans.apart x'.trans ≤ g * C := htrans
    have k1 : e.rot.length ^ 2 * x.trans.apart x'.trans ≤ (1 + 25 / 10000000) * (g * C) := by
      refine mul_le_mul ?_ B (Vec3.apart_nonneg _ _) (by norm_num)
      refine (pow_le_pow_left₀ l0 l1 2).trans (by norm_num)
    have k2 : (e.rot.length + e'.rot.length) * e.rot.apart e'.rot * x'.trans.length ≤ 201 / 100 * dq * (1004 / 1000 * n * L) :=
      mul_le_mul (mul_le_mul (by linarith) he.rot ap0 (by norm_num)) b2 t'0 (by positivity)
    have k3 := he.trans
    have k4 : 24 * F.u * x.trans.length ≤ 24 * F.u * (1004 / 1000 * n * L) + 24 / 1000000000 * (g * C) := by
      have := Vec3.length_le_apart x.trans x'.trans
      have a1 : x.trans.length ≤ 1004 / 1000 * n * L + g * C := by linarith
      have a2 := mul_le_mul_of_nonneg_left a1 (by positivity : 0 ≤ 24 * F.u)
      have gC : 0 ≤ g * C := by positivity
      have a3 := mul_le_mul_of_nonneg_right (by linarith : 24 * F.u ≤ 24 / 1000000000) gC
      linarith
    have k5 : 2 * F.u * e.trans.length ≤ 2 * F.u * L + 1 / 1000 * dt := by
      have a2 := mul_le_mul_of_nonneg_left et (by positivity : 0 ≤ 2 * F.u)
      have a3 := mul_le_mul_of_nonneg_right (by linarith : 2 * F.u ≤ 1 / 1000) dt0
      linarith
    have k6 : g * (1 + 3 / 1000000) * (((n : ℝ) + 1) ^ 2 * (13 * F.u + 11 / 10 * dq) * L + (n + 1) * (102 / 100 * dt + 37 * F.η)) =
        (1 + 3 / 1000000) * (g * C) +
          g * (1 + 3 / 1000000) * ((2 * n + 1) * (13 * F.u + 11 / 10 * dq) * L + (102 / 100 * dt + 37 * F.η)) := by
      rw [hC]; ring
    set W := (2 * (n : ℝ) + 1) * (13 * F.u + 11 / 10 * dq) * L + (102 / 100 * dt + 37 * F.η) with hW
    have W0 : 0 ≤ W := by positivity
    have k7 : W ≤ g * (1 + 3 / 1000000) * W := by
      have : (1 : ℝ) ≤ g * (1 + 3 / 1000000) := by linarith
      nlinarith
    rw [k6]
    refine le_trans ?_ (add_le_add le_rfl k7)
    have w1 : W = 26 * (F.u * n * L) + 22 / 10 * (dq * n * L) + 13 * (F.u * L) + 11 / 10 * (dq * L) + 102 / 100 * dt + 37 * F.η := by
      rw [hW]; ring
    have p1 : 0 ≤ F.u * n * L := by positivity
    have p2 : 0 ≤ dq * n * L := by positivity
    have p3 : 0 ≤ F.u * L := by positivity
    have p4 : 0 ≤ dq * L := by positivity
    have gC : 0 ≤ g * C := by positivity
    rw [w1]
    linarith

set_option maxHeartbeats 2000000 in
/-- The answer of a lookup over `n` edges on one side and `k` on the other. -/
theorem Near.join {F : Rounding} {L dq dt : ℝ} (T : Tame F L dq dt) {n k : ℕ} (hn : n ≤ 1001) (hk : k ≤ 1001) {x x' y y' : Pose}
    (hx : Near F L dq dt n x x') (hy : Near F L dq dt k y y') :
    (F.comp (F.inv y) x).rot.apart (Pose.comp (Pose.inv y') x').rot ≤ 2 * (n + k + 1) * (10 * F.u + dq + 16 * F.η) ∧
    (F.comp (F.inv y) x).trans.apart (Pose.comp (Pose.inv y') x').trans ≤
      4 * (n + k + 1) ^ 2 * (10 * F.u + dq + 16 * F.η) * L + 2 * (n + k + 1) * (dt + 40 * F.η) := by
  obtain ⟨b1, b2, b3, b4, b5, b6⟩ := hx.bounds T hn
  obtain ⟨c1, c2, c3, c4, c5, c6⟩ := hy.bounds T hk
  have u0 := F.u_nonneg
  have e0 := F.η_nonneg
  have L0 := T.L0
  have dq0 := T.dq0
  have dt0 := T.dt0
  have n0 : (0 : ℝ) ≤ n := Nat.cast_nonneg n
  have k0 : (0 : ℝ) ≤ k := Nat.cast_nonneg k
  have u1 := T.u
  have e1 := T.η
  have hΩ := T.Ω
  norm_num at u1 e1
  set S := 10 * F.u + dq + 16 * F.η with hS
  have S0 : 0 ≤ S := by positivity
  have il : (F.inv y).rot.length = y.rot.length := Quat.length_inverse _
  have il' : (Pose.inv y').rot.length = y'.rot.length := Quat.length_inverse _
  have x0 := x.rot.length_nonneg'
  have y0 := y.rot.length_nonneg'
  have y'0 := y'.rot.length_nonneg'
  have yt0 := y.trans.length_nonneg'
  have xt0 := x.trans.length_nonneg'
  have x't0 := x'.trans.length_nonneg'
  have y't0 := y'.trans.length_nonneg'
  have ax0 := x.rot.apart_nonneg x'.rot
  have ay0 := y.rot.apart_nonneg y'.rot
  have bx0 := x.trans.apart_nonneg x'.trans
  have by0 := y.trans.apart_nonneg y'.trans
  have nS : 0 ≤ n * S := by positivity
  have kS : 0 ≤ k * S := by positivity
  constructor
  · refine (Rounding.comp_rot (by linarith) _ _ _ _ ?_).trans ?_
    · rw [il]
      have := mul_le_mul c5 b5 x0 (by norm_num)
      norm_num at this
      linarith
    · rw [il, il', Rounding.inv_rot]
      have m1 : 10 * F.u * (y.rot.length * x.rot.length) ≤ 10 * F.u * (1005 / 1000 * (1005 / 1000)) :=
        mul_le_mul_of_nonneg_left (mul_le_mul c5 b5 x0 (by norm_num)) (by positivity)
      have m2 : y.rot.apart y'.rot * x.rot.length ≤ 103 / 100 * k * S * (1005 / 1000) := mul_le_mul c3 b5 x0 (by positivity)
      have m3 : y'.rot.length * x.rot.apart x'.rot ≤ 1004 / 1000 * (103 / 100 * n * S) := mul_le_mul c1 b3 ax0 (by norm_num)
      have : 2 * ((n : ℝ) + k + 1) * S = 2 * (n * S) + 2 * (k * S) + 2 * S := by ring
      rw [this]
      linarith
  · have it := Rounding.inv_trans (F := F) (by linarith) (by linarith) y y' (by linarith) (by linarith)
    have sq : y.rot.length ^ 2 ≤ 102 / 100 := (pow_le_pow_left₀ y0 c5 2).trans (by norm_num)
    have sq0 : 0 ≤ y.rot.length ^ 2 := by positivity
    -- the length of the inverted target side
    have itl : (F.inv y).trans.length ≤ 1200 * (L + 1) := by
      have r := Rounding.rotate_err (F := F) (by linarith) (by linarith) y.rot.inverse (by rw [Quat.length_inverse]; linarith) y.trans.neg
        (by rw [Vec3.length_neg]; linarith)
      have l := Vec3.length_le_apart (F.rotate y.rot.inverse y.trans.neg) (y.rot.inverse.rotate y.trans.neg)
      rw [Quat.length_rotate, Quat.length2_inverse, Vec3.length_neg, ← Quat.length_sq] at l
      rw [Vec3.length_neg] at r
      have m1 := mul_le_mul sq c6 yt0 (by norm_num)
      have m2 := mul_le_mul (by linarith : 21 * F.u ≤ 1 / 1000) c6 yt0 (by norm_num)
      have e : (F.inv y).trans.length = (F.rotate y.rot.inverse y.trans.neg).length := rfl
      rw [e]
      linarith
    refine (Rounding.comp_trans (by linarith) (by linarith) _ _ _ _ (by rw [il]; linarith) (by linarith)).trans ?_
    rw [il, il', Rounding.inv_rot]
    -- pieces
    have p1 : y.rot.length ^ 2 * x.trans.apart x'.trans ≤
        102 / 100 * (1004 / 1000 * (n ^ 2 * (13 * F.u + 11 / 10 * dq) * L + n * (102 / 100 * dt + 37 * F.η))) :=
      mul_le_mul sq b4 bx0 (by norm_num)
    have p2 : y.rot.length ^ 2 * y.trans.apart y'.trans ≤
        102 / 100 * (1004 / 1000 * (k ^ 2 * (13 * F.u + 11 / 10 * dq) * L + k * (102 / 100 * dt + 37 * F.η))) :=
      mul_le_mul sq c4 by0 (by norm_num)
    have q : (y.rot.length + y'.rot.length) * y.rot.apart y'.rot ≤ 201 / 100 * (103 / 100 * k * S) :=
      mul_le_mul (by linarith) c3 ay0 (by norm_num)
    have p3 : (y.rot.length + y'.rot.length) * y.rot.apart y'.rot * x'.trans.length ≤
        201 / 100 * (103 / 100 * k * S) * (1004 / 1000 * n * L) := mul_le_mul q b2 x't0 (by positivity)
    have p4 : (y.rot.length + y'.rot.length) * y.rot.apart y'.rot * y'.trans.length ≤
        201 / 100 * (103 / 100 * k * S) * (1004 / 1000 * k * L) := mul_le_mul q c2 y't0 (by positivity)
    have xl : x.trans.length ≤ 1004 / 1000 * n * L +
        1004 / 1000 * (n ^ 2 * (13 * F.u + 11 / 10 * dq) * L + n * (102 / 100 * dt + 37 * F.η)) := by
      have := Vec3.length_le_apart x.trans x'.trans; linarith
    have yl : y.trans.length ≤ 1004 / 1000 * k * L +
        1004 / 1000 * (k ^ 2 * (13 * F.u + 11 / 10 * dq) * L + k * (102 / 100 * dt + 37 * F.η)) := by
      have := Vec3.length_le_apart y.trans y'.trans; linarith
    -- abbreviations
    have kap : 13 * F.u + 11 / 10 * dq ≤ 13 / 10 * S := by rw [hS]; linarith
    set U := 13 * F.u + 11 / 10 * dq with hU
    have U0 : 0 ≤ U := by positivity
    set c := 102 / 100 * dt + 37 * F.η with hc
    have c0 : 0 ≤ c := by positivity
    set n2 : ℝ := n ^ 2 with hn2
    set k2 : ℝ := k ^ 2 with hk2
    have hn20 : 0 ≤ n2 := by positivity
    have hk20 : 0 ≤ k2 := by positivity
    set X := n2 * U * L with hX
    set Y := k2 * U * L with hY
    have X0 : 0 ≤ X := by positivity
    have Y0 : 0 ≤ Y := by positivity
    have nc0 : 0 ≤ n * c := by positivity
    have kc0 : 0 ≤ k * c := by positivity
    have hXS : X ≤ 13 / 10 * (n2 * S * L) := by
      have := mul_le_mul_of_nonneg_right (mul_le_mul_of_nonneg_left kap hn20) L0
      linarith
    have hYS : Y ≤ 13 / 10 * (k2 * S * L) := by
      have := mul_le_mul_of_nonneg_right (mul_le_mul_of_nonneg_left kap hk20) L0
      linarith
    have uS : F.u ≤ S / 10 := by rw [hS]; linarith
    have unL : F.u * (n * L) ≤ S / 10 * (n * L) := mul_le_mul_of_nonneg_right uS (by positivity)
    have ukL : F.u * (k * L) ≤ S / 10 * (k * L) := mul_le_mul_of_nonneg_right uS (by positivity)
    have uX : F.u * X ≤ 1 / 1000000000 * X := mul_le_mul_of_nonneg_right u1 X0
    have uY : F.u * Y ≤ 1 / 1000000000 * Y := mul_le_mul_of_nonneg_right u1 Y0
    have unc : F.u * (n * c) ≤ 1 / 1000000000 * (n * c) := mul_le_mul_of_nonneg_right u1 nc0
    have ukc : F.u * (k * c) ≤ 1 / 1000000000 * (k * c) := mul_le_mul_of_nonneg_right u1 kc0
    have z2 : 0 ≤ S * (n * L) := by positivity
    have z3 : 0 ≤ S * (k * L) := by positivity
    have p5 : 24 * F.u * x.trans.length ≤ 241 / 100 * (S * (n * L)) + 1 / 1000 * X + 1 / 1000 * (n * c) := by
      have := mul_le_mul_of_nonneg_left xl (by positivity : 0 ≤ 24 * F.u)
      have e : 24 * F.u * (1004 / 1000 * n * L + 1004 / 1000 * (X + n * c)) =
        24 * 1004 / 1000 * (F.u * (n * L)) + 24 * 1004 / 1000 * (F.u * X) + 24 * 1004 / 1000 * (F.u * (n * c)) := by ring
      rw [e] at this
      linarith
    have p6 : 21 * F.u * y.trans.length ≤ 211 / 100 * (S * (k * L)) + 1 / 1000 * Y + 1 / 1000 * (k * c) := by
      have := mul_le_mul_of_nonneg_left yl (by positivity : 0 ≤ 21 * F.u)
      have e : 21 * F.u * (1004 / 1000 * k * L + 1004 / 1000 * (Y + k * c)) =
        21 * 1004 / 1000 * (F.u * (k * L)) + 21 * 1004 / 1000 * (F.u * Y) + 21 * 1004 / 1000 * (F.u * (k * c)) := by ring
      rw [e] at this
      linarith
    -- the summand for the length of the inverted translation
    have il2 : (F.inv y).trans.length ≤ 103 / 100 * y.trans.length + 34 * F.η := by
      have r := Rounding.rotate_err (F := F) (by linarith) (by linarith) y.rot.inverse (by rw [Quat.length_inverse]; linarith) y.trans.neg
        (by rw [Vec3.length_neg]; linarith)
      have l := Vec3.length_le_apart (F.rotate y.rot.inverse y.trans.neg) (y.rot.inverse.rotate y.trans.neg)
      rw [Quat.length_rotate, Quat.length2_inverse, Vec3.length_neg, ← Quat.length_sq] at l
      rw [Vec3.length_neg] at r
      have m1 := mul_le_mul_of_nonneg_right sq yt0
      have m2 := mul_le_mul_of_nonneg_right (by linarith : 21 * F.u ≤ 1 / 1000) yt0
      have e : (F.inv y).trans.length = (F.rotate y.rot.inverse y.trans.neg).length := rfl
      rw [e]
      linarith
    have p7 : 2 * F.u * (F.inv y).trans.length ≤ 22 / 100 * (S * (k * L)) + 1 / 1000 * Y + 1 / 1000 * (k * c) + 1 / 10 * F.η := by
      have a1 := mul_le_mul_of_nonneg_left il2 (by positivity : 0 ≤ 2 * F.u)
      have a2 : F.u * F.η ≤ 1 / 1000000000 * F.η := mul_le_mul_of_nonneg_right u1 e0
      have e : 2 * F.u * (103 / 100 * y.trans.length + 34 * F.η) = 206 / 2100 * (21 * F.u * y.trans.length) + 68 * (F.u * F.η) := by ring
      rw [e] at a1
      have : 0 ≤ S * (k * L) := by positivity
      linarith
    have target : 4 * ((n : ℝ) + k + 1) ^ 2 * S * L + 2 * (n + k + 1) * (dt + 40 * F.η) =
        4 * (n2 * S * L) + 4 * (k2 * S * L) + 4 * (S * L) + 8 * (n * k * S * L) + 8 * (S * (n * L)) + 8 * (S * (k * L)) +
        2 * (n * (dt + 40 * F.η)) + 2 * (k * (dt + 40 * F.η)) + 2 * dt + 80 * F.η := by
      rw [hn2, hk2]; ring
    have hnc : n * c ≤ 102 / 100 * (n * (dt + 40 * F.η)) := by
      have : c ≤ 102 / 100 * (dt + 40 * F.η) := by rw [hc]; linarith
      have := mul_le_mul_of_nonneg_left this n0
      linarith
    have hkc : k * c ≤ 102 / 100 * (k * (dt + 40 * F.η)) := by
      have : c ≤ 102 / 100 * (dt + 40 * F.η) := by rw [hc]; linarith
      have := mul_le_mul_of_nonneg_left this k0
      linarith
    have e3 : 201 / 100 * (103 / 100 * k * S) * (1004 / 1000 * n * L) = 201 / 100 * (103 / 100) * (1004 / 1000) * (n * k * S * L) := by ring
    have e4 : 201 / 100 * (103 / 100 * k * S) * (1004 / 1000 * k * L) = 201 / 100 * (103 / 100) * (1004 / 1000) * (k2 * S * L) := by
      rw [hk2]; ring
    rw [e3] at p3
    rw [e4] at p4
    rw [target]
    have z1 : 0 ≤ n * k * S * L := by positivity
    have z4 : 0 ≤ S * L := by positivity
    have z5 : 0 ≤ n2 * S * L := by positivity
    have z6 : 0 ≤ k2 * S * L := by positivity
    have z7 : 0 ≤ n * (dt + 40 * F.η) := by positivity
    have z8 : 0 ≤ k * (dt + 40 * F.η) := by positivity
    linarith

set_option maxHeartbeats 2000000 in
/-- The answer when the source side is empty. -/
theorem Near.inv {F : Rounding} {L dq dt : ℝ} (T : Tame F L dq dt) {k : ℕ} (hk : k ≤ 1001) {y y' : Pose}
    (hy : Near F L dq dt k y y') :
    (F.inv y).rot.apart (Pose.inv y').rot ≤ 2 * (k + 1) * (10 * F.u + dq + 16 * F.η) ∧
    (F.inv y).trans.apart (Pose.inv y').trans ≤
      4 * (k + 1) ^ 2 * (10 * F.u + dq + 16 * F.η) * L + 2 * (k + 1) * (dt + 40 * F.η) := by
  obtain ⟨c1, c2, c3, c4, c5, c6⟩ := hy.bounds T hk
  have u0 := F.u_nonneg
  have e0 := F.η_nonneg
  have L0 := T.L0
  have dq0 := T.dq0
  have dt0 := T.dt0
  have k0 : (0 : ℝ) ≤ k := Nat.cast_nonneg k
  have u1 := T.u
  have e1 := T.η
  have hΩ := T.Ω
  norm_num at u1 e1
  set S := 10 * F.u + dq + 16 * F.η with hS
  have S0 : 0 ≤ S := by positivity
  have y0 := y.rot.length_nonneg'
  have yt0 := y.trans.length_nonneg'
  have y't0 := y'.trans.length_nonneg'
  have ay0 := y.rot.apart_nonneg y'.rot
  have by0 := y.trans.apart_nonneg y'.trans
  have kS : 0 ≤ k * S := by positivity
  constructor
  · rw [Rounding.inv_rot]; linarith
  · refine (Rounding.inv_trans (F := F) (by linarith) (by linarith) y y' (by linarith) (by linarith)).trans ?_
    have sq : y.rot.length ^ 2 ≤ 102 / 100 := (pow_le_pow_left₀ y0 c5 2).trans (by norm_num)
    have p2 : y.rot.length ^ 2 * y.trans.apart y'.trans ≤
        102 / 100 * (1004 / 1000 * (k ^ 2 * (13 * F.u + 11 / 10 * dq) * L + k * (102 / 100 * dt + 37 * F.η))) :=
      mul_le_mul sq c4 by0 (by norm_num)
    have q : (y.rot.length + y'.rot.length) * y.rot.apart y'.rot ≤ 201 / 100 * (103 / 100 * k * S) :=
      mul_le_mul (by linarith) c3 ay0 (by norm_num)
    have p4 : (y.rot.length + y'.rot.length) * y.rot.apart y'.rot * y'.trans.length ≤
        201 / 100 * (103 / 100 * k * S) * (1004 / 1000 * k * L) := mul_le_mul q c2 y't0 (by positivity)
    have yl : y.trans.length ≤ 1004 / 1000 * k * L +
        1004 / 1000 * (k ^ 2 * (13 * F.u + 11 / 10 * dq) * L + k * (102 / 100 * dt + 37 * F.η)) := by
      have := Vec3.length_le_apart y.trans y'.trans; linarith
    have kap : 13 * F.u + 11 / 10 * dq ≤ 13 / 10 * S := by rw [hS]; linarith
    set U := 13 * F.u + 11 / 10 * dq with hU
    have U0 : 0 ≤ U := by positivity
    set c := 102 / 100 * dt + 37 * F.η with hc
    have c0 : 0 ≤ c := by positivity
    set k2 : ℝ := k ^ 2 with hk2
    have hk20 : 0 ≤ k2 := by positivity
    set Y := k2 * U * L with hY
    have Y0 : 0 ≤ Y := by positivity
    have kc0 : 0 ≤ k * c := by positivity
    have hYS : Y ≤ 13 / 10 * (k2 * S * L) := by
      have := mul_le_mul_of_nonneg_right (mul_le_mul_of_nonneg_left kap hk20) L0
      linarith
    have uS : F.u ≤ S / 10 := by rw [hS]; linarith
    have ukL : F.u * (k * L) ≤ S / 10 * (k * L) := mul_le_mul_of_nonneg_right uS (by positivity)
    have uY : F.u * Y ≤ 1 / 1000000000 * Y := mul_le_mul_of_nonneg_right u1 Y0
    have ukc : F.u * (k * c) ≤ 1 / 1000000000 * (k * c) := mul_le_mul_of_nonneg_right u1 kc0
    have z3 : 0 ≤ S * (k * L) := by positivity
    have p6 : 21 * F.u * y.trans.length ≤ 211 / 100 * (S * (k * L)) + 1 / 1000 * Y + 1 / 1000 * (k * c) := by
      have := mul_le_mul_of_nonneg_left yl (by positivity : 0 ≤ 21 * F.u)
      have e : 21 * F.u * (1004 / 1000 * k * L + 1004 / 1000 * (Y + k * c)) =
        21 * 1004 / 1000 * (F.u * (k * L)) + 21 * 1004 / 1000 * (F.u * Y) + 21 * 1004 / 1000 * (F.u * (k * c)) := by ring
      rw [e] at this
      linarith
    have hkc : k * c ≤ 102 / 100 * (k * (dt + 40 * F.η)) := by
      have : c ≤ 102 / 100 * (dt + 40 * F.η) := by rw [hc]; linarith
      have := mul_le_mul_of_nonneg_left this k0
      linarith
    have target : 4 * ((k : ℝ) + 1) ^ 2 * S * L + 2 * (k + 1) * (dt + 40 * F.η) =
        4 * (k2 * S * L) + 4 * (S * L) + 8 * (S * (k * L)) + 2 * (k * (dt + 40 * F.η)) + 2 * dt + 80 * F.η := by
      rw [hk2]; ring
    have e4 : 201 / 100 * (103 / 100 * k * S) * (1004 / 1000 * k * L) = 201 / 100 * (103 / 100) * (1004 / 1000) * (k2 * S * L) := by
      rw [hk2]; ring
    rw [e4] at p4
    rw [target]
    have z4 : 0 ≤ S * L := by positivity
    have z6 : 0 ≤ k2 * S * L := by positivity
    have z8 : 0 ≤ k * (dt + 40 * F.η) := by positivity
    linarith

/-- The answer when the target side is empty. -/
theorem Near.self {F : Rounding} {L dq dt : ℝ} (T : Tame F L dq dt) {k : ℕ} (hk : k ≤ 1001) {y y' : Pose}
    (hy : Near F L dq dt k y y') :
    y.rot.apart y'.rot ≤ 2 * (k + 1) * (10 * F.u + dq + 16 * F.η) ∧
    y.trans.apart y'.trans ≤ 4 * (k + 1) ^ 2 * (10 * F.u + dq + 16 * F.η) * L + 2 * (k + 1) * (dt + 40 * F.η) := by
  obtain ⟨c1, c2, c3, c4, c5, c6⟩ := hy.bounds T hk
  have u0 := F.u_nonneg
  have e0 := F.η_nonneg
  have L0 := T.L0
  have dq0 := T.dq0
  have dt0 := T.dt0
  have k0 : (0 : ℝ) ≤ k := Nat.cast_nonneg k
  have S0 : 0 ≤ 10 * F.u + dq + 16 * F.η := by positivity
  have kS := mul_nonneg k0 S0
  refine ⟨by linarith, c4.trans ?_⟩
  have kap : 13 * F.u + 11 / 10 * dq ≤ 13 / 10 * (10 * F.u + dq + 16 * F.η) := by linarith
  have h1 := mul_le_mul_of_nonneg_right (mul_le_mul_of_nonneg_left kap (sq_nonneg (k : ℝ))) L0
  generalize 10 * F.u + dq + 16 * F.η = S at *
  have h2 : (k : ℝ) * (102 / 100 * dt + 37 * F.η) ≤ k * (102 / 100 * (dt + 40 * F.η)) :=
    mul_le_mul_of_nonneg_left (by linarith) k0
  have target : 4 * ((k : ℝ) + 1) ^ 2 * S * L + 2 * (k + 1) * (dt + 40 * F.η) =
        4 * (k ^ 2 * S * L) + 4 * (S * L) + 8 * (S * (k * L)) + 2 * (k * (dt + 40 * F.η)) + 2 * dt + 80 * F.η := by ring
  rw [target]
  have z1 : 0 ≤ S * L := by positivity
  have z2 : 0 ≤ (k : ℝ) ^ 2 * S * L := by positivity
  have z3 : 0 ≤ S * (k * L) := by positivity
  have z4 : 0 ≤ k * (dt + 40 * F.η) := by positivity
  linarith

/-- The size of an exact answer over `N` edges. -/
def Sized (L : ℝ) (N : ℕ) (x : Pose) : Prop :=
  99 / 100 ≤ x.rot.length ∧ x.rot.length ≤ 101 / 100 ∧ x.trans.length ≤ 102 / 100 * N * L

theorem Near.sizes {F : Rounding} {L dq dt : ℝ} (T : Tame F L dq dt) {n : ℕ} (hn : n ≤ 1001) {x x' : Pose}
    (h : Near F L dq dt n x x') :
    998 / 1000 ≤ x'.rot.length ∧ x'.rot.length ≤ 1004 / 1000 ∧ x'.trans.length ≤ 1004 / 1000 * n * L := by
  obtain ⟨b1, b2, _⟩ := h.bounds T hn
  refine ⟨le_trans ?_ h.low, b1, b2⟩
  have h1 := one_add_mul_le_pow (a := (-(1 / 1000000) : ℝ)) (by norm_num) n
  have h2 : (n : ℝ) ≤ 1001 := by exact_mod_cast hn
  rw [← sub_eq_add_neg] at h1
  refine le_trans ?_ h1
  linarith

theorem Near.sized {F : Rounding} {L dq dt : ℝ} (T : Tame F L dq dt) {n : ℕ} (hn : n ≤ 1001) {x x' : Pose}
    (h : Near F L dq dt n x x') : Sized L n x' := by
  obtain ⟨h1, h2, h3⟩ := h.sizes T hn
  have := mul_nonneg (Nat.cast_nonneg (α := ℝ) n) T.L0
  exact ⟨by linarith, by linarith, by linarith⟩

theorem Near.sized_inv {F : Rounding} {L dq dt : ℝ} (T : Tame F L dq dt) {n : ℕ} (hn : n ≤ 1001) {x x' : Pose}
    (h : Near F L dq dt n x x') : Sized L n (Pose.inv x') := by
  obtain ⟨h1, h2, h3⟩ := h.sizes T hn
  have h0 := mul_nonneg (Nat.cast_nonneg (α := ℝ) n) T.L0
  have e1 : (Pose.inv x').rot.length = x'.rot.length := Quat.length_inverse _
  have e2 : (Pose.inv x').trans.length = x'.rot.length * x'.trans.length * x'.rot.length := by
    show (x'.rot.inverse.rotate x'.trans.neg).length = _
    rw [← Quat.length_pure, Quat.pure_rotate, Quat.length_mul, Quat.length_mul, Quat.length_inverse, Quat.length_inverse,
      Quat.length_inverse, Quat.length_pure]
    congr 2
    simp [Vec3.length, Vec3.length2, Vec3.dot, Vec3.neg]
  refine ⟨by rw [e1]; linarith, by rw [e1]; linarith, ?_⟩
  rw [e2]
  have t0 := x'.trans.length_nonneg'
  have r0 := x'.rot.length_nonneg'
  have a1 := mul_le_mul h2 h3 t0 (by norm_num)
  have a2 := mul_le_mul a1 h2 r0 (by nlinarith)
  linarith

theorem Near.sized_join {F : Rounding} {L dq dt : ℝ} (T : Tame F L dq dt) {n k : ℕ} (hn : n ≤ 1001) (hk : k ≤ 1001)
    {x x' y y' : Pose} (hx : Near F L dq dt n x x') (hy : Near F L dq dt k y y') :
    Sized L (n + k) (Pose.comp (Pose.inv y') x') := by
  obtain ⟨h1, h2, h3⟩ := hx.sizes T hn
  obtain ⟨k1, k2, k3⟩ := hy.sizes T hk
  have h0 := mul_nonneg (Nat.cast_nonneg (α := ℝ) n) T.L0
  have k0 := mul_nonneg (Nat.cast_nonneg (α := ℝ) k) T.L0
  have e1 : (Pose.comp (Pose.inv y') x').rot.length = y'.rot.length * x'.rot.length := by
    show (y'.rot.inverse.mul x'.rot).length = _
    rw [Quat.length_mul, Quat.length_inverse]
  have er : ∀ v : Vec3 ℝ, (y'.rot.inverse.rotate v).length = y'.rot.length * v.length * y'.rot.length := by
    intro v
    rw [← Quat.length_pure, Quat.pure_rotate, Quat.length_mul, Quat.length_mul, Quat.length_inverse, Quat.length_inverse,
      Quat.length_inverse, Quat.length_pure]
  have en : y'.trans.neg.length = y'.trans.length := by simp [Vec3.length, Vec3.length2, Vec3.dot, Vec3.neg]
  have e2 : (Pose.comp (Pose.inv y') x').trans.length ≤
      y'.rot.length * x'.trans.length * y'.rot.length + y'.rot.length * y'.trans.length * y'.rot.length := by
    show ((y'.rot.inverse.rotate x'.trans).add (y'.rot.inverse.rotate y'.trans.neg)).length ≤ _
    refine (Vec3.length_add_le _ _).trans ?_
    rw [er, er, en]
  have t0 := x'.trans.length_nonneg'
  have s0 := y'.trans.length_nonneg'
  have r0 := y'.rot.length_nonneg'
  refine ⟨?_, ?_, ?_⟩
  · rw [e1]; have := mul_le_mul k1 h1 (by norm_num) r0; linarith
  · rw [e1]; have := mul_le_mul k2 h2 (by linarith) (by norm_num); linarith
  · refine e2.trans ?_
    have a1 := mul_le_mul (mul_le_mul k2 h3 t0 (by norm_num)) k2 r0 (by nlinarith)
    have a2 := mul_le_mul (mul_le_mul k2 k3 s0 (by norm_num)) k2 r0 (by nlinarith)
    push_cast
    linarith

end Tf2
