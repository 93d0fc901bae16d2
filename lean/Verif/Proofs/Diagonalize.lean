import Verif.Spec.Diagonalize
import Mathlib.Analysis.Matrix.Normed
import Mathlib.Tactic.Linarith
import Mathlib.Tactic.Positivity
import Mathlib.Tactic.FieldSimp

/-!
# Lemmas about `diagonalize`
-/
namespace Tf2.Diag

open Matrix

/-- The three places of `largest`. -/
inductive Place : Fin 3 → Fin 3 → Fin 3 → Prop
  | a : Place 0 1 2
  | b : Place 0 2 1
  | c : Place 1 2 0

/-- What `largest` finds. -/
theorem largest_spec (m : M3) (hs : mᵀ = m) : ∃ p q r, Place p q r ∧ largest m = (p, q, r, |m p q|) ∧
    |m r p| ≤ |m p q| ∧ |m r q| ≤ |m p q| := by
  have h (i j) : m i j = m j i := congrFun (congrFun hs j) i
  have e1 := h 2 0; have e2 := h 2 1; have e3 := h 1 0
  unfold largest
  dsimp only
  by_cases h1 : |m 0 2| > |m 0 1|
  · rw [if_pos h1]
    dsimp only
    by_cases h2 : |m 1 2| > |m 0 2|
    · rw [if_pos h2]
      exact ⟨1, 2, 0, .c, rfl, by rw [← e3, e3]; linarith, by linarith⟩
    · rw [if_neg h2]
      exact ⟨0, 2, 1, .b, rfl, by rw [e3]; linarith, by linarith⟩
  · rw [if_neg h1]
    dsimp only
    by_cases h2 : |m 1 2| > |m 0 1|
    · rw [if_pos h2]
      exact ⟨1, 2, 0, .c, rfl, by linarith, by linarith⟩
    · rw [if_neg h2]
      exact ⟨0, 1, 2, .a, rfl, by rw [e1]; linarith, by rw [e2]; linarith⟩

/-- The rotation of one round as a matrix. -/
def J (p q : Fin 3) (c s : ℝ) : M3 := fun i j =>
  if i = p ∧ j = p then c else if i = q ∧ j = q then c else if i = p ∧ j = q then s else if i = q ∧ j = p then -s
  else if i = j then 1 else 0

theorem turnRot_eq {p q r : Fin 3} (hp : Place p q r) (c s : ℝ) (rot : M3) : turnRot p q c s rot = rot * J p q c s := by
  cases hp <;> ext i j <;> fin_cases i <;> fin_cases j <;>
    simp [turnRot, put, J, Matrix.mul_apply, Fin.sum_univ_three] <;> ring

theorem Place.sum {p q r : Fin 3} (hp : Place p q r) (f : Fin 3 → ℝ) : ∑ k, f k = f p + f q + f r := by
  cases hp <;> rw [Fin.sum_univ_three] <;> ring

theorem Place.all {p q r : Fin 3} (hp : Place p q r) (i : Fin 3) : i = p ∨ i = q ∨ i = r := by
  cases hp <;> fin_cases i <;> simp

theorem Place.ext {p q r : Fin 3} (hp : Place p q r) {a b : M3} (h1 : a p p = b p p) (h2 : a q q = b q q) (h3 : a r r = b r r)
    (h4 : a p q = b p q) (h5 : a q p = b q p) (h6 : a r p = b r p) (h7 : a p r = b p r) (h8 : a r q = b r q) (h9 : a q r = b q r) :
    a = b := by
  ext i j
  rcases hp.all i with rfl | rfl | rfl <;> rcases hp.all j with rfl | rfl | rfl <;> assumption

/-- The elements of `J`. -/
theorem J_el {p q r : Fin 3} (hp : Place p q r) (c s : ℝ) :
    J p q c s p p = c ∧ J p q c s q q = c ∧ J p q c s r r = 1 ∧ J p q c s p q = s ∧ J p q c s q p = -s ∧
    J p q c s r p = 0 ∧ J p q c s p r = 0 ∧ J p q c s r q = 0 ∧ J p q c s q r = 0 := by
  cases hp <;> simp [J]

/-- The elements of the matrix after a round. -/
theorem turnMatrix_el {p q r : Fin 3} (hp : Place p q r) (t c s x : ℝ) (m : M3) :
    let m' := turnMatrix p q r t c s x m
    m' p p = m p p - t * x ∧ m' q q = m q q + t * x ∧ m' r r = m r r ∧ m' p q = 0 ∧ m' q p = 0 ∧
    m' r p = c * m r p - s * m r q ∧ m' p r = c * m r p - s * m r q ∧ m' r q = c * m r q + s * m r p ∧
    m' q r = c * m r q + s * m r p := by
  cases hp <;> simp [turnMatrix, put]

/-- The sum of the squares. -/
def sq (m : M3) : ℝ := ∑ i, ∑ j, m i j ^ 2

theorem sq_nonneg (m : M3) : 0 ≤ sq m := Finset.sum_nonneg (fun _ _ => Finset.sum_nonneg (fun _ _ => _root_.sq_nonneg _))

theorem Place.sq {p q r : Fin 3} (hp : Place p q r) (m : M3) : sq m = m p p ^ 2 + m q q ^ 2 + m r r ^ 2 + m p q ^ 2 + m q p ^ 2 +
    m r p ^ 2 + m p r ^ 2 + m r q ^ 2 + m q r ^ 2 := by
  unfold Diag.sq; rw [hp.sum]; simp only [hp.sum]; ring

theorem Place.off {p q r : Fin 3} (hp : Place p q r) (m : M3) : off m = m p q ^ 2 + m q p ^ 2 +
    m r p ^ 2 + m p r ^ 2 + m r q ^ 2 + m q r ^ 2 := by
  unfold Diag.off; cases hp <;> simp [Fin.sum_univ_three] <;> ring

theorem size_eq (m : M3) : size m = Real.sqrt (sq m) := rfl

theorem size_le_iff {a b : M3} : size a ≤ size b ↔ sq a ≤ sq b := by
  rw [size_eq, size_eq, Real.sqrt_le_sqrt_iff (sq_nonneg b)]

theorem size_sq (m : M3) : size m ^ 2 = sq m := Real.sq_sqrt (sq_nonneg m)

theorem size_nonneg (m : M3) : 0 ≤ size m := Real.sqrt_nonneg _

attribute [local instance] Matrix.frobeniusNormedAddCommGroup in
theorem size_norm (m : M3) : size m = ‖m‖ := by
  rw [Matrix.frobenius_norm_def, size, Real.sqrt_eq_rpow]
  simp

attribute [local instance] Matrix.frobeniusNormedAddCommGroup in
theorem size_add (a b : M3) : size (a + b) ≤ size a + size b := by
  simp only [size_norm]; exact norm_add_le a b

theorem size_le_of_sq {a : M3} {k : ℝ} (hk : 0 ≤ k) (h : sq a ≤ k ^ 2) : size a ≤ k := by
  rw [size_eq]; exact Real.sqrt_le_iff.2 ⟨hk, h⟩

/-- A rotation shortened by `c² + s² ≤ 1` makes no matrix larger. -/
theorem J_contracts {p q r : Fin 3} (hp : Place p q r) {c s : ℝ} (h : c ^ 2 + s ^ 2 ≤ 1) (m : M3) :
    size (J p q c s * m * (J p q c s)ᵀ) ≤ size m := by
  have left : ∀ m : M3, sq (J p q c s * m) ≤ sq m := by
    intro m
    obtain ⟨j1, j2, j3, j4, j5, j6, j7, j8, j9⟩ := J_el hp c s
    rw [hp.sq, hp.sq]
    simp only [Matrix.mul_apply, hp.sum, j1, j2, j3, j4, j5, j6, j7, j8, j9]
    have key : ∀ x y : ℝ, (c * x + s * y) ^ 2 + (-s * x + c * y) ^ 2 ≤ x ^ 2 + y ^ 2 := by
      intro x y
      have e : (c * x + s * y) ^ 2 + (-s * x + c * y) ^ 2 = (c ^ 2 + s ^ 2) * (x ^ 2 + y ^ 2) := by ring
      have := mul_le_mul_of_nonneg_right h (add_nonneg (_root_.sq_nonneg x) (_root_.sq_nonneg y))
      linarith
    have k1 := key (m p p) (m q p)
    have k2 := key (m p q) (m q q)
    have k3 := key (m p r) (m q r)
    nlinarith [k1, k2, k3]
  have tr : ∀ m : M3, sq mᵀ = sq m := by
    intro m; rw [hp.sq, hp.sq]; simp only [Matrix.transpose_apply]; ring
  rw [size_le_iff]
  calc sq (J p q c s * m * (J p q c s)ᵀ) = sq (J p q c s * (J p q c s * m)ᵀ) := by
        rw [← tr]; congr 1; rw [Matrix.transpose_mul, Matrix.transpose_transpose]
    _ ≤ sq (J p q c s * m)ᵀ := left _
    _ = sq (J p q c s * m) := tr _
    _ ≤ sq m := left m

/-- What is needed of the numbers of one round: `g = c² + s²`, and how far `t` is from the root of `t² + 2 θ t - 1`. -/
structure Numbers (eps theta t c s : ℝ) : Prop where
  sin : s = c * t
  cpos : 0 ≤ c
  cle : c ≤ 1
  tle : t ^ 2 ≤ 1
  gle : c ^ 2 + s ^ 2 ≤ 1
  gge : 1 - eps / 200 ≤ c ^ 2 + s ^ 2
  rle : t ^ 2 + 2 * theta * t - 1 ≤ 0
  rge : -(eps / 160) ≤ t ^ 2 + 2 * theta * t - 1

/-- In the exact branch the rotation is exact. -/
theorem turnBy_exact {eps theta : ℝ} (h : theta * theta * (theta * theta) < 10 / eps) :
    let n := turnBy eps theta
    n.2.2 = n.2.1 * n.1 ∧ 0 ≤ n.2.1 ∧ n.1 ^ 2 ≤ 1 ∧ n.2.1 ^ 2 + n.2.2 ^ 2 = 1 ∧ n.1 ^ 2 + 2 * theta * n.1 - 1 = 0 := by
  unfold turnBy
  dsimp only
  rw [if_pos h]
  dsimp only
  have hpos : (0 : ℝ) < 1 + theta * theta := by nlinarith [mul_self_nonneg theta]
  have hr := Real.sqrt_pos.2 hpos
  have hr2 := Real.mul_self_sqrt hpos.le
  set R := Real.sqrt (1 + theta * theta) with hR
  have hR1 : 1 ≤ R := by rw [hR]; exact Real.one_le_sqrt.2 (by nlinarith [mul_self_nonneg theta])
  have hth : |theta| < R := by
    rw [hR]; refine Real.lt_sqrt_of_sq_lt ?_; rw [sq_abs]; nlinarith
  obtain ⟨hl, hu⟩ := abs_lt.1 hth
  have key : ∀ t : ℝ, t ^ 2 + 2 * theta * t - 1 = 0 → t ^ 2 ≤ 1 →
      (1 / Real.sqrt (1 + t * t) * t = 1 / Real.sqrt (1 + t * t) * t) ∧ 0 ≤ 1 / Real.sqrt (1 + t * t) ∧ t ^ 2 ≤ 1 ∧
      (1 / Real.sqrt (1 + t * t)) ^ 2 + (1 / Real.sqrt (1 + t * t) * t) ^ 2 = 1 ∧ t ^ 2 + 2 * theta * t - 1 = 0 := by
    intro t h1 h2
    have hp : (0 : ℝ) < 1 + t * t := by nlinarith [mul_self_nonneg t]
    have hs := Real.sqrt_pos.2 hp
    have hs2 := Real.mul_self_sqrt hp.le
    refine ⟨rfl, by positivity, h2, ?_, h1⟩
    have e : (1 / Real.sqrt (1 + t * t)) ^ 2 + (1 / Real.sqrt (1 + t * t) * t) ^ 2 =
        (1 + t * t) / (Real.sqrt (1 + t * t) * Real.sqrt (1 + t * t)) := by
      field_simp
    rw [e, hs2, div_self hp.ne']
  by_cases h0 : theta ≥ 0
  · rw [if_pos h0]
    refine key _ ?_ ?_
    · have : theta + R ≠ 0 := by linarith
      field_simp
      nlinarith
    · rw [div_pow, one_pow, div_le_one (by positivity)]
      nlinarith
  · rw [if_neg h0]
    have hlt : theta - R < 0 := by linarith
    refine key _ ?_ ?_
    · have : theta - R ≠ 0 := by linarith
      field_simp
      nlinarith
    · rw [div_pow, one_pow, div_le_one (by nlinarith)]
      nlinarith

theorem turnBy_numbers {eps : ℝ} (he : 0 < eps) (theta : ℝ) :
    Numbers eps theta (turnBy eps theta).1 (turnBy eps theta).2.1 (turnBy eps theta).2.2 := by
  by_cases h : theta * theta * (theta * theta) < 10 / eps
  · obtain ⟨h1, h2, h3, h4, h5⟩ := turnBy_exact h
    refine ⟨h1, h2, ?_, h3, h4.le, by rw [h4]; linarith, h5.le, by rw [h5]; linarith⟩
    nlinarith [_root_.sq_nonneg (turnBy eps theta).2.2]
  · unfold turnBy
    dsimp only
    rw [if_neg h]
    dsimp only
    have h := not_lt.1 h
    have hth : theta ≠ 0 := by
      rintro rfl
      have : 0 < 10 / eps := by positivity
      simp at h; linarith
    have h2 : 0 < theta ^ 2 := by positivity
    have ht : 1 / (theta * (2 + 0.5 / (theta * theta))) = 2 * theta / (4 * theta ^ 2 + 1) := by
      have : (0.5 : ℝ) = 1 / 2 := by norm_num
      rw [this]
      field_simp
      ring
    rw [ht]
    set t := 2 * theta / (4 * theta ^ 2 + 1) with htd
    have hd : 0 < 4 * theta ^ 2 + 1 := by positivity
    have ht2 : t ^ 2 = 4 * theta ^ 2 / (4 * theta ^ 2 + 1) ^ 2 := by rw [htd]; field_simp; ring
    have hq : 1 / (4 * theta ^ 2 + 1) ^ 2 ≤ eps / 160 := by
      rw [div_le_div_iff₀ (by positivity) (by norm_num)]
      have h' : 10 ≤ theta * theta * (theta * theta) * eps := by rwa [div_le_iff₀ he] at h
      nlinarith [mul_pos he h2]
    have ht4 : t ^ 4 ≤ eps / 160 := by
      have e : t ^ 4 = (4 * theta ^ 2 / (4 * theta ^ 2 + 1)) ^ 2 * (1 / (4 * theta ^ 2 + 1) ^ 2) := by
        have : t ^ 4 = (t ^ 2) ^ 2 := by ring
        rw [this, ht2]; field_simp
      have h1 : (4 * theta ^ 2 / (4 * theta ^ 2 + 1)) ^ 2 ≤ 1 := by
        apply pow_le_one₀ (by positivity)
        rw [div_le_one hd]; linarith
      rw [e]
      calc _ ≤ 1 * (1 / (4 * theta ^ 2 + 1) ^ 2) := mul_le_mul_of_nonneg_right h1 (by positivity)
        _ ≤ _ := by rw [one_mul]; exact hq
    have htle : t ^ 2 ≤ 1 / 4 := by
      rw [ht2, div_le_div_iff₀ (by positivity) (by norm_num)]
      nlinarith [_root_.sq_nonneg (4 * theta ^ 2 - 1)]
    have hr : t ^ 2 + 2 * theta * t - 1 = -(1 / (4 * theta ^ 2 + 1) ^ 2) := by
      rw [htd]; field_simp; ring
    have hg : (1 - 0.5 * t * t) ^ 2 + ((1 - 0.5 * t * t) * t) ^ 2 = 1 - 3 / 4 * t ^ 4 + 1 / 4 * (t ^ 4 * t ^ 2) := by
      norm_num; ring
    have h4 : 0 ≤ t ^ 4 := by positivity
    have h6 : t ^ 4 * t ^ 2 ≤ t ^ 4 * (1 / 4) := mul_le_mul_of_nonneg_left htle h4
    have h6' : 0 ≤ t ^ 4 * t ^ 2 := by positivity
    have hc : 1 - 0.5 * t * t = 1 - t ^ 2 / 2 := by norm_num; ring
    refine ⟨rfl, ?_, ?_, by linarith, ?_, ?_, ?_, ?_⟩
    · rw [hc]; linarith
    · rw [hc]; have := _root_.sq_nonneg t; linarith
    · rw [hg]; linarith
    · rw [hg]; linarith
    · rw [hr]; have : 0 ≤ 1 / (4 * theta ^ 2 + 1) ^ 2 := by positivity
      linarith
    · rw [hr]; linarith

/-- What one round does. -/
structure Round (eps : ℝ) (k : ℝ) (m m' : M3) (j : M3) : Prop where
  symm : m'ᵀ = m'
  trace : m'.trace = m.trace
  sizeLe : size m' ≤ size m
  offLe : off m' ≤ 2 / 3 * off m
  offMax : off m' ≤ 4 * k ^ 2
  err : size (m - j * m' * jᵀ) ≤ eps / 50 * size m
  ortho : size (1 - j * jᵀ) ≤ eps / 100
  contracts : ∀ x : M3, size (j * x * jᵀ) ≤ size x
  det : eps ≤ 1 → 0 < j.det

set_option maxHeartbeats 2000000 in
theorem turn_round {eps : ℝ} (he : 0 < eps) {p q r : Fin 3} (hp : Place p q r) {m : M3} (hs : mᵀ = m) (rot : M3) (h0 : m p q ≠ 0)
    (h1 : |m r p| ≤ |m p q|) (h2 : |m r q| ≤ |m p q|) :
    ∃ m' j, turn eps p q r m rot = some (m', rot * j) ∧ Round eps (m p q) m m' j := by
  have hsym (i k) : m i k = m k i := congrFun (congrFun hs k) i
  have s1 := hsym q p; have s2 := hsym p r; have s3 := hsym q r
  have N := turnBy_numbers he ((m q q - m p p) / (2 * m p q))
  have hturn : turn eps p q r m rot = some (turnMatrix p q r (turnBy eps ((m q q - m p p) / (2 * m p q))).1
      (turnBy eps ((m q q - m p p) / (2 * m p q))).2.1 (turnBy eps ((m q q - m p p) / (2 * m p q))).2.2 (m p q) m,
      turnRot p q (turnBy eps ((m q q - m p p) / (2 * m p q))).2.1 (turnBy eps ((m q q - m p p) / (2 * m p q))).2.2 rot) := by
    simp only [turn, if_neg h0]
  rw [hturn]
  set th := (m q q - m p p) / (2 * m p q) with hth
  clear hturn
  generalize (turnBy eps th).1 = t at N ⊢
  generalize (turnBy eps th).2.1 = c at N ⊢
  generalize (turnBy eps th).2.2 = s at N ⊢
  obtain ⟨n1, n2, n3, n4, n5, n6, n7, n8⟩ := N
  have hqq : m q q = m p p + 2 * th * m p q := by
    rw [hth]; field_simp; ring
  obtain ⟨m1, m2, m3, m4, m5, m6, m7, m8, m9⟩ := turnMatrix_el hp t c s (m p q) m
  obtain ⟨j1, j2, j3, j4, j5, j6, j7, j8, j9⟩ := J_el hp c s
  have q1 : m r p ^ 2 ≤ m p q ^ 2 := sq_le_sq.2 h1
  have q2 : m r q ^ 2 ≤ m p q ^ 2 := sq_le_sq.2 h2
  refine ⟨_, _, by rw [turnRot_eq hp], ?_⟩
  set m' := turnMatrix p q r t c s (m p q) m with hm'
  have hrot : m' r p ^ 2 + m' r q ^ 2 = (c ^ 2 + s ^ 2) * (m r p ^ 2 + m r q ^ 2) := by rw [m6, m8]; ring
  have hrot' : m' r p ^ 2 + m' r q ^ 2 ≤ m r p ^ 2 + m r q ^ 2 := by
    have := mul_le_mul_of_nonneg_right n5 (add_nonneg (_root_.sq_nonneg (m r p)) (_root_.sq_nonneg (m r q)))
    linarith
  have hoff : off m' = 2 * (m' r p ^ 2 + m' r q ^ 2) := by rw [hp.off, m4, m5, m7, m9, ← m6, ← m8]; ring
  have hoff0 : off m = 2 * m p q ^ 2 + 2 * (m r p ^ 2 + m r q ^ 2) := by rw [hp.off, s1, s2, s3]; ring
  have hsq0 : sq m = m p p ^ 2 + m q q ^ 2 + m r r ^ 2 + 2 * m p q ^ 2 + 2 * (m r p ^ 2 + m r q ^ 2) := by
    rw [hp.sq, s1, s2, s3]; ring
  set u := 1 - (c ^ 2 + s ^ 2) with hu
  set d := t ^ 2 + 2 * th * t - 1 with hd
  have hu0 : 0 ≤ u := by linarith
  have hu1 : u ≤ eps / 200 := by linarith
  constructor
  · apply hp.ext <;> simp only [Matrix.transpose_apply] <;> simp only [m1, m2, m3, m4, m5, m6, m7, m8, m9]
  · unfold Matrix.trace
    rw [hp.sum, hp.sum]
    simp only [Matrix.diag_apply, m1, m2, m3]; ring
  · rw [size_le_iff]
    have e : sq m' = m' p p ^ 2 + m' q q ^ 2 + m' r r ^ 2 + 2 * (m' r p ^ 2 + m' r q ^ 2) := by
      rw [hp.sq, m4, m5, m7, m9, ← m6, ← m8]; ring
    have e2 : m' p p ^ 2 + m' q q ^ 2 = m p p ^ 2 + m q q ^ 2 + 2 * m p q ^ 2 * (1 + d) := by
      rw [m1, m2, hqq, hd]; ring
    have : m p q ^ 2 * d ≤ 0 := mul_nonpos_of_nonneg_of_nonpos (_root_.sq_nonneg _) n7
    rw [e, e2, hsq0, m3]; linarith
  · rw [hoff, hoff0]; linarith
  · rw [hoff]; linarith
  · have d0 : 0 ≤ -d := by linarith
    have d1 : -d ≤ eps / 160 := by linarith
    have cc : c ^ 2 ≤ 1 := pow_le_one₀ n2 n3
    have w0 : 0 ≤ c ^ 2 * -d := mul_nonneg (_root_.sq_nonneg c) d0
    have w1 : c ^ 2 * -d ≤ eps / 160 := by
      calc c ^ 2 * -d ≤ 1 * -d := mul_le_mul_of_nonneg_right cc d0
        _ ≤ _ := by linarith
    set w := c ^ 2 * -d with hw
    set E := m - J p q c s * m' * (J p q c s)ᵀ with hE
    have el : ∀ a b, E a b = m a b - (J p q c s * m' * (J p q c s)ᵀ) a b := fun a b => rfl
    have E1 : E p p = u * m p p + m p q * t * w := by
      rw [el]
      simp only [Matrix.mul_apply, Matrix.transpose_apply, hp.sum, j1, j2, j3, j4, j5, j6, j7, j8, j9, m1, m2, m3, m4, m5, m6, m7, m8, m9, hqq, hu, hw, hd]
      simp only [n1]
      ring
    have E2 : E q q = u * m q q - m p q * t * w := by
      rw [el]
      simp only [Matrix.mul_apply, Matrix.transpose_apply, hp.sum, j1, j2, j3, j4, j5, j6, j7, j8, j9, m1, m2, m3, m4, m5, m6, m7, m8, m9, hqq, hu, hw, hd]
      simp only [n1]
      ring
    have E3 : E r r = 0 := by
      rw [el]
      simp only [Matrix.mul_apply, Matrix.transpose_apply, hp.sum, j1, j2, j3, j4, j5, j6, j7, j8, j9, m1, m2, m3, m4, m5, m6, m7, m8, m9]
      ring
    have E4 : E p q = m p q * (u + w) := by
      rw [el]
      simp only [Matrix.mul_apply, Matrix.transpose_apply, hp.sum, j1, j2, j3, j4, j5, j6, j7, j8, j9, m1, m2, m3, m4, m5, m6, m7, m8, m9, hqq, hu, hw, hd]
      simp only [n1]
      ring
    have E5 : E q p = m p q * (u + w) := by
      rw [el]
      simp only [Matrix.mul_apply, Matrix.transpose_apply, hp.sum, j1, j2, j3, j4, j5, j6, j7, j8, j9, m1, m2, m3, m4, m5, m6, m7, m8, m9, hqq, s1, hu, hw, hd]
      simp only [n1]
      ring
    have E6 : E r p = u * m r p := by
      rw [el]
      simp only [Matrix.mul_apply, Matrix.transpose_apply, hp.sum, j1, j2, j3, j4, j5, j6, j7, j8, j9, m1, m2, m3, m4, m5, m6, m7, m8, m9, hu]
      ring
    have E7 : E p r = u * m r p := by
      rw [el]
      simp only [Matrix.mul_apply, Matrix.transpose_apply, hp.sum, j1, j2, j3, j4, j5, j6, j7, j8, j9, m1, m2, m3, m4, m5, m6, m7, m8, m9, s2, hu]
      ring
    have E8 : E r q = u * m r q := by
      rw [el]
      simp only [Matrix.mul_apply, Matrix.transpose_apply, hp.sum, j1, j2, j3, j4, j5, j6, j7, j8, j9, m1, m2, m3, m4, m5, m6, m7, m8, m9, hu]
      ring
    have E9 : E q r = u * m r q := by
      rw [el]
      simp only [Matrix.mul_apply, Matrix.transpose_apply, hp.sum, j1, j2, j3, j4, j5, j6, j7, j8, j9, m1, m2, m3, m4, m5, m6, m7, m8, m9, s3, hu]
      ring
    refine size_le_of_sq (mul_nonneg (by positivity) (size_nonneg m)) ?_
    rw [mul_pow, size_sq, hp.sq, E1, E2, E3, E4, E5, E6, E7, E8, E9]
    have two : ∀ x y : ℝ, (x + y) ^ 2 ≤ 2 * x ^ 2 + 2 * y ^ 2 := fun x y => by nlinarith [_root_.sq_nonneg (x - y)]
    have b1 := two (u * m p p) (m p q * t * w)
    have b2 := two (u * m q q) (-(m p q * t * w))
    have b3 := two (m p q * u) (m p q * w)
    have u2 : u ^ 2 ≤ (eps / 200) ^ 2 := pow_le_pow_left₀ hu0 hu1 2
    have w2 : w ^ 2 ≤ (eps / 160) ^ 2 := pow_le_pow_left₀ w0 w1 2
    have tw : t ^ 2 * w ^ 2 ≤ (eps / 160) ^ 2 := by
      calc t ^ 2 * w ^ 2 ≤ 1 * w ^ 2 := mul_le_mul_of_nonneg_right n4 (_root_.sq_nonneg w)
        _ ≤ _ := by linarith
    have hmp := _root_.sq_nonneg (m p q)
    have c1 := mul_le_mul_of_nonneg_left tw hmp
    have c2 := mul_le_mul_of_nonneg_left w2 hmp
    have c3 := mul_le_mul_of_nonneg_left u2 (sq_nonneg m)
    have hrr := _root_.sq_nonneg (m r r)
    have k1 : (u * m p p + m p q * t * w) ^ 2 + (u * m q q - m p q * t * w) ^ 2 + 0 ^ 2 + (m p q * (u + w)) ^ 2 + (m p q * (u + w)) ^ 2 +
        (u * m r p) ^ 2 + (u * m r p) ^ 2 + (u * m r q) ^ 2 + (u * m r q) ^ 2 ≤
        2 * (sq m * u ^ 2) + 4 * (m p q ^ 2 * (t ^ 2 * w ^ 2)) + 4 * (m p q ^ 2 * w ^ 2) := by
      have z1 : 0 ≤ u ^ 2 * m r r ^ 2 := by positivity
      have z2 : 0 ≤ u ^ 2 * m r p ^ 2 := by positivity
      have z3 : 0 ≤ u ^ 2 * m r q ^ 2 := by positivity
      rw [hsq0]
      linarith [b1, b2, b3, z1, z2, z3]
    have hm2 : 2 * m p q ^ 2 ≤ sq m := by
      rw [hsq0]; linarith [_root_.sq_nonneg (m p p), _root_.sq_nonneg (m q q), _root_.sq_nonneg (m r p), _root_.sq_nonneg (m r q)]
    have c4 := mul_le_mul_of_nonneg_right hm2 (_root_.sq_nonneg (eps / 160))
    have c5 : 0 ≤ sq m * eps ^ 2 := mul_nonneg (sq_nonneg m) (_root_.sq_nonneg eps)
    refine k1.trans ?_
    linarith
  · refine size_le_of_sq (by positivity) ?_
    rw [hp.sq]
    have hne : p ≠ q ∧ p ≠ r ∧ q ≠ r := by cases hp <;> decide
    simp only [Matrix.sub_apply, Matrix.one_apply, Matrix.mul_apply, Matrix.transpose_apply, hp.sum, j1, j2, j3, j4, j5, j6, j7, j8, j9,
      hne.1, hne.2.1, hne.2.2, hne.1.symm, hne.2.1.symm, hne.2.2.symm, if_true, if_false]
    have u2 : u ^ 2 ≤ (eps / 200) ^ 2 := pow_le_pow_left₀ hu0 hu1 2
    have : (1 - (c * c + s * s + 0 * 0)) = u := by rw [hu]; ring
    have e : (1 - (c * c + s * s + 0 * 0)) ^ 2 + (1 - (-s * -s + c * c + 0 * 0)) ^ 2 + (1 - (0 * 0 + 0 * 0 + 1 * 1)) ^ 2 +
        (0 - (c * -s + s * c + 0 * 0)) ^ 2 + (0 - (-s * c + c * s + 0 * 0)) ^ 2 + (0 - (0 * c + 0 * s + 1 * 0)) ^ 2 +
        (0 - (c * 0 + s * 0 + 0 * 1)) ^ 2 + (0 - (0 * -s + 0 * c + 1 * 0)) ^ 2 + (0 - (-s * 0 + c * 0 + 0 * 1)) ^ 2 = 2 * u ^ 2 := by
      rw [hu]; ring
    rw [e]
    linarith [_root_.sq_nonneg eps]
  · exact J_contracts hp n5
  · intro he1
    have : (J p q c s).det = c ^ 2 + s ^ 2 := by
      cases hp <;> simp [Matrix.det_fin_three, J] <;> ring
    rw [this]; linarith

/-- What a whole run does: from `m` to `m'`, with `j` the product of the rotations of `n` rounds at most. -/
structure Run (eps thr : ℝ) (n : Nat) (m m' j : M3) : Prop where
  symm : m'ᵀ = m'
  trace : m'.trace = m.trace
  sizeLe : size m' ≤ size m
  offLe : off m' ≤ off m
  stop : off m' ≤ (2 / 3) ^ n * off m ∨ off m' ≤ 18 * (thr * size m) ^ 2
  err : size (m - j * m' * jᵀ) ≤ n * (eps / 50) * size m
  ortho : size (1 - j * jᵀ) ≤ n * (eps / 100)
  contracts : ∀ x : M3, size (j * x * jᵀ) ≤ size x
  det : 0 < j.det

theorem off_nonneg (m : M3) : 0 ≤ off m :=
  Finset.sum_nonneg (fun _ _ => Finset.sum_nonneg (fun _ _ => by split; exact le_rfl; exact _root_.sq_nonneg _))

theorem size_zero : size (0 : M3) = 0 := by simp [size]

theorem Run.none (eps thr : ℝ) (he : 0 < eps) (n : Nat) {m : M3} (hs : mᵀ = m)
    (h : off m ≤ (2 / 3) ^ n * off m ∨ off m ≤ 18 * (thr * size m) ^ 2) : Run eps thr n m m 1 where
  symm := hs
  trace := rfl
  sizeLe := le_rfl
  offLe := le_rfl
  stop := h
  err := by simp only [Matrix.one_mul, Matrix.transpose_one, Matrix.mul_one, sub_self, size_zero]; have := size_nonneg m; positivity
  ortho := by simp only [Matrix.transpose_one, Matrix.mul_one, sub_self, size_zero]; positivity
  contracts := fun x => by simp
  det := by simp

/-- One round and the rest. -/
theorem Run.cons {eps thr k : ℝ} (he : 0 < eps) (he1 : eps ≤ 1) {n : Nat} {m m1 m' j j' : M3} (h1 : Round eps k m m1 j)
    (h2 : Run eps thr n m1 m' j') (ht : 0 ≤ thr) : Run eps thr (n + 1) m m' (j * j') where
  symm := h2.symm
  trace := h2.trace.trans h1.trace
  sizeLe := h2.sizeLe.trans h1.sizeLe
  offLe := by have := h2.offLe; have := h1.offLe; have := off_nonneg m; linarith
  stop := by
    rcases h2.stop with h | h
    · left
      have h3 : (2 / 3 : ℝ) ^ n * off m1 ≤ (2 / 3) ^ n * (2 / 3 * off m) := mul_le_mul_of_nonneg_left h1.offLe (by positivity)
      rw [pow_succ]; linarith
    · right
      refine h.trans ?_
      have := pow_le_pow_left₀ (mul_nonneg ht (size_nonneg m1)) (mul_le_mul_of_nonneg_left h1.sizeLe ht) 2
      linarith
  err := by
    have e : m - j * j' * m' * (j * j')ᵀ = (m - j * m1 * jᵀ) + j * (m1 - j' * m' * j'ᵀ) * jᵀ := by
      rw [Matrix.transpose_mul, Matrix.mul_sub, Matrix.sub_mul]; simp only [Matrix.mul_assoc]; abel
    rw [e]
    refine (size_add _ _).trans ?_
    have a1 := h1.err
    have a2 := (h1.contracts (m1 - j' * m' * j'ᵀ)).trans h2.err
    have a3 : (n : ℝ) * (eps / 50) * size m1 ≤ n * (eps / 50) * size m := mul_le_mul_of_nonneg_left h1.sizeLe (by positivity)
    push_cast
    linarith
  ortho := by
    have e : 1 - j * j' * (j * j')ᵀ = (1 - j * jᵀ) + j * (1 - j' * j'ᵀ) * jᵀ := by
      rw [Matrix.transpose_mul, Matrix.mul_sub, Matrix.sub_mul, Matrix.mul_one]; simp only [Matrix.mul_assoc]; abel
    rw [e]
    refine (size_add _ _).trans ?_
    have a1 := h1.ortho
    have a2 := (h1.contracts (1 - j' * j'ᵀ)).trans h2.ortho
    push_cast
    linarith
  contracts := fun x => by
    have e : j * j' * x * (j * j')ᵀ = j * (j' * x * j'ᵀ) * jᵀ := by
      rw [Matrix.transpose_mul]; simp only [Matrix.mul_assoc]
    rw [e]; exact (h1.contracts _).trans (h2.contracts x)
  det := by rw [Matrix.det_mul]; exact mul_pos (h1.det he1) h2.det

theorem diag_sum_le (m : M3) : (|m 0 0| + |m 1 1| + |m 2 2|) ^ 2 ≤ 3 * size m ^ 2 := by
  rw [size_sq, Place.sq .a]
  have h0 := sq_abs (m 0 0); have h1 := sq_abs (m 1 1); have h2 := sq_abs (m 2 2)
  have := _root_.sq_nonneg (|m 0 0| - |m 1 1|)
  have := _root_.sq_nonneg (|m 1 1| - |m 2 2|)
  have := _root_.sq_nonneg (|m 0 0| - |m 2 2|)
  have := _root_.sq_nonneg (m 0 1); have := _root_.sq_nonneg (m 1 0); have := _root_.sq_nonneg (m 0 2)
  have := _root_.sq_nonneg (m 2 0); have := _root_.sq_nonneg (m 1 2); have := _root_.sq_nonneg (m 2 1)
  linarith

theorem diagLoop_run {eps thr : ℝ} (he : 0 < eps) (he1 : eps ≤ 1) (ht : 0 ≤ thr) : ∀ (n : Nat) (m rot : M3), mᵀ = m →
    ∃ m' j, diagLoop eps thr n m rot = some (m', rot * j) ∧ Run eps thr n m m' j
  | 0, m, rot, hs => ⟨m, 1, by simp [diagLoop], Run.none eps thr he 0 hs (Or.inl (by simp))⟩
  | n + 1, m, rot, hs => by
    obtain ⟨p, q, r, hp, hl, h1, h2⟩ := largest_spec m hs
    have hsym (i k) : m i k = m k i := congrFun (congrFun hs k) i
    have s1 := hsym q p; have s2 := hsym p r; have s3 := hsym q r
    have hS := diag_sum_le m
    have hS0 : 0 ≤ |m 0 0| + |m 1 1| + |m 2 2| := by positivity
    have hT : (thr * (|m 0 0| + |m 1 1| + |m 2 2|)) ^ 2 ≤ 3 * (thr * size m) ^ 2 := by
      rw [mul_pow, mul_pow]
      have := mul_le_mul_of_nonneg_left hS (_root_.sq_nonneg thr)
      linarith
    have hT0 : 0 ≤ thr * (|m 0 0| + |m 1 1| + |m 2 2|) := mul_nonneg ht hS0
    unfold diagLoop
    simp only [hl]
    generalize thr * (|m 0 0| + |m 1 1| + |m 2 2|) = T at hT hT0
    by_cases hc : |m p q| ≤ T
    · rw [if_pos hc]
      have hq : m p q ^ 2 ≤ T ^ 2 := by rw [← sq_abs]; exact pow_le_pow_left₀ (abs_nonneg _) hc 2
      by_cases hc2 : |m p q| ≤ eps * T
      · rw [if_pos hc2]
        refine ⟨m, 1, by rw [Matrix.mul_one], Run.none eps thr he _ hs (Or.inr ?_)⟩
        rw [hp.off, s1, s2, s3]
        have q1 : m r p ^ 2 ≤ m p q ^ 2 := sq_le_sq.2 h1
        have q2 : m r q ^ 2 ≤ m p q ^ 2 := sq_le_sq.2 h2
        linarith
      · rw [if_neg hc2]
        have h0 : m p q ≠ 0 := by
          intro h; rw [h, abs_zero] at hc2; exact hc2 (by positivity)
        obtain ⟨m', j, ht', hr⟩ := turn_round he hp hs rot h0 h1 h2
        refine ⟨m', j, ht', ?_⟩
        have hn := Run.none eps thr he 0 hr.symm (Or.inl (by simp))
        have hc := Run.cons he he1 hr hn ht
        rw [Matrix.mul_one] at hc
        have hcast : (1 : ℝ) ≤ ((n + 1 : Nat) : ℝ) := by push_cast; have : (0 : ℝ) ≤ n := Nat.cast_nonneg n; linarith
        refine ⟨hc.symm, hc.trace, hc.sizeLe, hc.offLe, Or.inr ?_, hc.err.trans ?_, hc.ortho.trans ?_, hc.contracts, hc.det⟩
        · have := hr.offMax; have := _root_.sq_nonneg (thr * size m); linarith
        · have h3 : 0 ≤ eps / 50 * size m := mul_nonneg (by positivity) (size_nonneg m)
          have := mul_le_mul_of_nonneg_right hcast h3
          push_cast at this ⊢
          linarith
        · have := mul_le_mul_of_nonneg_right hcast (by positivity : 0 ≤ eps / 100)
          push_cast at this ⊢
          linarith
    · rw [if_neg hc]
      have h0 : m p q ≠ 0 := by
        intro h; rw [h, abs_zero] at hc; exact hc hT0
      obtain ⟨m1, j, ht', hr⟩ := turn_round he hp hs rot h0 h1 h2
      rw [ht']
      dsimp only
      obtain ⟨m', j', hd, hrun⟩ := diagLoop_run he he1 ht n m1 (rot * j) hr.symm
      exact ⟨m', j * j', by rw [hd, Matrix.mul_assoc], Run.cons he he1 hr hrun ht⟩

end Tf2.Diag
