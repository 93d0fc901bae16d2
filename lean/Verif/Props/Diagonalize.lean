import Verif.Proofs.Diagonalize
import Mathlib.Analysis.SpecificLimits.Basic

/-!
# Properties of `Matrix3x3::diagonalize`: C76
-/
namespace Tf2.Diag

open Matrix

/-- **C76.** For every symmetric matrix, threshold and number of steps: no division by zero; `rot` and the new matrix
give the old one back, `old = rot * new * rotᵀ`, and `rot` is a rotation, both up to the precision of the machine once
per step; the new matrix is symmetric and has the same trace, and it is no larger and no further from diagonal. -/
theorem C76_similar {eps threshold : ℝ} (he : 0 < eps) (he1 : eps ≤ 1) (ht : 0 ≤ threshold) (m : M3) (hs : mᵀ = m)
    (maxSteps : Int) : ∃ new rot, diagonalize eps m threshold maxSteps = some (new, rot) ∧
      newᵀ = new ∧ new.trace = m.trace ∧ size new ≤ size m ∧ off new ≤ off m ∧
      size (m - rot * new * rotᵀ) ≤ maxSteps.toNat * (eps / 50) * size m ∧
      size (1 - rot * rotᵀ) ≤ maxSteps.toNat * (eps / 100) ∧ 0 < rot.det := by
  obtain ⟨new, j, hd, hr⟩ := diagLoop_run he he1 ht maxSteps.toNat m 1 hs
  rw [Matrix.one_mul] at hd
  exact ⟨new, j, hd, hr.symm, hr.trace, hr.sizeLe, hr.offLe, hr.err, hr.ortho, hr.det⟩

/-- **C76, progress.** Each step takes away a third of what is off the diagonal, unless the threshold is reached, in
the order of the threshold times the size of the matrix. -/
theorem C76_progress {eps threshold : ℝ} (he : 0 < eps) (he1 : eps ≤ 1) (ht : 0 ≤ threshold) (m : M3) (hs : mᵀ = m)
    (maxSteps : Int) {new rot : M3} (h : diagonalize eps m threshold maxSteps = some (new, rot)) :
    off new ≤ (2 / 3) ^ maxSteps.toNat * off m ∨ off new ≤ 18 * (threshold * size m) ^ 2 := by
  obtain ⟨new', j, hd, hr⟩ := diagLoop_run he he1 ht maxSteps.toNat m 1 hs
  have e : some (new', 1 * j) = some (new, rot) := hd.symm.trans h
  have := congrArg Prod.fst (Option.some.inj e)
  dsimp only at this
  rw [← this]
  exact hr.stop

/-- **C76, convergence.** With threshold zero, enough steps make the matrix as diagonal as one likes. -/
theorem C76_converges {eps : ℝ} (he : 0 < eps) (he1 : eps ≤ 1) (m : M3) (hs : mᵀ = m) {d : ℝ} (hd : 0 < d) :
    ∃ N : Nat, ∀ maxSteps : Int, (N : Int) ≤ maxSteps → ∃ new rot, diagonalize eps m 0 maxSteps = some (new, rot) ∧ off new < d := by
  have hlim : Filter.Tendsto (fun n : Nat => (2 / 3 : ℝ) ^ n * off m) Filter.atTop (nhds (0 * off m)) :=
    (tendsto_pow_atTop_nhds_zero_of_lt_one (by norm_num) (by norm_num)).mul_const _
  rw [zero_mul] at hlim
  obtain ⟨N, hN⟩ := Filter.eventually_atTop.1 (hlim.eventually (gt_mem_nhds hd))
  refine ⟨N, fun maxSteps hle => ?_⟩
  obtain ⟨new, rot, h, -⟩ := C76_similar he he1 (le_refl (0 : ℝ)) m hs maxSteps
  refine ⟨new, rot, h, ?_⟩
  rcases C76_progress he he1 (le_refl (0 : ℝ)) m hs maxSteps h with h1 | h1
  · exact h1.trans_lt (hN _ (by omega))
  · have : (18 : ℝ) * (0 * size m) ^ 2 = 0 := by ring
    linarith

/-- The hypotheses are met by a matrix that is not diagonal, and two matrices with the same trace and size are told
apart by `off`. -/
example : let m : M3 := !![2, 1, 0; 1, 2, 3; 0, 3, -1]
    mᵀ = m ∧ off m = 20 ∧ m.trace = 3 ∧ size m ^ 2 = 29 := by
  refine ⟨?_, ?_, ?_, ?_⟩
  · ext i j; fin_cases i <;> fin_cases j <;> rfl
  · rw [Place.off .a]; simp; norm_num
  · simp [Matrix.trace, Fin.sum_univ_three]; norm_num
  · rw [size_sq, Place.sq .a]; simp; norm_num

/-- **C76 (finding).** `rot` is not exactly a rotation, even in exact arithmetic: for a matrix that is nearly diagonal the
approximation of the angle makes it shrink. -/
theorem C76_approximation_finding {eps : ℝ} (he : 0 < eps) : ∃ m : M3, mᵀ = m ∧ ∃ new rot, diagonalize eps m 0 1 = some (new, rot) ∧
    rot * rotᵀ ≠ 1 := by
  let th : ℝ := 1 + 10 / eps
  have h10 : 0 < 10 / eps := by positivity
  have hth : 1 < th := by simp only [th]; linarith
  let m : M3 := !![0, 1, 0; 1, 2 * th, 0; 0, 0, 0]
  have hs : mᵀ = m := by ext i j; fin_cases i <;> fin_cases j <;> rfl
  have hl : largest m = (0, 1, 2, 1) := by
    have : ¬ (1 : ℝ) < 0 := by norm_num
    simp [largest, m, this]
  have hbig : ¬ th * th * (th * th) < 10 / eps := by
    have h1 : th ≤ th * th := by nlinarith
    have h2 : 1 ≤ th * th := by nlinarith
    have h3 : th ≤ th * th * (th * th) := by nlinarith
    simp only [not_lt]
    have : 10 / eps ≤ th := by simp only [th]; linarith
    linarith
  have hturn : turn eps 0 1 2 m 1 = some (turnMatrix 0 1 2 (turnBy eps th).1 (turnBy eps th).2.1 (turnBy eps th).2.2 (m 0 1) m,
      turnRot 0 1 (turnBy eps th).2.1 (turnBy eps th).2.2 1) := by
    have h01 : m 0 1 = 1 := rfl
    have e : (m 1 1 - m 0 0) / (2 * m 0 1) = th := by
      have h11 : m 1 1 = 2 * th := rfl
      have h00 : m 0 0 = 0 := rfl
      rw [h01, h11, h00]; ring
    simp only [turn, e]
    rw [if_neg (by rw [h01]; norm_num)]
  have hd : diagonalize eps m 0 1 = turn eps 0 1 2 m 1 := by
    show diagLoop eps 0 1 m 1 = _
    unfold diagLoop
    simp only [hl, zero_mul]
    rw [if_neg (by norm_num), hturn]
    rfl
  refine ⟨m, hs, _, _, hd.trans hturn, ?_⟩
  intro h
  rw [turnRot_eq .a, Matrix.one_mul] at h
  have h00 := congrFun (congrFun h 0) 0
  simp only [Matrix.mul_apply, Matrix.transpose_apply, Fin.sum_univ_three, Matrix.one_apply_eq] at h00
  obtain ⟨j1, j2, j3, j4, j5, j6, j7, j8, j9⟩ := J_el .a (turnBy eps th).2.1 (turnBy eps th).2.2
  rw [j1, j4, j7] at h00
  unfold turnBy at h00
  rw [if_neg hbig] at h00
  dsimp only at h00
  set t := 1 / (th * (2 + 0.5 / (th * th))) with htd
  have htp : 0 < t := by
    have : 0 < th := by linarith
    positivity
  have htle : t < 1 := by
    rw [htd, div_lt_one (by have : 0 < th := by linarith
                            positivity)]
    have : 0 < 0.5 / (th * th) := by have : 0 < th := by linarith
                                     positivity
    nlinarith
  have hg : (1 - 0.5 * t * t) * (1 - 0.5 * t * t) + (1 - 0.5 * t * t) * t * ((1 - 0.5 * t * t) * t) + 0 * 0 =
      1 - t ^ 4 * (3 / 4 - t ^ 2 / 4) := by
    norm_num; ring
  rw [hg] at h00
  have h4 : 0 < t ^ 4 := by positivity
  have h5 : 0 < 3 / 4 - t ^ 2 / 4 := by nlinarith
  have := mul_pos h4 h5
  linarith

/-- **C76 (finding).** A negative threshold divides by zero as soon as the matrix is diagonal. -/
theorem C76_negative_threshold_finding (eps : ℝ) : diagonalize eps 1 (-1) 1 = none := by
  show diagLoop eps (-1) 1 1 1 = none
  have hl : largest (1 : M3) = (0, 1, 2, 0) := by simp [largest]
  unfold diagLoop
  simp only [hl, Matrix.one_apply_eq]
  rw [if_neg (by norm_num)]
  simp [turn]

end Tf2.Diag
