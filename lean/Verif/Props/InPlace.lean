import Verif.Model.InPlace
import Mathlib.Tactic.Ring
import Mathlib.Tactic.Linarith
import Mathlib.Tactic.FieldSimp
import Mathlib.Tactic.IntervalCases

/-!
# Operations that write into their operands: C80
-/
namespace Tf2.InPlace

/-- Two objects of `n` and `m` cells have no cell in common. -/
def Apart (a n b m : Nat) : Prop := a + n ≤ b ∨ b + m ≤ a

instance (a n b m : Nat) : Decidable (Apart a n b m) := by unfold Apart; infer_instance

/-- Two objects of the same type, of `n` cells: the same one or apart. -/
def SameOrApart (a b n : Nat) : Prop := a = b ∨ Apart a n b n

/-- Nothing but the `n` cells from `a` has changed. -/
def Only {K : Type} (h h' : Mem K) (a n : Nat) : Prop := ∀ c, (c < a ∨ a + n ≤ c) → h' c = h c

section
variable {K : Type}

theorem write_self (h : Mem K) (a : Nat) (x : K) : write h a x a = x := if_pos rfl
theorem write_ne (h : Mem K) {a c : Nat} (x : K) (e : c ≠ a) : write h a x c = h c := if_neg e

end

section
variable {K : Type} [CommRing K]

theorem setVec_vec (h : Mem K) (a : Nat) (v : Vec3 K) : vec (setVec h a v) a = v := by
  simp [setVec, setValue, vec, write, Arg.read]

theorem setVec_only (h : Mem K) (a : Nat) (v : Vec3 K) : Only h (setVec h a v) a 4 := by
  intro c hc
  simp only [setVec, setValue, write, Arg.read]
  rw [if_neg (by omega), if_neg (by omega), if_neg (by omega), if_neg (by omega)]

theorem vec_congr {h h' : Mem K} {a : Nat} (e : ∀ c, a ≤ c → c < a + 3 → h' c = h c) : vec h' a = vec h a := by
  simp only [vec]
  rw [e a (by omega) (by omega), e (a + 1) (by omega) (by omega), e (a + 2) (by omega) (by omega)]

theorem setMat_eq (h : Mem K) (a : Nat) (m : Mat3 K) :
    setMat h a m = setVec (setVec (setVec h a m.r0) (a + 4) m.r1) (a + 8) m.r2 := rfl

theorem setMat_mat (h : Mem K) (a : Nat) (m : Mat3 K) : mat (setMat h a m) a = m := by
  rw [setMat_eq]
  simp only [mat]
  rw [vec_congr (fun c h1 h2 => setVec_only _ (a + 8) _ c (by omega)),
    vec_congr (fun c h1 h2 => setVec_only _ (a + 4) _ c (by omega)), setVec_vec,
    vec_congr (fun c h1 h2 => setVec_only _ (a + 8) _ c (by omega)), setVec_vec, setVec_vec]

theorem setMat_only (h : Mem K) (a : Nat) (m : Mat3 K) : Only h (setMat h a m) a 12 := by
  intro c hc
  rw [setMat_eq, setVec_only _ _ _ c (by omega), setVec_only _ _ _ c (by omega), setVec_only _ _ _ c (by omega)]

theorem mat_congr {h h' : Mem K} {a : Nat} (e : ∀ c, a ≤ c → c < a + 12 → h' c = h c) : mat h' a = mat h a := by
  simp only [mat]
  rw [vec_congr (fun c h1 h2 => e c (by omega) (by omega)), vec_congr (fun c h1 h2 => e c (by omega) (by omega)),
    vec_congr (fun c h1 h2 => e c (by omega) (by omega))]

/-- **C80.** `v += w`, `v -= w`, `v *= w` of vectors compute sum, difference and product by components, also when `w` is `v`
itself, and write nothing but `v`. -/
theorem C80_vectors (h : Mem K) {a b : Nat} (hab : SameOrApart a b 4) :
    vec (addVec h a b) a = (vec h a).add (vec h b) ∧ Only h (addVec h a b) a 3 ∧
    vec (subVec h a b) a = (vec h a).sub (vec h b) ∧ Only h (subVec h a b) a 3 ∧
    vec (mulVec h a b) a = ⟨h a * h b, h (a + 1) * h (b + 1), h (a + 2) * h (b + 2)⟩ ∧ Only h (mulVec h a b) a 3 := by
  have e1 : b + 1 ≠ a := by rcases hab with h | h | h <;> omega
  have e2 : b + 2 ≠ a := by rcases hab with h | h | h <;> omega
  have e3 : b + 2 ≠ a + 1 := by rcases hab with h | h | h <;> omega
  refine ⟨?_, fun c hc => ?_, ?_, fun c hc => ?_, ?_, fun c hc => ?_⟩
  · simp [addVec, vec, Vec3.add, write, e1, e2, e3]
  · have n1 : c ≠ a := by omega
    have n2 : c ≠ a + 1 := by omega
    have n3 : c ≠ a + 2 := by omega
    simp [addVec, write, n1, n2, n3]
  · simp [subVec, vec, Vec3.sub, write, e1, e2, e3]
  · have n1 : c ≠ a := by omega
    have n2 : c ≠ a + 1 := by omega
    have n3 : c ≠ a + 2 := by omega
    simp [subVec, write, n1, n2, n3]
  · simp [mulVec, vec, write, e1, e2, e3]
  · have n1 : c ≠ a := by omega
    have n2 : c ≠ a + 1 := by omega
    have n3 : c ≠ a + 2 := by omega
    simp [mulVec, write, n1, n2, n3]

/-- **C80.** `v *= s` scales the vector if `s` is not a reference to its x or y component (its z component, a component of
another vector and a temporary are fine); it writes nothing but `v`. -/
theorem C80_scale (h : Mem K) (a : Nat) (s : Arg K) :
    ((∀ c, s = .ref c → c ≠ a ∧ c ≠ a + 1) → vec (scaleVec h a s) a = (vec h a).scale (s.read h)) ∧
    Only h (scaleVec h a s) a 3 := by
  constructor
  · intro hs
    cases s with
    | val x => simp [scaleVec, vec, Vec3.scale, write, Arg.read]
    | ref c =>
      obtain ⟨h1, h2⟩ := hs c rfl
      simp [scaleVec, vec, Vec3.scale, write, Arg.read, h1, h2]
  · intro c hc
    have n1 : c ≠ a := by omega
    have n2 : c ≠ a + 1 := by omega
    have n3 : c ≠ a + 2 := by omega
    simp [scaleVec, write, n1, n2, n3]

/-- **C80 (finding).** What `v *= v.x()` and `v *= v.y()` do instead: the factor changes on the way. -/
theorem C80_scale_finding (h : Mem K) (a : Nat) :
    vec (scaleVec h a (.ref a)) a = ⟨h a * h a, h (a + 1) * (h a * h a), h (a + 2) * (h a * h a)⟩ ∧
    vec (scaleVec h a (.ref (a + 1))) a = ⟨h a * h (a + 1), h (a + 1) * h (a + 1), h (a + 2) * (h (a + 1) * h (a + 1))⟩ := by
  constructor <;> simp [scaleVec, vec, write, Arg.read]

/-- **C80.** `v.setValue(x, y, z)` sets the components (and clears the fourth cell) if `y` is not a reference to the x
component and `z` not one to the x or y component of `v`; it writes nothing but `v`. -/
theorem C80_setValue (h : Mem K) (a : Nat) (x y z : Arg K) :
    ((∀ c, y = .ref c → c ≠ a) → (∀ c, z = .ref c → c ≠ a ∧ c ≠ a + 1) →
      vec (setValue h a x y z) a = ⟨x.read h, y.read h, z.read h⟩) ∧
    setValue h a x y z (a + 3) = 0 ∧ Only h (setValue h a x y z) a 4 := by
  refine ⟨fun hy hz => ?_, ?_, fun c hc => ?_⟩
  · have ey : y.read (write h a (x.read h)) = y.read h := by
      cases y with
      | val => rfl
      | ref c => exact write_ne _ _ (hy c rfl)
    have ez : ∀ u, z.read (write (write h a (x.read h)) (a + 1) u) = z.read h := by
      intro u
      cases z with
      | val => rfl
      | ref c => exact (write_ne _ _ (hz c rfl).2).trans (write_ne _ _ (hz c rfl).1)
    simp only [setValue, ey, ez]
    simp [vec, write]
  · simp [setValue, write]
  · have n1 : c ≠ a := by omega
    have n2 : c ≠ a + 1 := by omega
    have n3 : c ≠ a + 2 := by omega
    have n4 : c ≠ a + 3 := by omega
    simp [setValue, write, n1, n2, n3, n4]

/-- **C80 (finding).** `v.setValue(v.y(), v.x(), v.z())` does not exchange x and y: the old x is lost. -/
theorem C80_setValue_finding (h : Mem K) (a : Nat) :
    vec (setValue h a (.ref (a + 1)) (.ref a) (.ref (a + 2))) a = ⟨h (a + 1), h (a + 1), h (a + 2)⟩ := by
  simp [setValue, vec, write, Arg.read]

/-- **C80.** Quaternions: `+=`, `-=`, `*=` by a quaternion, possibly itself, and by a scalar that is not one of its first
three components. -/
theorem C80_quaternions (h : Mem K) {a b : Nat} (hab : SameOrApart a b 4) (s : Arg K) :
    (quat (addQuat h a b) a = ⟨h a + h b, h (a + 1) + h (b + 1), h (a + 2) + h (b + 2), h (a + 3) + h (b + 3)⟩ ∧
      Only h (addQuat h a b) a 4) ∧
    (quat (subQuat h a b) a = ⟨h a - h b, h (a + 1) - h (b + 1), h (a + 2) - h (b + 2), h (a + 3) - h (b + 3)⟩ ∧
      Only h (subQuat h a b) a 4) ∧
    (quat (mulQuat h a b) a = (quat h a).mul (quat h b) ∧ Only h (mulQuat h a b) a 4) ∧
    ((∀ c, s = .ref c → c ≠ a ∧ c ≠ a + 1 ∧ c ≠ a + 2) → quat (scaleQuat h a s) a = (quat h a).scale (s.read h)) ∧
    Only h (scaleQuat h a s) a 4 := by
  have e1 : b + 1 ≠ a := by rcases hab with h | h | h <;> omega
  have e2 : b + 2 ≠ a := by rcases hab with h | h | h <;> omega
  have e3 : b + 2 ≠ a + 1 := by rcases hab with h | h | h <;> omega
  have e4 : b + 3 ≠ a := by rcases hab with h | h | h <;> omega
  have e5 : b + 3 ≠ a + 1 := by rcases hab with h | h | h <;> omega
  have e6 : b + 3 ≠ a + 2 := by rcases hab with h | h | h <;> omega
  refine ⟨⟨?_, fun c hc => ?_⟩, ⟨?_, fun c hc => ?_⟩, ⟨?_, fun c hc => ?_⟩, fun hs => ?_, fun c hc => ?_⟩
  · simp [addQuat, quat, write, e1, e2, e3, e4, e5, e6]
  · have n1 : c ≠ a := by omega
    have n2 : c ≠ a + 1 := by omega
    have n3 : c ≠ a + 2 := by omega
    have n4 : c ≠ a + 3 := by omega
    simp [addQuat, write, n1, n2, n3, n4]
  · simp [subQuat, quat, write, e1, e2, e3, e4, e5, e6]
  · have n1 : c ≠ a := by omega
    have n2 : c ≠ a + 1 := by omega
    have n3 : c ≠ a + 2 := by omega
    have n4 : c ≠ a + 3 := by omega
    simp [subQuat, write, n1, n2, n3, n4]
  · simp [mulQuat, setValue4, quat, Quat.mul, write, Arg.read]
  · have n1 : c ≠ a := by omega
    have n2 : c ≠ a + 1 := by omega
    have n3 : c ≠ a + 2 := by omega
    have n4 : c ≠ a + 3 := by omega
    simp [mulQuat, setValue4, write, n1, n2, n3, n4]
  · cases s with
    | val x => simp [scaleQuat, quat, Quat.scale, write, Arg.read]
    | ref c =>
      obtain ⟨h1, h2, h3⟩ := hs c rfl
      simp [scaleQuat, quat, Quat.scale, write, Arg.read, h1, h2, h3]
  · have n1 : c ≠ a := by omega
    have n2 : c ≠ a + 1 := by omega
    have n3 : c ≠ a + 2 := by omega
    have n4 : c ≠ a + 3 := by omega
    simp [scaleQuat, write, n1, n2, n3, n4]

/-- **C80.** `m *= n` of matrices and `t *= u` of transforms compute the product, also for `m *= m` and `t *= t`, and write
nothing but the left operand. -/
theorem C80_products (h : Mem K) {a b t u : Nat} (hu : SameOrApart t u 16) :
    (mat (mulMat h a b) a = (mat h a).mul (mat h b) ∧ Only h (mulMat h a b) a 12) ∧
    (xform (mulXform h t u) t = (xform h t).mul (xform h u) ∧ Only h (mulXform h t u) t 16) := by
  refine ⟨⟨setMat_mat _ _ _, setMat_only _ _ _⟩, ?_, fun c hc => ?_⟩
  · generalize hh : write (write (write h (t + 12) (h (t + 12) + ((mat h t).mulVec (vec h (u + 12))).x)) (t + 13)
      (h (t + 13) + ((mat h t).mulVec (vec h (u + 12))).y)) (t + 14) (h (t + 14) + ((mat h t).mulVec (vec h (u + 12))).z) = h2
    have e : mulXform h t u = mulMat h2 t u := by
      rw [← hh]
      simp [mulXform, write]
    have o : ∀ c, (c < t + 12 ∨ t + 15 ≤ c) → h2 c = h c := by
      intro c hc
      have n1 : c ≠ t + 12 := by omega
      have n2 : c ≠ t + 13 := by omega
      have n3 : c ≠ t + 14 := by omega
      rw [← hh]
      simp [write, n1, n2, n3]
    have b1 : mat h2 t = mat h t := mat_congr (fun c h1 h3 => o c (by omega))
    have b2 : mat h2 u = mat h u := mat_congr (fun c h1 h3 => o c (by rcases hu with h | h | h <;> omega))
    have v1 : vec h2 (t + 12) = (vec h (t + 12)).add ((mat h t).mulVec (vec h (u + 12))) := by
      rw [← hh]
      simp [vec, write, Vec3.add]
    rw [e]
    simp only [xform, mulMat, Xform.mul]
    rw [setMat_mat, vec_congr (fun c h1 h3 => setMat_only _ _ _ c (by omega)), b1, b2, v1]
    simp only [Vec3.add, Xform.apply, Mat3.mulVec, vec, Xform.mk.injEq, true_and, Vec3.mk.injEq]
    exact ⟨add_comm _ _, add_comm _ _, add_comm _ _⟩
  · simp only [mulXform, mulMat]
    rw [setMat_only _ _ _ c (by omega)]
    have n1 : c ≠ t + 12 := by omega
    have n2 : c ≠ t + 13 := by omega
    have n3 : c ≠ t + 14 := by omega
    simp [write, n1, n2, n3]

/-- **C80.** `t.mult(t1, t2)` sets `t` to the product if `t` is not `t1`; it may be `t2`. It writes nothing but `t`. -/
theorem C80_mult (h : Mem K) {t t1 t2 : Nat} (h1 : Apart t 16 t1 16) (h2 : SameOrApart t t2 16) :
    xform (mult h t t1 t2) t = (xform h t1).mul (xform h t2) ∧ Only h (mult h t t1 t2) t 16 := by
  constructor
  · simp only [mult, xform, Xform.mul]
    rw [setVec_vec, mat_congr (fun c g1 g2 => setVec_only _ _ _ c (by omega)), setMat_mat,
      mat_congr (fun c g1 g2 => setMat_only _ _ _ c (by rcases h1 with h | h <;> omega)),
      vec_congr (a := t1 + 12) (fun c g1 g2 => setMat_only _ _ _ c (by rcases h1 with h | h <;> omega)),
      vec_congr (a := t2 + 12) (fun c g1 g2 => setMat_only _ _ _ c (by rcases h2 with h | h | h <;> omega))]
  · intro c hc
    simp only [mult]
    rw [setVec_only _ _ _ c (by omega), setMat_only _ _ _ c (by omega)]

/-- **C80 (finding).** `t.mult(t, u)` is not `t * u`: the origin is computed with the rotation already replaced. -/
theorem C80_mult_finding (h : Mem K) {t u : Nat} (hu : SameOrApart t u 16) :
    xform (mult h t t u) t = ⟨(mat h t).mul (mat h u),
      (⟨(mat h t).mul (mat h u), vec h (t + 12)⟩ : Xform K).apply (vec h (u + 12))⟩ := by
  simp only [mult, xform]
  rw [setVec_vec, mat_congr (fun c g1 g2 => setVec_only _ _ _ c (by omega)), setMat_mat,
    vec_congr (a := t + 12) (fun c g1 g2 => setMat_only _ _ _ c (by omega)),
    vec_congr (a := u + 12) (fun c g1 g2 => setMat_only _ _ _ c (by rcases hu with h | h | h <;> omega))]

/-- **C80.** Assignment copies matrices and transforms, the fourth cells included, and self-assignment changes nothing. -/
theorem C80_copy (h : Mem K) {a b : Nat} (hab : SameOrApart a b 16) :
    (∀ i < 16, copyXform h a b (a + i) = h (b + i)) ∧ Only h (copyXform h a b) a 16 := by
  have hv : ∀ (h : Mem K) {a b : Nat}, (a = b ∨ a + 4 ≤ b ∨ b + 4 ≤ a) →
      (∀ i < 4, copyVec h a b (a + i) = h (b + i)) ∧ Only h (copyVec h a b) a 4 := by
    intro h a b hab
    have e1 : b + 1 ≠ a := by omega
    have e2 : b + 2 ≠ a := by omega
    have e3 : b + 2 ≠ a + 1 := by omega
    have e4 : b + 3 ≠ a := by omega
    have e5 : b + 3 ≠ a + 1 := by omega
    have e6 : b + 3 ≠ a + 2 := by omega
    refine ⟨fun i hi => ?_, fun c hc => ?_⟩
    · interval_cases i <;> simp [copyVec, write, e1, e2, e3, e4, e5, e6]
    · have n1 : c ≠ a := by omega
      have n2 : c ≠ a + 1 := by omega
      have n3 : c ≠ a + 2 := by omega
      have n4 : c ≠ a + 3 := by omega
      simp [copyVec, write, n1, n2, n3, n4]
  have hb : a = b ∨ a + 16 ≤ b ∨ b + 16 ≤ a := hab
  have step : ∀ (h' : Mem K) (k : Nat), k ≤ 12 →
      (∀ c, c < a ∨ a + k ≤ c → h' c = h c) ∧ (∀ i < k, h' (a + i) = h (b + i)) →
      (∀ c, c < a ∨ a + (k + 4) ≤ c → copyVec h' (a + k) (b + k) c = h c) ∧
      (∀ i < k + 4, copyVec h' (a + k) (b + k) (a + i) = h (b + i)) := by
    intro h' k hk ⟨ho, hc⟩
    obtain ⟨v1, v2⟩ := hv h' (a := a + k) (b := b + k) (by omega)
    refine ⟨fun c g => (v2 c (by omega)).trans (ho c (by omega)), fun i hi => ?_⟩
    by_cases hik : i < k
    · exact (v2 _ (by omega)).trans (hc i hik)
    · have := v1 (i - k) (by omega)
      rw [show a + k + (i - k) = a + i by omega, show b + k + (i - k) = b + i by omega] at this
      exact this.trans (ho _ (by omega))
  have := step _ 12 (by omega) (step _ 8 (by omega) (step _ 4 (by omega) (step h 0 (by omega)
    ⟨fun _ _ => rfl, fun i hi => absurd hi (by omega)⟩)))
  exact ⟨this.2, this.1⟩

/-- **C80.** `setInterpolate3` interpolates, also into one of its arguments, but leaves the fourth cell. -/
theorem C80_interpolate (h : Mem K) {a v0 v1 : Nat} (h0 : SameOrApart a v0 4) (h1 : SameOrApart a v1 4) (rt : K) :
    vec (setInterpolate3 h a v0 v1 rt) a = (vec h v0).interpolate3 (vec h v1) rt ∧
    Only h (setInterpolate3 h a v0 v1 rt) a 3 := by
  have e1 : v0 + 1 ≠ a := by rcases h0 with h | h | h <;> omega
  have e2 : v0 + 2 ≠ a := by rcases h0 with h | h | h <;> omega
  have e3 : v0 + 2 ≠ a + 1 := by rcases h0 with h | h | h <;> omega
  have f1 : v1 + 1 ≠ a := by rcases h1 with h | h | h <;> omega
  have f2 : v1 + 2 ≠ a := by rcases h1 with h | h | h <;> omega
  have f3 : v1 + 2 ≠ a + 1 := by rcases h1 with h | h | h <;> omega
  refine ⟨?_, fun c hc => ?_⟩
  · simp [setInterpolate3, vec, Vec3.interpolate3, write, e1, e2, e3, f1, f2, f3]
  · have n1 : c ≠ a := by omega
    have n2 : c ≠ a + 1 := by omega
    have n3 : c ≠ a + 2 := by omega
    simp [setInterpolate3, write, n1, n2, n3]

/-- **C80.** `operator==` of vectors compares the components and the fourth cells; if both were set by `setValue` or the
constructor it compares the components. -/
theorem C80_equal [DecidableEq K] (h : Mem K) (a b : Nat) :
    (eqVec h a b = true ↔ vec h a = vec h b ∧ h (a + 3) = h (b + 3)) ∧
    (h (a + 3) = 0 → h (b + 3) = 0 → (eqVec h a b = true ↔ vec h a = vec h b)) := by
  have : eqVec h a b = true ↔ vec h a = vec h b ∧ h (a + 3) = h (b + 3) := by
    simp only [eqVec, Bool.and_eq_true, decide_eq_true_eq, vec, Vec3.mk.injEq]
    constructor
    · rintro ⟨⟨⟨h3, h2⟩, h1⟩, h0⟩; exact ⟨⟨h0, h1, h2⟩, h3⟩
    · rintro ⟨⟨h0, h1, h2⟩, h3⟩; exact ⟨⟨⟨h3, h2⟩, h1⟩, h0⟩
  exact ⟨this, fun ha hb => by rw [this, ha, hb]; simp⟩

/-- **C80 (finding).** A vector declared without value and set by `setInterpolate3` need not equal a vector with the same
three components, not even the same interpolation done again: the fourth cell is whatever was there. -/
theorem C80_equal_finding : ∃ (h : Mem Int) (a b v0 v1 : Nat), Apart a 4 b 4 ∧ Apart a 4 v0 4 ∧ Apart a 4 v1 4 ∧
    Apart b 4 v0 4 ∧ Apart b 4 v1 4 ∧
    (let h' := setInterpolate3 (setInterpolate3 h a v0 v1 1) b v0 v1 1
     vec h' a = vec h' b ∧ eqVec h' a b = false) :=
  ⟨fun c => if c = 3 then 7 else 0, 0, 4, 8, 12, by decide, by decide, by decide, by decide, by decide, by decide⟩

/-- **C80.** `getSkewSymmetricMatrix` writes the matrix of the cross product: with the three vectors as rows, the matrix
times `u` is `v × u`; for outputs apart from the vector and from each other. -/
theorem C80_skew (h : Mem K) {a v0 v1 v2 : Nat} (h0 : Apart v0 4 a 4) (h1 : Apart v1 4 a 4) (h2 : Apart v2 4 a 4)
    (h01 : Apart v0 4 v1 4) (h02 : Apart v0 4 v2 4) (h12 : Apart v1 4 v2 4) (u : Vec3 K) :
    let h' := skew h a v0 v1 v2
    (⟨vec h' v0, vec h' v1, vec h' v2⟩ : Mat3 K).mulVec u = (vec h a).cross u := by
  have b0 := setVec_only h v0 ⟨0, -h (a + 2), h (a + 1)⟩
  have a0 : setValue h v0 (.val 0) (.val (-h (a + 2))) (.ref (a + 1)) = setVec h v0 ⟨0, -h (a + 2), h (a + 1)⟩ := by
    have : a + 1 ≠ v0 := by rcases h0 with h | h <;> omega
    have : a ≠ v0 := by rcases h0 with h | h <;> omega
    simp [setVec, setValue, Arg.read, write, *]
  generalize hg0 : setVec h v0 ⟨0, -h (a + 2), h (a + 1)⟩ = g0 at *
  have c0 : ∀ i < 4, g0 (a + i) = h (a + i) := fun i hi => b0 _ (by rcases h0 with h | h <;> omega)
  have a1 : setValue g0 v1 (.ref (a + 2)) (.val 0) (.val (-g0 a)) = setVec g0 v1 ⟨h (a + 2), 0, -h a⟩ := by
    rw [show g0 a = h a from c0 0 (by omega)]
    simp [setVec, setValue, Arg.read, c0 2 (by omega)]
  have b1 := setVec_only g0 v1 ⟨h (a + 2), 0, -h a⟩
  generalize hg1 : setVec g0 v1 ⟨h (a + 2), 0, -h a⟩ = g1 at *
  have c1 : ∀ i < 4, g1 (a + i) = h (a + i) := fun i hi =>
    (b1 _ (by rcases h1 with h | h <;> omega)).trans (c0 i hi)
  have a2 : setValue g1 v2 (.val (-g1 (a + 1))) (.ref a) (.val 0) = setVec g1 v2 ⟨-h (a + 1), h a, 0⟩ := by
    have : a ≠ v2 := by rcases h2 with h | h <;> omega
    rw [c1 1 (by omega)]
    simp [setVec, setValue, Arg.read, write, this, show g1 a = h a from c1 0 (by omega)]
  have b2 := setVec_only g1 v2 ⟨-h (a + 1), h a, 0⟩
  have e : skew h a v0 v1 v2 = setVec g1 v2 ⟨-h (a + 1), h a, 0⟩ := by
    simp only [skew]
    rw [a0, a1, a2]
  rw [e]
  dsimp only
  rw [vec_congr (a := v0) (fun c g1 g2 => b2 c (by rcases h02 with h | h <;> omega)),
    vec_congr (a := v0) (fun c g1 g2 => b1 c (by rcases h01 with h | h <;> omega)),
    vec_congr (a := v1) (fun c g1 g2 => b2 c (by rcases h12 with h | h <;> omega)),
    setVec_vec, ← hg1, setVec_vec, ← hg0, setVec_vec]
  simp only [Mat3.mulVec, Vec3.cross, Vec3.dot, vec, Vec3.mk.injEq]
  refine ⟨?_, ?_, ?_⟩ <;> ring

/-- **C80 (finding).** With the vector itself as the first output, its first row is not that of the matrix: `y()` is read
after the cell has been overwritten. -/
theorem C80_skew_finding (h : Mem K) {a v1 v2 : Nat} (h1 : Apart v1 4 a 4) (h2 : Apart v2 4 a 4) :
    vec (skew h a a v1 v2) a = ⟨0, -h (a + 2), -h (a + 2)⟩ := by
  simp only [skew]
  rw [vec_congr (fun c g1 g2 => (C80_setValue _ v2 _ _ _).2.2 c (by rcases h2 with h | h <;> omega)),
    vec_congr (fun c g1 g2 => (C80_setValue _ v1 _ _ _).2.2 c (by rcases h1 with h | h <;> omega))]
  simp [setValue, vec, write, Arg.read]

/-! ### Arrays for OpenGL -/

/-- The matrix product with the column vector `(v, 1)` of the array at `m` read by columns, as OpenGL does. -/
def glApply (h : Mem K) (m : Nat) (v : Vec3 K) : Fin 4 → K := fun i =>
  h (m + i) * v.x + h (m + 4 + i) * v.y + h (m + 8 + i) * v.z + h (m + 12 + i)

theorem getGL_cells (h : Mem K) {a m : Nat} (hm : Apart a 16 m 16) :
    (∀ i : Fin 3, (getGL h a m (m + i) = h (a + 4 * i) ∧ getGL h a m (m + 4 + i) = h (a + 4 * i + 1)) ∧
      getGL h a m (m + 8 + i) = h (a + 4 * i + 2) ∧ getGL h a m (m + 12 + i) = h (a + 12 + i)) ∧
    getGL h a m (m + 3) = 0 ∧ getGL h a m (m + 7) = 0 ∧ getGL h a m (m + 11) = 0 ∧ getGL h a m (m + 15) = 1 ∧
    Only h (getGL h a m) m 16 := by
  have ne : ∀ i < 16, ∀ j < 16, a + i ≠ m + j := by
    intro i hi j hj; rcases hm with h | h <;> omega
  have n0 : ∀ i < 16, a + i ≠ m := fun i hi => ne i hi 0 (by omega)
  have nA : ∀ j < 16, a ≠ m + j := fun j hj => ne 0 (by omega) j hj
  have nm : a ≠ m := ne 0 (by omega) 0 (by omega)
  refine ⟨fun i => ?_, ?_, ?_, ?_, ?_, fun c hc => ?_⟩
  · obtain ⟨i, hi⟩ := i
    interval_cases i <;> simp [getGL, getSubGL, write, ne, n0, nA, nm, add_assoc]
  · simp [getGL, getSubGL, write]
  · simp [getGL, getSubGL, write]
  · simp [getGL, getSubGL, write]
  · simp [getGL, getSubGL, write]
  · have n : ∀ j < 16, c ≠ m + j := fun j hj => by omega
    have n0 : c ≠ m := by omega
    simp [getGL, getSubGL, write, n, n0]

/-- **C80.** The array written by `getOpenGLMatrix`, read by columns, is the homogeneous matrix of the transform. (It takes
sixteen cells: the comment in the code says fifteen.) -/
theorem C80_gl (h : Mem K) {a m : Nat} (hm : Apart a 16 m 16) (v : Vec3 K) :
    (let r := glApply (getGL h a m) m v
     (⟨r 0, r 1, r 2⟩ : Vec3 K) = (xform h a).apply v ∧ r 3 = 1) ∧ Only h (getGL h a m) m 16 := by
  obtain ⟨h1, h3, h7, h11, h15, ho⟩ := getGL_cells h hm
  refine ⟨⟨?_, ?_⟩, ho⟩
  · have g0 := h1 0
    have g1 := h1 1
    have g2 := h1 2
    simp only [Fin.val_zero, Fin.val_one, Fin.val_two, Nat.mul_zero, Nat.mul_one, Nat.reduceMul, Nat.add_zero] at g0 g1 g2
    simp only [glApply, Fin.val_zero, Fin.val_one, Fin.val_two, Nat.add_zero, Xform.apply, xform, mat, vec, Vec3.dot]
    rw [g0.1.1, g0.1.2, g0.2.1, g0.2.2, g1.1.1, g1.1.2, g1.2.1, g1.2.2, g2.1.1, g2.1.2, g2.2.1, g2.2.2]
  · have e : ((3 : Fin 4) : Nat) = 3 := rfl
    simp only [glApply, e]
    rw [h3, show m + 4 + 3 = m + 7 by omega, show m + 8 + 3 = m + 11 by omega, show m + 12 + 3 = m + 15 by omega, h7, h11, h15]
    ring

/-- **C80.** `setFromOpenGLMatrix` of an array written by `getOpenGLMatrix` is the transform that was written. -/
theorem C80_gl_back (h : Mem K) {a m b : Nat} (hm : Apart a 16 m 16) (hb : Apart b 16 m 16) :
    xform (setGL (getGL h a m) b m) b = xform h a := by
  obtain ⟨h1, -⟩ := getGL_cells h hm
  generalize getGL h a m = g at *
  have ne : ∀ i < 16, ∀ j < 16, m + i ≠ b + j := by
    intro i hi j hj; rcases hb with h | h <;> omega
  have n0 : ∀ i < 16, m + i ≠ b := fun i hi => ne i hi 0 (by omega)
  have nA : ∀ j < 16, m ≠ b + j := fun j hj => ne 0 (by omega) j hj
  have nm : m ≠ b := ne 0 (by omega) 0 (by omega)
  have g0 := h1 0
  have g1 := h1 1
  have g2 := h1 2
  simp only [Fin.val_zero, Fin.val_one, Fin.val_two, Nat.mul_zero, Nat.mul_one, Nat.reduceMul, Nat.add_zero, add_assoc, Nat.reduceAdd] at g0 g1 g2
  simp only [xform, mat, vec, Xform.mk.injEq, Mat3.mk.injEq, Vec3.mk.injEq]
  refine ⟨⟨⟨?_, ?_, ?_⟩, ⟨?_, ?_, ?_⟩, ⟨?_, ?_, ?_⟩⟩, ?_, ?_, ?_⟩ <;>
    simp [setGL, setSubGL, setValue, Arg.read, write, ne, n0, nA, nm, add_assoc, g0, g1, g2]

/-- **C80 (finding).** The comments ask for an array of fifteen scalars for `getOpenGLMatrix` and of nine for
`getOpenGLSubMatrix`; the cell after the end is written. -/
theorem C80_gl_finding (h : Mem K) {a m : Nat} (hm : Apart a 16 m 16) :
    getGL h a m (m + 15) = 1 ∧ getSubGL h a m (m + 9) = h (a + 6) ∧ getSubGL h a m (m + 11) = 0 := by
  refine ⟨(getGL_cells h hm).2.2.2.2.1, ?_, ?_⟩
  · have ne : ∀ i < 16, ∀ j < 16, a + i ≠ m + j := by
      intro i hi j hj; rcases hm with h | h <;> omega
    have n0 : ∀ i < 16, a + i ≠ m := fun i hi => ne i hi 0 (by omega)
    have nA : ∀ j < 16, a ≠ m + j := fun j hj => ne 0 (by omega) j hj
    have nm : a ≠ m := ne 0 (by omega) 0 (by omega)
    simp [getSubGL, write, ne, n0, nA, nm]
  · simp [getSubGL, write]

end

/-- **C80.** `v /= s` and `q /= s` divide by the value `s` had, also if it is one of the components. -/
theorem C80_divide {F : Type} [Field F] (h : Mem F) (a : Nat) (s : Arg F) :
    vec (divVec h a s) a = ⟨h a / s.read h, h (a + 1) / s.read h, h (a + 2) / s.read h⟩ ∧ Only h (divVec h a s) a 3 ∧
    quat (divQuat h a s) a = ⟨h a / s.read h, h (a + 1) / s.read h, h (a + 2) / s.read h, h (a + 3) / s.read h⟩ ∧
    Only h (divQuat h a s) a 4 := by
  refine ⟨?_, (C80_scale h a _).2, ?_, (C80_quaternions h (.inl rfl) _).2.2.2.2⟩
  · rw [divVec, (C80_scale h a _).1 (fun c e => by cases e)]
    simp [Vec3.scale, vec, Arg.read, div_eq_mul_inv]
  · rw [divQuat, (C80_quaternions h (.inl rfl) _).2.2.2.1 (fun c e => by cases e)]
    simp [Quat.scale, quat, Arg.read, div_eq_mul_inv]

/-! ### Perpendicular vectors -/

/-- **C80.** `tf2PlaneSpace1(n, p, q)` gives the two vectors described by C58 (`planeSpace1`) if the outputs are apart from `n`
and from each other. -/
theorem C80_plane (h : Mem ℝ) {n p q : Nat} (hp : Apart p 4 n 4) (hq : Apart q 4 n 4) (hpq : Apart p 4 q 4) :
    vec (planeSpace h n p q) p = (planeSpace1 (vec h n)).1 ∧ vec (planeSpace h n p q) q = (planeSpace1 (vec h n)).2 := by
  have e0 : n ≠ p := by rcases hp with h | h <;> omega
  have e0' : ∀ j < 4, n ≠ p + j := by intro j hj; rcases hp with h | h <;> omega
  have e1 : ∀ i < 4, ∀ j < 4, n + i ≠ p + j := by intro i hi j hj; rcases hp with h | h <;> omega
  have e1' : ∀ i < 4, n + i ≠ p := by intro i hi; rcases hp with h | h <;> omega
  have f0 : p ≠ q := by rcases hpq with h | h <;> omega
  have f0' : ∀ j < 4, p ≠ q + j := by intro j hj; rcases hpq with h | h <;> omega
  have f1 : ∀ i < 4, ∀ j < 4, p + i ≠ q + j := by intro i hi j hj; rcases hpq with h | h <;> omega
  have f1' : ∀ i < 4, p + i ≠ q := by intro i hi; rcases hpq with h | h <;> omega
  unfold planeSpace planeSpace1
  by_cases hz : |h (n + 2)| > sqrt12
  · rw [if_pos hz, if_pos (show |(vec h n).z| > sqrt12 from hz)]
    constructor <;> simp [setValue, vec, write, Arg.read, e0, e0', e1, e1', f0, f0', f1, f1']
  · rw [if_neg hz, if_neg (show ¬ |(vec h n).z| > sqrt12 from hz)]
    constructor <;> simp [setValue, vec, write, Arg.read, e0, e0', e1, e1', f0, f0', f1, f1']

/-- **C80 (finding).** With `n` as the first output, the second output is not perpendicular to it and to the old `n`: for
`n = (3/5, 0, 4/5)` the second vector is along x. -/
theorem C80_plane_finding (h : Mem ℝ) {n q : Nat} (hq : Apart q 4 n 4) (hn : vec h n = ⟨3 / 5, 0, 4 / 5⟩) :
    vec (planeSpace h n n q) q = ⟨4 / 5, 0, 0⟩ ∧ (planeSpace1 (vec h n)).2 = ⟨4 / 5, 0, -(3 / 5)⟩ ∧
    (vec (planeSpace h n n q) q).dot (vec h n) ≠ 0 := by
  have hx : h n = 3 / 5 := congrArg Vec3.x hn
  have hy : h (n + 1) = 0 := congrArg Vec3.y hn
  have hz : h (n + 2) = 4 / 5 := congrArg Vec3.z hn
  have hs : Real.sqrt (0 * 0 + 4 / 5 * (4 / 5)) = 4 / 5 := by
    rw [show (0 * 0 + 4 / 5 * (4 / 5) : ℝ) = (4 / 5) ^ 2 by norm_num, Real.sqrt_sq (by norm_num)]
  have hc : |(4 / 5 : ℝ)| > sqrt12 := by
    rw [abs_of_pos (by norm_num)]; unfold sqrt12; norm_num
  have f0 : n ≠ q := by rcases hq with h | h <;> omega
  have f1 : ∀ i < 4, ∀ j < 4, n + i ≠ q + j := by intro i hi j hj; rcases hq with h | h <;> omega
  have e : vec (planeSpace h n n q) q = ⟨4 / 5, 0, 0⟩ := by
    unfold planeSpace
    rw [if_pos (by rw [hz]; exact hc)]
    simp only [hx, hy, hz, hs]
    simp [setValue, vec, write, Arg.read, f0, f1]
    norm_num
  refine ⟨e, ?_, ?_⟩
  · unfold planeSpace1
    rw [hn]
    dsimp only
    rw [if_pos hc]
    simp only [hs]
    norm_num
  · rw [e, hn]
    simp only [Vec3.dot]
    norm_num

/-! ### Order of bytes -/

/-- **C80.** `tf2SwapScalarEndian` reverses the eight bytes if source and destination are apart, and changes nothing else. -/
theorem C80_swap {B : Type} (h : Mem B) {s d : Nat} (hsd : Apart s 8 d 8) :
    (∀ i < 8, swapScalar h s d (d + i) = h (s + (7 - i))) ∧ Only h (swapScalar h s d) d 8 := by
  have e1 : ∀ i < 8, ∀ j < 8, s + i ≠ d + j := by intro i hi j hj; rcases hsd with h | h <;> omega
  have e2 : ∀ i < 8, s + i ≠ d := by intro i hi; rcases hsd with h | h <;> omega
  have e3 : ∀ j < 8, s ≠ d + j := by intro j hj; rcases hsd with h | h <;> omega
  have e4 : s ≠ d := by rcases hsd with h | h <;> omega
  refine ⟨fun i hi => ?_, fun c hc => ?_⟩
  · interval_cases i <;> simp [swapScalar, write, e1, e2, e3, e4]
  · have n : ∀ j < 8, c ≠ d + j := fun j hj => by omega
    have n0 : c ≠ d := by omega
    simp [swapScalar, write, n, n0]

/-- **C80 (finding).** Into itself it loses half of the bytes: the result reads the same both ways. -/
theorem C80_swap_finding {B : Type} (h : Mem B) (s : Nat) :
    ∀ i < 8, swapScalar h s s (s + i) = h (s + (if i < 4 then 7 - i else i)) := by
  intro i hi
  interval_cases i <;> simp [swapScalar, write]

theorem copyBytes_spec {B : Type} (h : Mem B) {a b n : Nat} (hab : Apart a n b n) :
    ∀ k ≤ n, (∀ i < k, copyBytes h a b k (a + i) = h (b + i)) ∧ Only h (copyBytes h a b k) a k := by
  intro k
  induction k with
  | zero => exact fun _ => ⟨fun i hi => absurd hi (by omega), fun c _ => rfl⟩
  | succ k ih =>
    intro hk
    obtain ⟨h1, h2⟩ := ih (by omega)
    refine ⟨fun i hi => ?_, fun c hc => ?_⟩
    · by_cases e : i = k
      · subst e
        simp only [copyBytes, write_self]
        exact h2 _ (by rcases hab with h | h <;> omega)
      · simp only [copyBytes]
        rw [write_ne _ _ (by omega)]
        exact h1 i (by omega)
    · simp only [copyBytes]
      rw [write_ne _ _ (by omega)]
      exact h2 c (by omega)

theorem swapVec_spec {B : Type} (h : Mem B) {s d : Nat} (hsd : Apart s 32 d 32) :
    (∀ k < 4, ∀ i < 8, swapVec h s d (d + 8 * k + i) = h (s + 8 * k + (7 - i))) ∧ Only h (swapVec h s d) d 32 := by
  have hsd' : s + 32 ≤ d ∨ d + 32 ≤ s := hsd
  have step : ∀ (h' : Mem B) (k : Nat), k < 4 →
      ((∀ c, c < d ∨ d + 8 * k ≤ c → h' c = h c) ∧ ∀ j < k, ∀ i < 8, h' (d + 8 * j + i) = h (s + 8 * j + (7 - i))) →
      ((∀ c, c < d ∨ d + 8 * (k + 1) ≤ c → swapScalar h' (s + 8 * k) (d + 8 * k) c = h c) ∧
       ∀ j < k + 1, ∀ i < 8, swapScalar h' (s + 8 * k) (d + 8 * k) (d + 8 * j + i) = h (s + 8 * j + (7 - i))) := by
    intro h' k hk ⟨ho, hc⟩
    obtain ⟨c1, c2⟩ := C80_swap h' (s := s + 8 * k) (d := d + 8 * k) (by unfold Apart; omega)
    refine ⟨fun c g => (c2 c (by omega)).trans (ho c (by omega)), fun j hj i hi => ?_⟩
    by_cases e : j = k
    · subst e
      exact (c1 i hi).trans (ho _ (by omega))
    · exact (c2 _ (by omega)).trans (hc j (by omega) i hi)
  have := step _ 3 (by omega) (step _ 2 (by omega) (step _ 1 (by omega) (step h 0 (by omega)
    ⟨fun _ _ => rfl, fun i hi => absurd hi (by omega)⟩)))
  exact ⟨this.2, this.1⟩

/-- **C80.** `tf2SwapVector3Endian` reverses the bytes of each of the four scalars, between vectors that are apart;
`tf2UnSwapVector3Endian` does so in place, so it restores a swapped vector; nothing else (but the local variable at `tmp`) changes. -/
theorem C80_unswap {B : Type} (h : Mem B) {v d tmp : Nat} (hv : Apart v 32 d 32) (ht : Apart d 32 tmp 32) (htv : Apart v 32 tmp 32) :
    (∀ k < 4, ∀ i < 8, swapVec h v d (d + 8 * k + i) = h (v + 8 * k + (7 - i))) ∧
    (∀ i < 32, unSwapVec (swapVec h v d) d tmp (d + i) = h (v + i)) ∧
    ∀ c, (c < d ∨ d + 32 ≤ c) → (c < tmp ∨ tmp + 32 ≤ c) → unSwapVec (swapVec h v d) d tmp c = h c := by
  obtain ⟨a1, a2⟩ := swapVec_spec h hv
  obtain ⟨b1, b2⟩ := swapVec_spec (swapVec h v d) ht
  obtain ⟨c1, c2⟩ := copyBytes_spec (swapVec (swapVec h v d) d tmp) ht 32 (le_refl _)
  refine ⟨a1, fun i hi => ?_, fun c h1 h2 => ?_⟩
  · show copyBytes _ _ _ _ _ = _
    rw [c1 i hi]
    have e : i = 8 * (i / 8) + i % 8 := by omega
    have hk : i / 8 < 4 := by omega
    have hm : i % 8 < 8 := by omega
    generalize i / 8 = k at *
    generalize i % 8 = r at *
    subst e
    rw [← Nat.add_assoc, ← Nat.add_assoc, b1 k hk r hm, a1 k hk (7 - r) (by omega), show 7 - (7 - r) = r by omega]
  · show copyBytes _ _ _ _ _ = _
    rw [c2 c h1, b2 c h2, a2 c h1]

/-! ### Examples -/

/-- A memory with two transforms: a quarter turn about z at 0 with origin (1, 2, 3), another at 16. -/
def exMem : Mem Int := fun c =>
  ([0, -1, 0, 0, 1, 0, 0, 0, 0, 0, 1, 0, 1, 2, 3, 0, 1, 0, 0, 0, 0, 0, -1, 0, 0, 1, 0, 0, 4, 5, 6, 0] : List Int).getD c 9

example : xform (mulXform exMem 0 0) 0 = (xform exMem 0).mul (xform exMem 0) ∧
    xform (mulXform exMem 0 16) 0 = (xform exMem 0).mul (xform exMem 16) ∧
    xform (mult exMem 0 0 16) 0 ≠ (xform exMem 0).mul (xform exMem 16) ∧
    xform (mult exMem 0 16 0) 0 = (xform exMem 16).mul (xform exMem 0) ∧
    vec (scaleVec exMem 28 (.ref 28)) 28 = ⟨16, 80, 96⟩ ∧ vec (scaleVec exMem 28 (.ref 30)) 28 = ⟨24, 30, 36⟩ ∧
    SameOrApart 0 16 16 ∧ SameOrApart 0 0 16 ∧ Apart 0 16 16 16 := by
  refine ⟨by decide, by decide, by decide, by decide, by decide, by decide, .inr (.inl (by decide)), .inl rfl, .inl (by decide)⟩

end Tf2.InPlace
