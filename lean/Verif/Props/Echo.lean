import Verif.Spec.Echo
import Verif.Proofs.Echo
import Verif.Props.PyWait

/-!
# C74: `echo.py`
-/
namespace Tf2.Py

/-! ### The angles -/

/-- **C74, the angles.** For every quaternion that is not nearly zero, unit or not: roll, pitch and yaw as printed are in the
usual ranges, and `Rz(yaw) Ry(pitch) Rx(roll)` is the rotation of the quaternion - exactly, if the cosine of its pitch exceeds
`eps`; entry by entry up to twice that cosine, if not. (`eps` is four times the machine precision.) -/
theorem C74_angles {eps : ℝ} (h0 : 0 < eps) (h1 : eps < 1) {q : Quat ℝ} (hq : eps ≤ q.length2) :
    let e := echoEuler eps q
    let R := rotZ e.yaw * rotY e.pitch * rotX e.roll
    let M := (Mat3.ofQuat q).toM
    (eps < Real.sqrt (M 0 0 ^ 2 + M 1 0 ^ 2) → R = M) ∧
    (Real.sqrt (M 0 0 ^ 2 + M 1 0 ^ 2) ≤ eps → ∀ i j, |R i j - M i j| ≤ 2 * Real.sqrt (M 0 0 ^ 2 + M 1 0 ^ 2)) ∧
    -Real.pi < e.roll ∧ e.roll ≤ Real.pi ∧ -(Real.pi / 2) ≤ e.pitch ∧ e.pitch ≤ Real.pi / 2 ∧ -Real.pi < e.yaw ∧ e.yaw ≤ Real.pi := by
  have hne : q.length2 ≠ 0 := (lt_of_lt_of_le h0 hq).ne'
  have hrot := Mat3.ofQuat_isRotation q hne
  intro e R M
  have he : e = eulerFromMatrix eps (Mat3.ofQuat q) := by
    show echoEuler eps q = _
    unfold echoEuler; rw [quaternionMatrix_eq h0 hq]
  have hR : R = (Mat3.ofEulerYPR e.yaw e.pitch e.roll).toM := (ofRPY_toM _ _ _).symm
  have hcy : Real.sqrt (M 0 0 ^ 2 + M 1 0 ^ 2) = cyOf (Mat3.ofQuat q) := by
    unfold cyOf
    congr 1
    show (Mat3.ofQuat q).toM 0 0 ^ 2 + (Mat3.ofQuat q).toM 1 0 ^ 2 = _
    simp only [Mat3.toM, Matrix.of_apply, Matrix.cons_val', Matrix.cons_val_zero, Matrix.cons_val_one]
    ring
  rw [hcy]
  refine ⟨fun h => ?_, fun h i j => ?_, ?_⟩
  · rw [hR, he, euler_regular hrot h0 h]
  · rw [hR, he]; exact euler_polar hrot h1 h i j
  · rw [he]
    have ra : ∀ y x, -Real.pi < tf2Atan2 y x ∧ tf2Atan2 y x ≤ Real.pi := fun y x => ⟨Complex.neg_pi_lt_arg _, Complex.arg_le_pi _⟩
    have hp : ∀ y, -(Real.pi / 2) ≤ tf2Atan2 y (cyOf (Mat3.ofQuat q)) ∧ tf2Atan2 y (cyOf (Mat3.ofQuat q)) ≤ Real.pi / 2 := by
      intro y
      have := (Complex.abs_arg_le_pi_div_two_iff (z := ⟨cyOf (Mat3.ofQuat q), y⟩)).2 (Real.sqrt_nonneg _)
      exact abs_le.1 this
    unfold eulerFromMatrix
    dsimp only
    split
    · exact ⟨(ra _ _).1, (ra _ _).2, (hp _).1, (hp _).2, (ra _ _).1, (ra _ _).2⟩
    · exact ⟨(ra _ _).1, (ra _ _).2, (hp _).1, (hp _).2, by linarith [Real.pi_pos], Real.pi_pos.le⟩

/-- **C74, the angles agree with C++.** Away from the poles they are those `getEulerYPR` of the matrix returns. -/
theorem C74_angles_agree {eps : ℝ} (h0 : 0 < eps) {q : Quat ℝ} (hq : eps ≤ q.length2)
    (hc : eps < Real.sqrt ((Mat3.ofQuat q).toM 0 0 ^ 2 + (Mat3.ofQuat q).toM 1 0 ^ 2)) :
    echoEuler eps q = (Mat3.ofQuat q).getEulerYPR 1 := by
  have hne : q.length2 ≠ 0 := (lt_of_lt_of_le h0 hq).ne'
  have hrot := Mat3.ofQuat_isRotation q hne
  have hcy : Real.sqrt ((Mat3.ofQuat q).toM 0 0 ^ 2 + (Mat3.ofQuat q).toM 1 0 ^ 2) = cyOf (Mat3.ofQuat q) := by
    unfold cyOf
    congr 1
    simp only [Mat3.toM, Matrix.of_apply, Matrix.cons_val', Matrix.cons_val_zero, Matrix.cons_val_one]
    ring
  rw [hcy] at hc
  have hpos : 0 < cyOf (Mat3.ofQuat q) := h0.trans hc
  have hsq := cyOf_sq (Mat3.ofQuat q)
  have c00 := hrot.eqs.c00
  unfold echoEuler
  rw [quaternionMatrix_eq h0 hq]
  generalize Mat3.ofQuat q = m at *
  have hlt : |m.r2.x| < 1 := abs_lt_of_sq_lt_sq (by nlinarith [sq_pos_of_pos hpos]) zero_le_one
  have hcos : Real.cos (-Real.arcsin m.r2.x) = cyOf m := by
    rw [Real.cos_neg, Real.cos_arcsin, show 1 - m.r2.x ^ 2 = cyOf m ^ 2 by rw [hsq]; linear_combination -c00, Real.sqrt_sq hpos.le]
  have sc : ∀ a b : ℝ, tf2Atan2 (a / cyOf m) (b / cyOf m) = tf2Atan2 a b := by
    intro a b
    rw [← atan2_scale (inv_pos.2 hpos) a b]
    congr 1 <;> ring
  have hpitch : tf2Atan2 (-m.r2.x) (cyOf m) = -Real.arcsin m.r2.x := by
    obtain ⟨p1, p2⟩ := pitch_cos hrot
    rw [← Real.arcsin_neg]
    conv_rhs => rw [← p2]
    rw [Real.arcsin_sin]
    · exact (abs_le.1 ((Complex.abs_arg_le_pi_div_two_iff (z := ⟨cyOf m, -m.r2.x⟩)).2 hpos.le)).1
    · exact (abs_le.1 ((Complex.abs_arg_le_pi_div_two_iff (z := ⟨cyOf m, -m.r2.x⟩)).2 hpos.le)).2
  have hc' : Real.sqrt (m.r0.x * m.r0.x + m.r1.x * m.r1.x) > eps := hc
  have hg' : ¬ (|m.r2.x| ≥ 1) := not_le.2 hlt
  unfold eulerFromMatrix Mat3.getEulerYPR
  simp only [if_pos hc', hg', if_false, if_true, tf2Asin_eq, hcos, sc]
  congr 1

/-- The hypotheses are met, for both cases: no rotation at all, and a quarter turn about y. -/
example : ∃ q q' : Quat ℝ, (1 / 100 : ℝ) ≤ q.length2 ∧ 1 / 100 < Real.sqrt ((Mat3.ofQuat q).toM 0 0 ^ 2 + (Mat3.ofQuat q).toM 1 0 ^ 2) ∧
    1 / 100 ≤ q'.length2 ∧ Real.sqrt ((Mat3.ofQuat q').toM 0 0 ^ 2 + (Mat3.ofQuat q').toM 1 0 ^ 2) ≤ 1 / 100 := by
  refine ⟨⟨0, 0, 0, 1⟩, ⟨0, 1, 0, 1⟩, ?_, ?_, ?_, ?_⟩
  · norm_num [Quat.length2_eq]
  · norm_num [Quat.length2_eq, Mat3.ofQuat, Mat3.toM]
  · norm_num [Quat.length2_eq]
  · norm_num [Quat.length2_eq, Mat3.ofQuat, Mat3.toM]

/-! ### The loop -/

variable {X : Type} [Rigid X] {fl : ℚ → ℚ} {a : EchoArgs}

theorem lookupTime_spec (a : EchoArgs) (cur : Time) :
    ∃ t : Int, AsksAt a cur t ∧ ((t < 0 ∧ a.lookupTime cur = none) ∨ (0 ≤ t ∧ a.lookupTime cur = some t.toNat)) := by
  have hn : ∀ {o : Option Int}, ¬ o.getD 0 ≠ 0 → o = none ∨ o = some 0 := by
    intro o ho
    cases o with
    | none => exact .inl rfl
    | some v => exact .inr (by simpa using ho)
  have hs : ∀ {o : Option Int}, o.getD 0 ≠ 0 → o = some (o.getD 0) := by
    intro o ho
    cases o with
    | none => exact absurd rfl ho
    | some v => rfl
  unfold EchoArgs.lookupTime
  by_cases h1 : a.time.getD 0 ≠ 0
  · rw [if_pos h1]
    refine ⟨_, .fixed (hs h1) h1, ?_⟩
    split
    · rename_i h; exact .inl ⟨h, rfl⟩
    · rename_i h; exact .inr ⟨not_lt.1 h, rfl⟩
  · rw [if_neg h1]
    by_cases h2 : a.offset.getD 0 ≠ 0
    · rw [if_pos h2]
      refine ⟨_, .offset (hn h1) (hs h2) h2, ?_⟩
      split
      · rename_i h; exact .inl ⟨h, rfl⟩
      · rename_i h; exact .inr ⟨not_lt.1 h, rfl⟩
    · rw [if_neg h2]
      exact ⟨0, .latest (hn h1) (hn h2), .inr ⟨le_refl _, rfl⟩⟩

/-- The request an `echo` makes. -/
def echoGoal (a : EchoArgs) (t : Time) : Goal :=
  { target := a.source, source := a.target, stime := t, timeout := 0, ttime := 0, fixed := [], advanced := false }

/-- One callback, of a thread that is alive. -/
theorem tick_spec {D : Duration} {b : Buf X} (hb : ∃ ops, runCore fl ops (Buf.init D) = some b) (cur : Time) {s : Echo}
    (ha : s.alive = true) (hs : s.shutdown = false) :
    (∃ l, a.limit = some l ∧ l ≤ s.count ∧
      s.tick fl a b cur = ({ s with count := s.count + 1, shutdown := true }, [EchoEv.finished])) ∨
    ((∀ l, a.limit = some l → s.count < l) ∧ ∃ ev, Echoes fl a b cur ev ∧
      ((ev.Last ∧ s.tick fl a b cur = ({ s with count := s.count + 1, alive := false }, [ev])) ∨
       (¬ ev.Last ∧ s.tick fl a b cur = ({ s with count := s.count + 1 }, [ev])))) := by
  obtain ⟨ops, hb⟩ := hb
  unfold Echo.tick
  rw [if_neg (by simp [ha, hs])]
  dsimp only
  by_cases hl : ∃ l, a.limit = some l ∧ l ≤ s.count
  · obtain ⟨l, h1, h2⟩ := hl
    refine .inl ⟨l, h1, h2, ?_⟩
    rw [if_pos (by unfold EchoArgs.over; rw [h1]; simp; omega)]
  · have hlim : ∀ l, a.limit = some l → s.count < l := fun l h => by
      by_contra hc; exact hl ⟨l, h, not_lt.1 hc⟩
    refine .inr ⟨hlim, ?_⟩
    have hif : a.over (s.count + 1) = false := by
      unfold EchoArgs.over
      cases h : a.limit with
      | none => rfl
      | some l => have := hlim l h; simp; omega
    rw [hif]
    simp only [Bool.false_eq_true, if_false]
    obtain ⟨t, ht, ⟨hneg, hlt⟩ | ⟨hpos, hlt⟩⟩ := lookupTime_spec a cur
    · rw [hlt]
      exact ⟨.died, .negative ht hneg, .inl ⟨trivial, rfl⟩⟩
    · rw [hlt]
      dsimp only
      have ht' : AsksAt a cur (t.toNat : Int) := by rwa [Int.toNat_of_nonneg hpos]
      cases htin : timeIn fl t.toNat with
      | none =>
        have : lookupCore fl b a.source a.target t.toNat = .crash := by simp [lookupCore, withTime, htin]
        rw [this]
        exact ⟨.crashed, .unreadable ht' htin, .inl ⟨trivial, rfl⟩⟩
      | some t' =>
        have hreach : Reaches fl (echoGoal a t.toNat) (echoGoal a t') := ⟨t', 0, htin, rfl, rfl⟩
        obtain ⟨-, c1, c2, c3, c4, -⟩ := C68_agree hb hreach
        have hlook : Goal.lookPy fl (echoGoal a t.toNat) b = lookupCore fl b a.source a.target t.toNat := rfl
        have hgoal : (echoGoal a t').lookup b = b.lookupTransform a.source a.target t' := rfl
        simp only [hlook, hgoal] at c1 c2 c3
        have hstamp : ∀ m, b.lookupTransform a.source a.target t' = .ok m → m.stamp ≤ TIME_MAX :=
          fun m hm => lookup_stamp_le hb hreach (hgoal.trans hm)
        cases hr : b.lookupTransform a.source a.target t' with
        | ok m =>
          by_cases hm : m.stamp < 2 ^ 31 * 1000000000
          · rw [c1 m hr hm]
            exact ⟨.printed m, .printed ht' htin hr hm, .inr ⟨id, rfl⟩⟩
          · have : lookupCore fl b a.source a.target t.toNat = .crash := by
              simp only [lookupCore, withTime, htin, hr, wrap, thenOut, outMsg, (C67_out _ (hstamp m hr)).2 (not_lt.1 hm)]
            rw [this]
            exact ⟨.crashed, .late ht' htin hr (not_lt.1 hm), .inl ⟨trivial, rfl⟩⟩
        | throw e =>
          have := (c3 e).2 hr
          rw [this]
          dsimp only
          by_cases he : e = .lookup ∨ e = .extrapolation
          · rw [if_pos (by rcases he with rfl | rfl <;> decide)]
            exact ⟨.logged e, .logged ht' htin hr he, .inr ⟨id, rfl⟩⟩
          · rw [not_or] at he
            rw [if_neg (by obtain ⟨h1, h2⟩ := he; cases e <;> simp_all <;> decide)]
            exact ⟨.died, .died ht' htin hr he.1 he.2, .inl ⟨trivial, rfl⟩⟩
        | ub =>
          obtain ⟨-, -, -, hre⟩ := C67_buffer hb
          rcases goal_lookup_total hre (echoGoal a t') with ⟨m, hm⟩ | ⟨e, he, -⟩
          · rw [hgoal, hr] at hm; cases hm
          · rw [hgoal, hr] at he; cases he

theorem tick_quiet {b : Buf X} {cur : Time} {s : Echo} (h : s.alive = false ∨ s.shutdown = true) : s.tick fl a b cur = (s, []) := by
  unfold Echo.tick
  rw [if_pos (by rcases h with h | h <;> simp [h])]

theorem run_quiet (W : List (Buf X × Time)) {s : Echo} (h : s.alive = false ∨ s.shutdown = true) :
    (s.run fl a W).2 = List.replicate W.length [] := by
  induction W with
  | nil => rfl
  | cons w W ih =>
    obtain ⟨b, cur⟩ := w
    unfold Echo.run
    rw [tick_quiet h]
    dsimp only
    rw [ih]; rfl

/-- What the callbacks show, from the `n`-th on. -/
theorem run_spec {D : Duration} (W : List (Buf X × Time)) (hW : ∀ w ∈ W, ∃ ops, runCore fl ops (Buf.init D) = some w.1)
    {s : Echo} (ha : s.alive = true) (hs : s.shutdown = false) (hc : ∀ l, a.limit = some l → s.count ≤ l) :
    (s.run fl a W).2.length = W.length ∧
    ∀ i b cur, W[i]? = some (b, cur) →
      ((∃ j < i, ∃ ev, (s.run fl a W).2[j]? = some [ev] ∧ ev.Last) ∧ (s.run fl a W).2[i]? = some []) ∨
      ((¬ ∃ j < i, ∃ ev, (s.run fl a W).2[j]? = some [ev] ∧ ev.Last) ∧
        ((a.limit = some (s.count + i) ∧ (s.run fl a W).2[i]? = some [.finished]) ∨
         ((∀ l, a.limit = some l → s.count + i < l) ∧ ∃ ev, Echoes fl a b cur ev ∧ (s.run fl a W).2[i]? = some [ev]))) := by
  induction W generalizing s with
  | nil => exact ⟨rfl, fun i b cur h => by simp at h⟩
  | cons w W ih =>
    obtain ⟨b0, cur0⟩ := w
    have hb0 := hW (b0, cur0) (List.mem_cons_self ..)
    have hrun : (s.run fl a ((b0, cur0) :: W)).2 = (s.tick fl a b0 cur0).2 :: ((s.tick fl a b0 cur0).1.run fl a W).2 := rfl
    have hquiet : ∀ ev : EchoEv X, ev.Last → (s.tick fl a b0 cur0).2 = [ev] →
        ((s.tick fl a b0 cur0).1.alive = false ∨ (s.tick fl a b0 cur0).1.shutdown = true) →
        (s.run fl a ((b0, cur0) :: W)).2.length = ((b0, cur0) :: W).length ∧
        ∀ i b cur, ((b0, cur0) :: W)[i + 1]? = some (b, cur) →
          ((∃ j < i + 1, ∃ ev, (s.run fl a ((b0, cur0) :: W)).2[j]? = some [ev] ∧ ev.Last) ∧
            (s.run fl a ((b0, cur0) :: W)).2[i + 1]? = some []) := by
      intro ev hev htick hq
      rw [hrun, run_quiet W hq, htick]
      refine ⟨by simp, fun i b cur h => ⟨⟨0, by omega, ev, rfl, hev⟩, ?_⟩⟩
      have hi : i < W.length := by
        by_contra hge
        rw [List.getElem?_cons_succ, List.getElem?_eq_none (not_lt.1 hge)] at h
        cases h
      rw [List.getElem?_cons_succ, List.getElem?_replicate, if_pos hi]
    rcases tick_spec (a := a) hb0 cur0 ha hs with ⟨l, h1, h2, h3⟩ | ⟨h1, ev, hev, ⟨hl, h3⟩ | ⟨hl, h3⟩⟩
    · obtain ⟨q1, q2⟩ := hquiet .finished trivial (by rw [h3]) (by rw [h3]; exact .inr rfl)
      refine ⟨q1, fun i b cur h => ?_⟩
      cases i with
      | zero =>
        refine .inr ⟨fun ⟨j, hj, _⟩ => absurd hj (Nat.not_lt_zero _), .inl ⟨?_, ?_⟩⟩
        · have := hc l h1
          rw [h1, show s.count + 0 = l by omega]
        · rw [hrun, h3]; rfl
      | succ i => exact .inl (q2 i b cur h)
    · obtain ⟨q1, q2⟩ := hquiet ev hl (by rw [h3]) (by rw [h3]; exact .inl rfl)
      refine ⟨q1, fun i b cur h => ?_⟩
      cases i with
      | zero =>
        simp only [List.getElem?_cons_zero, Option.some.injEq, Prod.mk.injEq] at h
        obtain ⟨rfl, rfl⟩ := h
        refine .inr ⟨fun ⟨j, hj, _⟩ => absurd hj (Nat.not_lt_zero _), .inr ⟨fun l hl => by have := h1 l hl; omega, ev, hev, ?_⟩⟩
        rw [hrun, h3]; rfl
      | succ i => exact .inl (q2 i b cur h)
    · obtain ⟨k1, k2⟩ := ih (s := { s with count := s.count + 1 }) (fun w hw => hW w (List.mem_cons_of_mem _ hw)) ha hs
        (fun l hl => h1 l hl)
      have hrun' : (s.run fl a ((b0, cur0) :: W)).2 = [ev] :: (({ s with count := s.count + 1 } : Echo).run fl a W).2 := by
        rw [hrun, h3]
      rw [hrun']
      refine ⟨by rw [List.length_cons, k1, List.length_cons], fun i b cur h => ?_⟩
      cases i with
      | zero =>
        simp only [List.getElem?_cons_zero, Option.some.injEq, Prod.mk.injEq] at h
        obtain ⟨rfl, rfl⟩ := h
        refine .inr ⟨fun ⟨j, hj, _⟩ => absurd hj (Nat.not_lt_zero _), .inr ⟨fun l hl => by have := h1 l hl; omega, ev, hev, rfl⟩⟩
      | succ i =>
        have hex : (∃ j < i + 1, ∃ ev', ([ev] :: (({ s with count := s.count + 1 } : Echo).run fl a W).2)[j]? = some [ev'] ∧ ev'.Last) ↔
            ∃ j < i, ∃ ev', (({ s with count := s.count + 1 } : Echo).run fl a W).2[j]? = some [ev'] ∧ ev'.Last := by
          constructor
          · rintro ⟨j, hj, ev', h4, h5⟩
            cases j with
            | zero =>
              simp only [List.getElem?_cons_zero, Option.some.injEq, List.cons.injEq, and_true] at h4
              subst h4; exact absurd h5 hl
            | succ j => exact ⟨j, by omega, ev', h4, h5⟩
          · rintro ⟨j, hj, ev', h4, h5⟩
            exact ⟨j + 1, by omega, ev', h4, h5⟩
        rw [hex, List.getElem?_cons_succ]
        rw [List.getElem?_cons_succ] at h
        have := k2 i b cur h
        simp only [show s.count + 1 + i = s.count + (i + 1) by omega] at this
        exact this

/-- **C74, every callback.** Let the timer call `echo` once for every element of `W`, with the buffer and the clock given there.
As long as it has not ended, the `i`-th call (from 0) shows exactly what the lookup on the buffer of that moment gives, at the
time the arguments ask for: the transform, or a logged LookupException or ExtrapolationException. With a limit `l`, exactly the
first `l` calls look up and call number `l` ends the program. Any other exception, a negative time, or a time out of range, ends
it too; and after the end nothing is shown. -/
theorem C74_callbacks {D : Duration} (W : List (Buf X × Time)) (hW : ∀ w ∈ W, ∃ ops, runCore fl ops (Buf.init D) = some w.1) :
    let es := (({} : Echo).run fl a W).2
    es.length = W.length ∧
    ∀ i b cur, W[i]? = some (b, cur) →
      ((∃ j < i, ∃ ev, es[j]? = some [ev] ∧ ev.Last) ∧ es[i]? = some []) ∨
      ((¬ ∃ j < i, ∃ ev, es[j]? = some [ev] ∧ ev.Last) ∧
        ((a.limit = some i ∧ es[i]? = some [.finished]) ∨
         ((∀ l, a.limit = some l → i < l) ∧ ∃ ev, Echoes fl a b cur ev ∧ es[i]? = some [ev]))) := by
  intro es
  have := run_spec (fl := fl) (a := a) W hW (s := {}) rfl rfl (fun l _ => Nat.zero_le l)
  simp only [Nat.zero_add] at this
  exact this

/-- **C74.** What a callback shows is determined by the buffer, the clock and the arguments. -/
theorem C74_determined {b : Buf X} {cur : Time} {e e' : EchoEv X} (h : Echoes fl a b cur e) (h' : Echoes fl a b cur e') : e = e' := by
  have hask : ∀ {t u : Int}, AsksAt a cur t → AsksAt a cur u → t = u := by
    intro t u h1 h2
    cases h1 <;> cases h2 <;> simp_all
  cases h <;> cases h' <;> rename_i h1 _ _ <;> grind

/-- **C74, no limit and no fatal error.** If the lookups only ever succeed or raise one of the two logged exceptions, `echo`
without a limit never ends: call after call shows its lookup. -/
theorem C74_goes_on {D : Duration} (W : List (Buf X × Time)) (hW : ∀ w ∈ W, ∃ ops, runCore fl ops (Buf.init D) = some w.1)
    (hl : a.limit = none) (hok : ∀ w ∈ W, ∀ ev, Echoes fl a w.1 w.2 ev → ¬ ev.Last) {i : Nat} {b : Buf X} {cur : Time}
    (hi : W[i]? = some (b, cur)) : ∃ ev, Echoes fl a b cur ev ∧ (({} : Echo).run fl a W).2[i]? = some [ev] := by
  obtain ⟨-, h⟩ := C74_callbacks (a := a) W hW
  have none_last : ∀ j : ℕ, ∀ ev : EchoEv X, (({} : Echo).run fl a W).2[j]? = some [ev] → ¬ ev.Last := by
    intro j
    induction j using Nat.strongRecOn with
    | _ j ih =>
      intro ev hev hlast
      obtain ⟨⟨b', cur'⟩, hw⟩ : ∃ w, W[j]? = some w := by
        have hlt : j < W.length := by
          by_contra hge
          rw [List.getElem?_eq_none (by rw [(C74_callbacks (a := a) W hW).1]; exact not_lt.1 hge)] at hev
          cases hev
        exact ⟨_, List.getElem?_eq_getElem hlt⟩
      rcases h j b' cur' hw with ⟨⟨k, hk, ev', h1, h2⟩, -⟩ | ⟨-, ⟨h1, -⟩ | ⟨-, ev', h1, h2⟩⟩
      · exact ih k hk ev' h1 h2
      · rw [hl] at h1; cases h1
      · rw [hev] at h2
        simp only [Option.some.injEq, List.cons.injEq, and_true] at h2
        subst h2
        exact hok _ (List.mem_of_getElem? hw) ev h1 hlast
  rcases h i b cur hi with ⟨⟨k, hk, ev', h1, h2⟩, -⟩ | ⟨-, ⟨h1, -⟩ | ⟨-, ev', h1, h2⟩⟩
  · exact absurd h2 (none_last k ev' h1)
  · rw [hl] at h1; cases h1
  · exact ⟨ev', h1, h2⟩

/-! ### Examples and findings -/

/-- The two trees of the example, joined. -/
def joinedOps : List (Op Int) := exOps ++ [put ['a'] ['z'] 10 7, put ['a'] ['z'] 20 7]

theorem joined_python (h : IsFl fl) : runCore fl joinedOps (Buf.init 100) = some ((Buf.init 100).run joinedOps) := by
  have e : ∀ t, t < 100 → timeIn fl t = some t := fun t ht => small h (by omega)
  simp only [joinedOps, exOps, put, List.cons_append, List.nil_append, runCore, stepCore, setCore, e 10 (by decide), e 20 (by decide), e 12 (by decide),
    e 18 (by decide), e 0 (by decide)]
  rfl

theorem lookup_small (h : IsFl fl) {b : Buf Int} {s t : Name} {u : Time} (hu : u < 100) {r : PyRes (Msg Int)}
    (hr : thenOut (wrap (b.lookupTransform s t u)) = r) : lookupCore fl b s t u = r := by
  simp only [lookupCore, withTime, small h (show (u : ℕ) < _ by omega)]
  exact hr

/-- Two callbacks of an `echo` with limit 1: the first prints the latest transform, the second ends the program. -/
example (h : IsFl fl) : (({} : Echo).run fl { source := ['w'], target := ['y'], limit := some 1 }
      [((Buf.init 100).run joinedOps, 30), ((Buf.init 100).run joinedOps, 31)]).2 =
    [[.printed ⟨['w'], ['y'], 20, 16⟩], [.finished]] := by
  have h1 : lookupCore fl ((Buf.init 100).run joinedOps) ['w'] ['y'] 0 = .ok ⟨['w'], ['y'], 20, 16⟩ :=
    lookup_small h (by decide) (by decide +kernel)
  simp [Echo.run, Echo.tick, EchoArgs.over, EchoArgs.lookupTime, h1]

/-- **C74, finding.** `echo` catches two of the exceptions of a lookup and not the third: while the two frames are known but not
yet connected - as when the transform that joins them is the last to arrive - `ConnectivityException` ends the thread of its
timer. The program runs on and never shows anything, although the transform is available from the next call on. -/
theorem C74_connectivity_finding (h : IsFl fl) : ∃ b1 b2 : Buf Int,
    runCore fl exOps (Buf.init 100) = some b1 ∧ runCore fl joinedOps (Buf.init 100) = some b2 ∧
    (∃ m, lookupCore fl b2 ['w'] ['y'] 0 = .ok m) ∧
    ∀ n, (({} : Echo).run fl { source := ['w'], target := ['y'] } ((b1, 30) :: List.replicate n (b2, 31))).2 =
      [.died] :: List.replicate n [] := by
  refine ⟨exBuf, (Buf.init 100).run joinedOps, exBuf_python h, joined_python h,
    ⟨⟨['w'], ['y'], 20, 16⟩, lookup_small h (by decide) (by decide +kernel)⟩, fun n => ?_⟩
  have h1 : lookupCore fl exBuf ['w'] ['y'] 0 = .raised .connectivity := lookup_small h (by decide) (by decide +kernel)
  have ht : ({} : Echo).tick fl { source := ['w'], target := ['y'] } exBuf 30 = ({ count := 1, alive := false }, [.died]) := by
    simp [Echo.tick, EchoArgs.over, EchoArgs.lookupTime, h1, Exc.caughtBy]
  unfold Echo.run
  rw [ht]
  dsimp only
  rw [run_quiet _ (.inl rfl), List.length_replicate]

/-- **C74, finding.** With an offset back in time and simulated time near its start, the first callback ends the thread in the
same way. -/
theorem C74_offset_finding (b : Buf Int) (s t : Name) (cur : Time) (o : Int) (ho : (cur : Int) + o < 0) :
    (({} : Echo).run fl { source := s, target := t, offset := some o } [(b, cur)]).2 = [[.died]] := by
  have h0 : o ≠ 0 := by omega
  simp [Echo.run, Echo.tick, EchoArgs.over, EchoArgs.lookupTime, h0, ho]

/-- **C74, finding.** The option `--cache_time` never works: the program fails before it has a buffer. -/
theorem C74_cache_finding (c : ℚ) (hc : a.cacheTime = some c) : echoStart (X := X) a = none := by
  unfold echoStart; rw [hc]

end Tf2.Py
