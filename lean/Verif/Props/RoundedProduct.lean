import Verif.Spec.RoundedProduct
import Verif.Proofs.RoundedFive
import Verif.Props.RoundedInterp

/-!
# C92: the five-argument lookup with rounding
-/
namespace Tf2

variable {F : Rounding} {sqrt : ℝ → ℝ} {L dq dt : ℝ}

/-! ### One leg -/

/-- What a leg is: exact and rounded transforms that are close and of moderate size. -/
theorem leg_of (T : Tame F L dq dt) {b : Buf Pose} {target source : Name} {t : Time}
    (h : RoundedAnswers F L dq dt b target source t) {m m' : Msg Pose} (hm : F.lookup b target source t = .ok m)
    (hm' : b.lookupTransform target source t = .ok m') :
    m.stamp = m'.stamp ∧ ∃ N : ℕ, N ≤ 2000 ∧ Steps b target source t N ∧ Off F L dq dt N m.xf m'.xf ∧ Sized L N m'.xf := by
  rcases h with ⟨e, he, _⟩ | ⟨m1, m1', e1, e1', p1, p2, p3, hs, hx⟩
  · rw [hm] at he; cases he
  rw [hm] at e1
  rw [hm'] at e1'
  obtain rfl : m = m1 := by cases e1; rfl
  obtain rfl : m' = m1' := by cases e1'; rfl
  refine ⟨p3, ?_⟩
  by_cases hne : target = source
  · obtain rfl := hs hne
    subst hne
    refine ⟨0, by omega, .inl ⟨rfl, rfl⟩, ?_, ?_⟩
    · have u0 := F.u_nonneg; have n0 := F.η_nonneg; have := T.dq0; have := T.dt0; have := T.L0
      unfold Off
      rw [Quat.apart_self, Vec3.apart_self]
      constructor <;> positivity
    · have hx1 : m.xf = Pose.one := by
        unfold Buf.lookupTransform at hm'
        rw [if_pos rfl] at hm'
        cases hm'; rfl
      rw [hx1]
      refine ⟨?_, ?_, ?_⟩ <;> norm_num [Pose.one, Quat.identity, Quat.length, Quat.length2, Quat.dot, Vec3.zero, Vec3.length,
        Vec3.length2, Vec3.dot]
  · obtain ⟨s, g, r, x, y, n, k, a1, a2, a3, a4, a5, a6, a7, a8⟩ := hx hne
    exact ⟨n + k, by omega, .inr ⟨m', s, g, r, x, y, n, k, hm', a1, a2, a5, a6, a3, a4, rfl⟩, by exact_mod_cast a7, a8⟩

/-! ### The product -/

theorem product_near (T : Tame F L dq dt) (hs : SqrtNear F sqrt) (hΩ : 10 ^ 5 * (L + 1) ≤ F.Ω) {N M : ℕ} (hN : N ≤ 2000)
    (hM : M ≤ 2000) {a a' b b' : Pose} (ha : Off F L dq dt M a a') (sa : Sized L M a') (hb : Off F L dq dt N b b')
    (sb : Sized L N b') :
    (F.mulMsg sqrt a b).rot.gap (Pose.mulMsg a' b').rot ≤ (5 * (N + M + 2) + 280) * (10 * F.u + dq + 16 * F.η) ∧
    (F.mulMsg sqrt a b).trans.apart (Pose.mulMsg a' b').trans ≤
      (5 * (N + M + 2) ^ 2 + 31 * (N + M + 2)) * (10 * F.u + dq + 16 * F.η) * L + 3 * (N + M + 2) * (dt + 40 * F.η) := by
  have u0 := F.u_nonneg
  have n0 := F.η_nonneg
  have u1 := T.u
  have n1 := T.η
  have q0 := T.dq0
  have q1 := T.dq1
  have t0 := T.dt0
  have t1 := T.dt1
  have L0 := T.L0
  have hG : Rounding.Good F := ⟨u1, n1, by norm_num at *; linarith⟩
  obtain ⟨a1, a2⟩ := ha
  obtain ⟨b1, b2⟩ := hb
  obtain ⟨sa1, sa2, sa3⟩ := sa
  obtain ⟨sb1, sb2, sb3⟩ := sb
  have hP : (N : ℝ) + 1 ≤ 2001 := by exact_mod_cast (by omega : N + 1 ≤ 2001)
  have hQ : (M : ℝ) + 1 ≤ 2001 := by exact_mod_cast (by omega : M + 1 ≤ 2001)
  have hP1 : 1 ≤ (N : ℝ) + 1 := by have := Nat.cast_nonneg (α := ℝ) N; linarith
  have hQ1 : 1 ≤ (M : ℝ) + 1 := by have := Nat.cast_nonneg (α := ℝ) M; linarith
  have eN : (N : ℝ) + M + 2 = (N + 1) + (M + 1) := by ring
  have eN' : (N : ℝ) = (N + 1) - 1 := by ring
  have eM' : (M : ℝ) = (M + 1) - 1 := by ring
  rw [eN]
  rw [eN'] at sb3
  rw [eM'] at sa3
  generalize (N : ℝ) + 1 = P at *
  generalize (M : ℝ) + 1 = Q at *
  have eE : Rounding.e F = F.u + F.η := rfl
  obtain ⟨E, hE⟩ : ∃ E, E = 10 * F.u + dq + 16 * F.η := ⟨_, rfl⟩
  obtain ⟨d, hd⟩ : ∃ d, d = dt + 40 * F.η := ⟨_, rfl⟩
  have E0 : 0 ≤ E := by rw [hE]; positivity
  have d0 : 0 ≤ d := by rw [hd]; positivity
  have E1 : E ≤ 53 / 10 ^ 8 := by rw [hE]; norm_num at *; linarith
  have d1 : d ≤ 11 / 10 := by rw [hd]; norm_num at *; linarith
  have e1 : Rounding.e F ≤ E / 10 := by rw [eE, hE]; linarith
  have e0 : 0 ≤ Rounding.e F := by rw [eE]; positivity
  have e2 : 600 * Rounding.e F ≤ 1 / 1000 := by rw [eE]; norm_num at *; linarith
  have u2 : F.u ≤ E / 10 := by rw [hE]; linarith
  have η1 : 20 * F.η ≤ 1 / 2 * d := by rw [hd]; linarith
  rw [← hE] at a1 a2 b1 b2 ⊢
  rw [← hd] at a2 b2 ⊢
  have QE : 2 * Q * E ≤ 3 / 1000 := by
    have := mul_le_mul hQ E1 E0 (by norm_num)
    norm_num at *; linarith
  have PE : 2 * P * E ≤ 3 / 1000 := by
    have := mul_le_mul hP E1 E0 (by norm_num)
    norm_num at *; linarith
  have la1 : 98 / 100 ≤ a.rot.length := by
    have := Quat.length_le_apart a'.rot a.rot
    rw [Quat.apart_comm] at this
    linarith
  have la2 : a.rot.length ≤ 102 / 100 := by
    have := Quat.length_le_apart a.rot a'.rot
    linarith
  have lb1 : 98 / 100 ≤ b.rot.length := by
    have := Quat.length_le_apart b'.rot b.rot
    rw [Quat.apart_comm] at this
    linarith
  have lb2 : b.rot.length ≤ 102 / 100 := by
    have := Quat.length_le_apart b.rot b'.rot
    linarith
  -- sizes of the translations
  have PEL : 4 * P ^ 2 * E * L ≤ 1 / 100 * (P * L) := by
    have : 2 * P * E * (2 * (P * L)) ≤ 3 / 1000 * (2 * (P * L)) := mul_le_mul_of_nonneg_right PE (by positivity)
    have z : 0 ≤ P * L := by positivity
    linarith
  have QEL : 4 * Q ^ 2 * E * L ≤ 1 / 100 * (Q * L) := by
    have : 2 * Q * E * (2 * (Q * L)) ≤ 3 / 1000 * (2 * (Q * L)) := mul_le_mul_of_nonneg_right QE (by positivity)
    have z : 0 ≤ Q * L := by positivity
    linarith
  have PL : 0 ≤ P * L := by positivity
  have QL : 0 ≤ Q * L := by positivity
  have tb : b.trans.length ≤ 103 / 100 * (P * L) + 2 * (P * d) := by
    have := Vec3.length_le_apart b.trans b'.trans
    linarith
  have ta : a.trans.length ≤ 103 / 100 * (Q * L) + 2 * (Q * d) := by
    have := Vec3.length_le_apart a.trans a'.trans
    linarith
  have PL1 : P * L ≤ 2001 * L := mul_le_mul_of_nonneg_right hP L0
  have QL1 : Q * L ≤ 2001 * L := mul_le_mul_of_nonneg_right hQ L0
  have Pd : P * d ≤ 2001 * (11 / 10) := mul_le_mul hP d1 d0 (by norm_num)
  have Qd : Q * d ≤ 2001 * (11 / 10) := mul_le_mul hQ d1 d0 (by norm_num)
  have hΩ' : 5 * b.trans.length + a.trans.length + 1 ≤ F.Ω := by norm_num at hΩ; linarith
  constructor
  · refine (Rounding.mulMsg_rot hG hs la1 la2 lb1 lb2 (by linarith) (by linarith) (by linarith) (by linarith)).trans ?_
    have z1 : 0 ≤ P * E := by positivity
    have z2 : 0 ≤ Q * E := by positivity
    linarith
  · refine (Rounding.mulMsg_trans hG la1 la2 (by linarith) hΩ').trans ?_
    have v0 : 0 ≤ b.trans.length := Real.sqrt_nonneg _
    have w0 : 0 ≤ a.trans.length := Real.sqrt_nonneg _
    have v0' : 0 ≤ b'.trans.length := Real.sqrt_nonneg _
    have Pd0 : 0 ≤ P * d := by positivity
    have Qd0 : 0 ≤ Q * d := by positivity
    have s1 : 300 * Rounding.e F * b.trans.length ≤ 309 / 10 * (P * E * L) + 1 / 1000 * (P * d) := by
      have k1 := mul_le_mul_of_nonneg_left tb (by positivity : 0 ≤ 300 * Rounding.e F)
      have k2 := mul_le_mul_of_nonneg_right e1 (by positivity : 0 ≤ 309 * (P * L))
      have k3 := mul_le_mul_of_nonneg_right e2 Pd0
      linarith
    have s2 : 2 * F.u * a.trans.length ≤ 3 / 10 * (Q * E * L) + 1 / 1000 * (Q * d) := by
      have k1 := mul_le_mul_of_nonneg_left ta (by positivity : 0 ≤ 2 * F.u)
      have k2 := mul_le_mul_of_nonneg_right u2 (by positivity : 0 ≤ 206 / 100 * (Q * L))
      have k3 : 4 * F.u * (Q * d) ≤ 1 / 1000 * (Q * d) := mul_le_mul_of_nonneg_right (by norm_num at *; linarith) Qd0
      have z : 0 ≤ Q * E * L := by positivity
      linarith
    have s3 : 41 / 10 * a.rot.apart a'.rot * b'.trans.length ≤ 84 / 10 * (P * Q * E * L) := by
      have k1 : b'.trans.length ≤ 102 / 100 * (P * L) := by linarith
      have k2 := mul_le_mul a1 k1 v0' (by positivity)
      have z : 0 ≤ P * Q * E * L := by positivity
      linarith
    have s4 : d ≤ P * d := by
      have := mul_le_mul_of_nonneg_right hP1 d0
      linarith
    have z1 : 0 ≤ P ^ 2 * E * L := by positivity
    have z2 : 0 ≤ Q ^ 2 * E * L := by positivity
    have z3 : 0 ≤ P * Q * E * L := by positivity
    have z4 : 0 ≤ P * E * L := by positivity
    have z5 : 0 ≤ Q * E * L := by positivity
    have e3 : (5 * (P + Q) ^ 2 + 31 * (P + Q)) * E * L = 5 * (P ^ 2 * E * L) + 5 * (Q ^ 2 * E * L) + 10 * (P * Q * E * L) +
        31 * (P * E * L) + 31 * (Q * E * L) := by ring
    rw [e3]
    linarith

/-! ### Both legs -/

theorem lookup5_near (T : Tame F L dq dt) (hs : SqrtNear F sqrt) (hΩ : 10 ^ 5 * (L + 1) ≤ F.Ω) {D : Duration}
    {ops : List (Op Pose)} (ho : AllOffered (Normal L) ops)
    (h : ∀ target source t, RoundedAnswers F L dq dt ((Buf.init D).run ops) target source t)
    (target : Name) (ttime : Time) (source : Name) (stime : Time) (fixed : Name) :
    AgreeFixed F sqrt L dq dt D ops target ttime source stime fixed := by
  have hΩ' := T.Ω
  have L0 := T.L0
  have hw : WF D ((Buf.init D).run ops) := WF.run (WF.init D) ops
  unfold AgreeFixed
  rw [run_same T.u T.η (by norm_num at *; linarith) D ho]
  generalize hb : (Buf.init D).run ops = b at *
  have hl : ∀ x y t, @Buf.lookupTransform Pose (F.rigid5 sqrt) b x y t = F.lookup b x y t := fun _ _ _ => rfl
  have h1 := h fixed source stime
  have h2 := h target fixed ttime
  unfold Rounding.lookup5 Buf.lookupTransform5
  simp only [hl]
  have hv : ∀ n, (∃ e, b.validateFrameId n = .throw e) ∨ ∃ i, b.validateFrameId n = .ok i := by
    intro n
    rcases validate_cases b n with ⟨_, i, _, h⟩ | ⟨_, h⟩ | ⟨_, _, h⟩
    · exact .inr ⟨i, h⟩
    · exact .inl ⟨_, h⟩
    · exact .inl ⟨_, h⟩
  rcases hv target with ⟨e, hv1⟩ | ⟨i, hv1⟩
  · left; exact ⟨e, by rw [hv1], by rw [hv1]⟩
  rcases hv source with ⟨e, hv2⟩ | ⟨j, hv2⟩
  · left; exact ⟨e, by rw [hv1, hv2], by rw [hv1, hv2]⟩
  rcases hv fixed with ⟨e, hv3⟩ | ⟨k, hv3⟩
  · left; exact ⟨e, by rw [hv1, hv2, hv3], by rw [hv1, hv2, hv3]⟩
  rcases id h1 with ⟨e, x1, x2⟩ | ⟨m1, m1', x1, x2, _⟩
  · left; exact ⟨e, by rw [hv1, hv2, hv3, x1], by rw [hv1, hv2, hv3, x2]⟩
  rcases id h2 with ⟨e, y1, y2⟩ | ⟨m2, m2', y1, y2, _⟩
  · left; exact ⟨e, by rw [hv1, hv2, hv3, x1, y1], by rw [hv1, hv2, hv3, x2, y2]⟩
  right
  obtain ⟨_, N, hN, sN, oN, zN⟩ := leg_of T h1 x1 x2
  obtain ⟨st, M, hM, sM, oM, zM⟩ := leg_of T h2 y1 y2
  refine ⟨⟨target, source, m2.stamp, F.mulMsg sqrt m2.xf m1.xf⟩, ⟨target, source, m2'.stamp, Pose.mulMsg m2'.xf m1'.xf⟩,
    by rw [hv1, hv2, hv3, x1, y1]; rfl, by rw [hv1, hv2, hv3, x2, y2]; rfl, rfl, rfl, st, N, M, sN, sM, ?_⟩
  exact product_near T hs hΩ hN hM oM zM oN zN

/-! ### C92 -/

/-- **C92.** On a machine that rounds after every operation, a five-argument lookup throws exactly when the one in exact
arithmetic does, with the same exception, and otherwise its answer has the same names and stamp. With legs of `N` and `M`
transforms, the rotation is off by at most `(5 (N + M + 2) + 280) E` (up to the sign of the quaternion) and the translation by
at most `(5 (N + M + 2)² + 31 (N + M + 2)) E L + 3 (N + M + 2) (dt + 40 η)`, for `E = 10 u + dq + 16 η`: the matrices the
product goes through, and the quaternion read back from one, cost as much as some fifty more transforms. -/
theorem C92_rounding (T : Tame F L dq dt) (hs : SqrtNear F sqrt) (hΩ : 10 ^ 5 * (L + 1) ≤ F.Ω) (hi : InterpNear F L dq dt)
    (D : Duration) {ops : List (Op Pose)} (ho : AllOffered (Normal L) ops) (target : Name) (ttime : Time) (source : Name)
    (stime : Time) (fixed : Name) : AgreeFixed F sqrt L dq dt D ops target ttime source stime fixed := by
  refine lookup5_near T hs hΩ ho (fun target source t => answers_of T D ho (fun f D' st hc o n hadj num h0 h1 => ?_) target source t) _ _ _ _ _
  have hst : ∀ s ∈ st, Normal L s.xf := StoredIn.run ops (WF.init D) (StoredIn.init (Normal L) D) ho f _ hc
  have := hadj.2.2.1
  exact hi _ _ _ _ (hst _ hadj.1) (hst _ hadj.2.1) h0 h1 (by omega)

/-- **C92, static transforms.** -/
theorem C92_static (T : Tame F L 0 0) (hs : SqrtNear F sqrt) (hΩ : 10 ^ 5 * (L + 1) ≤ F.Ω) (D : Duration) {ops : List (Op Pose)}
    (ho : AllOffered (Normal L) ops) (hst : StaticOnly ops) (target : Name) (ttime : Time) (source : Name) (stime : Time)
    (fixed : Name) : AgreeFixed F sqrt L 0 0 D ops target ttime source stime fixed :=
  lookup5_near T hs hΩ ho (fun target source t => answers_static T D ho hst target source t) _ _ _ _ _

theorem libm_sqrt {M : Libm} (hM : M.Accurate) (hu : 1 / 10 ^ 16 ≤ F.u) : SqrtNear F M.sqrt := by
  intro x h0 h1
  have h := hM.sqrt x h0 h1
  have n0 := F.η_nonneg
  have hs := Real.sqrt_nonneg x
  have : 5 / 10 ^ 16 * Real.sqrt x ≤ 5 * F.u * Real.sqrt x := mul_le_mul_of_nonneg_right (by norm_num at *; linarith) hs
  linarith

theorem machine_range {rnd : ℝ → ℝ} (h : NearestDouble rnd) (interp : Pose → Pose → Int → Int → Pose) (h1 : L ≤ 10 ^ 9) :
    10 ^ 5 * (L + 1) ≤ (machine rnd h interp).Ω := by
  have a3 : (2 : ℝ) ^ (50 : ℤ) ≤ (2 : ℝ) ^ (1023 : ℤ) := zpow_le_zpow_right₀ (by norm_num) (by norm_num)
  have a4 : (10 : ℝ) ^ 5 * (10 ^ 9 + 1) ≤ (2 : ℝ) ^ (50 : ℤ) := by norm_num
  have a5 : 10 ^ 5 * (L + 1) ≤ (10 : ℝ) ^ 5 * (10 ^ 9 + 1) := mul_le_mul_of_nonneg_left (by linarith) (by norm_num)
  exact a5.trans (a4.trans a3)

theorem machine_u {rnd : ℝ → ℝ} (h : NearestDouble rnd) (interp : Pose → Pose → Int → Int → Pose) :
    1 / 10 ^ 16 ≤ (machine rnd h interp).u := by
  show 1 / 10 ^ 16 ≤ (2 : ℝ) ^ (-53 : ℤ)
  rw [zpow_neg, ← one_div]
  norm_num

/-- **C92, moving frames.** With `double`s rounded to nearest, a C library good to four units in the last place, whatever
transforms were given (unit length up to `τ`, translations up to `L`, stamps that fit in a `ros::Time`), as long as no two that
follow one another in the buffer differ by half a turn. -/
theorem C92_lookup {rnd : ℝ → ℝ} (h : NearestDouble rnd) {M : Libm} (hM : M.Accurate) {τ L : ℝ} (t0 : 0 ≤ τ)
    (hτ : τ ≤ 2 / 10 ^ 7) (h0 : 0 ≤ L) (h1 : L ≤ 10 ^ 9) (D : Duration) {ops : List (Op Pose)}
    (ho : AllOffered (NormalTo τ L) ops) (hs : ∀ m a s, Op.set m a s ∈ ops → m.stamp ≤ TIME_MAX)
    (hn : NoHalfTurn ((Buf.init D).run ops)) (target : Name) (ttime : Time) (source : Name) (stime : Time) (fixed : Name) :
    AgreeFixed (fullMachine rnd h M) M.sqrt L (1 / 10 ^ 7 + 2 * τ) (2 / 10 ^ 14 * L + 1 / 10 ^ 50) D ops target ttime source stime fixed := by
  have hnorm : AllOffered (Normal L) ops := fun m a s hm =>
    ⟨(ho m a s hm).1.trans (by norm_num at *; linarith), (ho m a s hm).2⟩
  exact lookup5_near (fullMachine_tame h M t0 hτ h0 h1) (libm_sqrt hM (machine_u h _)) (machine_range h _ h1) hnorm
    (fun target source t => answers_moving h hM t0 hτ h0 h1 D ho hs hn target source t) _ _ _ _ _

/-- **C92, doubles and static transforms, in numbers.** With legs of `N` and `M` transforms the answer is off by at most
`(N + M + 58) / 2^46` in the rotation and `(N + M + 6)² (L / 2^46 + 1 / 2^1000)` in the translation: for ten transforms and
100 metres, less than a nanometre. -/
theorem C92_double {rnd : ℝ → ℝ} (h : NearestDouble rnd) {lib : Libm} (hM : lib.Accurate)
    (interp : Pose → Pose → Int → Int → Pose) (h0 : 0 ≤ L) (h1 : L ≤ 10 ^ 9)
    (D : Duration) {ops : List (Op Pose)} (ho : AllOffered (Normal L) ops) (hst : StaticOnly ops) {target source fixed : Name}
    (ttime stime : Time) {m : Msg Pose}
    (hm : (machine rnd h interp).lookup5 lib.sqrt ((machine rnd h interp).run D ops) target ttime source stime fixed = .ok m) :
    ∃ m', ((Buf.init D).run ops).lookupTransform5 target ttime source stime fixed = .ok m' ∧
      m.parent = m'.parent ∧ m.child = m'.child ∧ m.stamp = m'.stamp ∧
      ∃ N M : ℕ, Steps ((Buf.init D).run ops) fixed source stime N ∧ Steps ((Buf.init D).run ops) target fixed ttime M ∧
        m.xf.rot.gap m'.xf.rot ≤ (N + M + 58) / 2 ^ 46 ∧
        m.xf.trans.apart m'.xf.trans ≤ (N + M + 6) ^ 2 * (L / 2 ^ 46 + (2 : ℝ) ^ (-1000 : ℤ)) := by
  rcases C92_static (machine_tame h interp h0 h1) (libm_sqrt hM (machine_u h interp)) (machine_range h interp h1) D ho hst
    target ttime source stime fixed with ⟨e, he, _⟩ | ⟨m1, m', e1, e2, p1, p2, p3, N, M, hN, hM', o1, o2⟩
  · rw [hm] at he; cases he
  rw [hm] at e1
  obtain rfl : m = m1 := by cases e1; rfl
  refine ⟨m', e2, p1, p2, p3, N, M, hN, hM', o1.trans ?_, o2.trans ?_⟩
  all_goals
    have eu : (machine rnd h interp).u = 1 / 2 ^ 53 := by
      show (2 : ℝ) ^ (-53 : ℤ) = _
      rw [zpow_neg, ← one_div]; norm_num
    have eη : (machine rnd h interp).η = (2 : ℝ) ^ (-1075 : ℤ) := rfl
    have b1 : (2 : ℝ) ^ (-1075 : ℤ) ≤ 1 / 2 ^ 60 := by
      have : (2 : ℝ) ^ (-1075 : ℤ) ≤ (2 : ℝ) ^ (-60 : ℤ) := zpow_le_zpow_right₀ (by norm_num) (by norm_num)
      rw [zpow_neg (2 : ℝ) 60, ← one_div] at this
      exact_mod_cast this
    have b2 : 120 * (2 : ℝ) ^ (-1075 : ℤ) ≤ (2 : ℝ) ^ (-1000 : ℤ) := by
      have e : (2 : ℝ) ^ (-1000 : ℤ) = 2 ^ 75 * (2 : ℝ) ^ (-1075 : ℤ) := by
        rw [← zpow_natCast, ← zpow_add₀ (by norm_num)]; norm_num
      rw [e]
      have : (0 : ℝ) < (2 : ℝ) ^ (-1075 : ℤ) := zpow_pos (by norm_num) _
      have h75 : (120 : ℝ) ≤ 2 ^ 75 := by norm_num
      exact mul_le_mul_of_nonneg_right h75 this.le
    have b0 : (0 : ℝ) ≤ (2 : ℝ) ^ (-1075 : ℤ) := zpow_nonneg (by norm_num) _
    rw [eu, eη]
    generalize (2 : ℝ) ^ (-1075 : ℤ) = d at *
    generalize (2 : ℝ) ^ (-1000 : ℤ) = d' at *
    have hK : (2 : ℝ) ≤ N + M + 2 := by have := Nat.cast_nonneg (α := ℝ) N; have := Nat.cast_nonneg (α := ℝ) M; linarith
    have c1 : 10 * (1 / 2 ^ 53) + 0 + 16 * d ≤ 1 / 2 ^ 49 := by norm_num at *; linarith
  · have eK : (N : ℝ) + M + 58 = (N + M + 2) + 56 := by ring
    rw [eK]
    generalize (N : ℝ) + M + 2 = K at *
    have := mul_le_mul_of_nonneg_left c1 (by positivity : 0 ≤ 5 * K + 280)
    norm_num at *
    linarith
  · have eK : (N : ℝ) + M + 6 = (N + M + 2) + 4 := by ring
    rw [eK]
    generalize (N : ℝ) + M + 2 = K at *
    have k1 := mul_le_mul_of_nonneg_right (mul_le_mul_of_nonneg_left c1 (by positivity : 0 ≤ 5 * K ^ 2 + 31 * K)) h0
    have k2 : 3 * K * (0 + 40 * d) ≤ (K + 4) ^ 2 * d' := by
      have a1 : 3 * K * (0 + 40 * d) = K * (120 * d) := by ring
      have a2 : K ≤ (K + 4) ^ 2 := by nlinarith
      rw [a1]
      exact mul_le_mul a2 b2 (by positivity) (by positivity)
    have k3 : (5 * K ^ 2 + 31 * K) * (1 / 2 ^ 49) * L ≤ (K + 4) ^ 2 * (L / 2 ^ 46) := by
      have a1 : (5 * K ^ 2 + 31 * K) ≤ 8 * (K + 4) ^ 2 := by nlinarith
      have a2 := mul_le_mul_of_nonneg_right a1 (by positivity : 0 ≤ 1 / 2 ^ 49 * L)
      have e : 8 * (K + 4) ^ 2 * (1 / 2 ^ 49 * L) = (K + 4) ^ 2 * (L / 2 ^ 46) := by norm_num; ring
      linarith
    linarith

/-- **C92, points.** Transforming a point with a `tf2::Transform` made from a quaternion of nearly unit length, on a machine that
rounds: off by at most 300 times the machine's error and the length of the point, plus twice the error and the length of the
translation. -/
theorem C92_point (hu : F.u ≤ 1 / 10 ^ 9) (hη : F.η ≤ 1 / 10 ^ 9) {a : Pose} (h1 : 98 / 100 ≤ a.rot.length)
    (h2 : a.rot.length ≤ 102 / 100) (v : Vec3 ℝ) (hΩ : 5 * v.length + a.trans.length + 10 ^ 4 ≤ F.Ω) :
    (F.apply (F.toXform a) v).apart (a.toXform.apply v) ≤
      300 * (F.u + F.η) * v.length + 2 * F.u * a.trans.length + 20 * F.η := by
  have z1 : 0 ≤ v.length := Real.sqrt_nonneg _
  have z2 : 0 ≤ a.trans.length := Real.sqrt_nonneg _
  exact Rounding.apply_near (F := F) ⟨hu, hη, by norm_num at *; linarith⟩ h1 h2 a.trans v (by norm_num at *; linarith)

/-- **C92, there and back.** Storing a quaternion of nearly unit length in a `tf2::Matrix3x3` and reading it back with
`getRotation`, on a machine that rounds: the quaternion, normalised, up to its sign and up to 2800 times the machine's error. -/
theorem C92_round_trip (hu : F.u ≤ 1 / 10 ^ 9) (hη : F.η ≤ 1 / 10 ^ 9) (hΩ : 10 ^ 4 ≤ F.Ω) (hs : SqrtNear F sqrt) {q : Quat ℝ}
    (h1 : 98 / 100 ≤ q.length) (h2 : q.length ≤ 102 / 100) :
    (F.getRotation sqrt (F.basis q)).gap q.normalize ≤ 2800 * (F.u + F.η) := by
  have hG : Rounding.Good F := ⟨hu, hη, hΩ⟩
  have lp : 0 < q.length := by linarith
  have pq := Rounding.length2_of h1 h2
  have hb := Rounding.basis_ap hG pq.1 pq.2
  rw [← Quat.ofQuat_normalize lp] at hb
  have e0 : 0 ≤ F.e := hG.e.1
  have hb' : Rounding.MatAp F 412 (F.basis q) (Mat3.ofQuat q.normalize) := by
    have k : ∀ {x : ℝ}, x ≤ 67 * F.e → x ≤ 412 * F.e := fun h => by linarith
    exact ⟨k hb.e00, k hb.e01, k hb.e02, k hb.e10, k hb.e11, k hb.e12, k hb.e20, k hb.e21, k hb.e22⟩
  obtain ⟨p', hp', hap⟩ := Rounding.getRotation_near hG hs (Quat.normalize_unit lp) hb'
  show _ ≤ 2800 * F.e
  unfold Quat.gap
  rcases hp' with rfl | rfl
  · exact (min_le_left _ _).trans hap
  · exact (min_le_right _ _).trans hap

/-- **C92, one product.** `operator*` of two `tf2::Transform`s made from quaternions of nearly unit length, and the quaternion
read back, on a machine that rounds. -/
theorem C92_product (hu : F.u ≤ 1 / 10 ^ 9) (hη : F.η ≤ 1 / 10 ^ 9) (hs : SqrtNear F sqrt) {a b : Pose}
    (ha1 : 98 / 100 ≤ a.rot.length) (ha2 : a.rot.length ≤ 102 / 100) (hb1 : 98 / 100 ≤ b.rot.length)
    (hb2 : b.rot.length ≤ 102 / 100) (hΩ : 5 * b.trans.length + a.trans.length + 10 ^ 4 ≤ F.Ω) :
    (F.mulMsg sqrt a b).rot.gap (Pose.mulMsg a b).rot ≤ 2800 * (F.u + F.η) ∧
    (F.mulMsg sqrt a b).trans.apart (Pose.mulMsg a b).trans ≤
      300 * (F.u + F.η) * b.trans.length + 2 * F.u * a.trans.length + 20 * F.η := by
  have z1 : 0 ≤ b.trans.length := Real.sqrt_nonneg _
  have z2 : 0 ≤ a.trans.length := Real.sqrt_nonneg _
  have hG : Rounding.Good F := ⟨hu, hη, by norm_num at *; linarith⟩
  constructor
  · have := Rounding.mulMsg_rot hG hs ha1 ha2 hb1 hb2 ha1 ha2 hb1 hb2
    rw [Quat.apart_self, Quat.apart_self] at this
    show _ ≤ 2800 * F.e
    linarith
  · exact Rounding.apply_near (F := F) hG ha1 ha2 a.trans b.trans (by norm_num at *; linarith)

/-! ### The hypotheses can be met -/

theorem lookup5_answers {D : Duration} {ops : List (Op Pose)} {target source fixed : Name} {ttime stime : Time}
    (h1 : target ∈ mentions ops) (h2 : source ∈ mentions ops) (h3 : fixed ∈ mentions ops)
    (n1 : target ≠ noParentName) (n2 : source ≠ noParentName) (n3 : fixed ≠ noParentName)
    (l1 : LegalName target) (l2 : LegalName source) (l3 : LegalName fixed) {m1 m2 : Msg Pose}
    (x : ((Buf.init D).run ops).lookupTransform fixed source stime = .ok m1)
    (y : ((Buf.init D).run ops).lookupTransform target fixed ttime = .ok m2) :
    ∃ m, ((Buf.init D).run ops).lookupTransform5 target ttime source stime fixed = .ok m := by
  have hv : ∀ {n}, n ∈ mentions ops → n ≠ noParentName → LegalName n → ∃ i, ((Buf.init D).run ops).validateFrameId n = .ok i := by
    intro n a b c
    have hf := isFrame_of_mentioned (D := D) rfl a b
    rcases validate_cases ((Buf.init D).run ops) n with ⟨_, i, _, h⟩ | ⟨h, _⟩ | ⟨_, h, _⟩
    · exact ⟨i, h⟩
    · exact absurd c h
    · exact absurd h hf.1
  obtain ⟨_, v1⟩ := hv h1 n1 l1
  obtain ⟨_, v2⟩ := hv h2 n2 l2
  obtain ⟨_, v3⟩ := hv h3 n3 l3
  unfold Buf.lookupTransform5
  rw [v1, v2, v3, x, y]
  exact ⟨_, rfl⟩

/-- Where was the turning frame at time 13, seen from where it is at time 17? The hypotheses of `C92_lookup` hold, and the
machine answers. -/
example : ∃ rnd, ∃ h : NearestDouble rnd, ∃ m, (fullMachine rnd h exactLibm).lookup5 exactLibm.sqrt
      ((fullMachine rnd h exactLibm).run 100 turningOps) ['a'] 17 ['a'] 13 ['w'] = .ok m ∧
    exactLibm.Accurate ∧ AllOffered (NormalTo 0 10) turningOps ∧ NoHalfTurn ((Buf.init 100).run turningOps) := by
  obtain ⟨rnd, h⟩ := exists_nearest
  have ho : AllOffered (NormalTo 0 10) turningOps := fun m a s hm => (turning_given hm).2.1
  refine ⟨rnd, h, ?_⟩
  obtain ⟨ma, mw, ⟨m1, x⟩, _⟩ := turning_answers (t := 13) (by decide) (by decide)
  obtain ⟨_, _, _, ⟨m2, y⟩⟩ := turning_answers (t := 17) (by decide) (by decide)
  obtain ⟨m', hm'⟩ := lookup5_answers ma ma mw (by decide) (by decide) (by decide) ⟨by decide, by decide⟩ ⟨by decide, by decide⟩
    ⟨by decide, by decide⟩ x y
  rcases C92_lookup (L := 10) h exactLibm_accurate le_rfl (by norm_num) (by norm_num) (by norm_num) 100 ho
    (fun m a s hm => (turning_given hm).2.2.1) turning_half ['a'] 17 ['a'] 13 ['w'] with ⟨e, _, he⟩ | ⟨m, _, e1, _⟩
  · rw [hm'] at he; cases he
  · exact ⟨m, e1, exactLibm_accurate, ho, turning_half⟩

/-- The hypotheses of `C92_static`, `C92_double` and `C92_rounding` are met by two turned frames. -/
example : ∃ rnd, ∃ h : NearestDouble rnd, ∃ m, (machine rnd h Pose.interp).lookup5 exactLibm.sqrt
      ((machine rnd h Pose.interp).run 100 turnedOps) ['b'] 7 ['a'] 7 ['a'] = .ok m ∧
    AllOffered (Normal 10) turnedOps ∧ StaticOnly turnedOps ∧ Tame (machine rnd h Pose.interp) 10 0 0 ∧
    SqrtNear (machine rnd h Pose.interp) exactLibm.sqrt ∧ 10 ^ 5 * (10 + 1) ≤ (machine rnd h Pose.interp).Ω ∧
    InterpNear (machine rnd h Pose.interp) 10 0 0 := by
  obtain ⟨rnd, h⟩ := exists_nearest
  have hst : StaticOnly turnedOps := by
    intro m a s hm
    simp only [turnedOps, List.mem_cons, List.not_mem_nil, or_false, Op.set.injEq] at hm
    rcases hm with ⟨_, _, rfl⟩ | ⟨_, _, rfl⟩ <;> rfl
  have T := machine_tame (L := 10) h Pose.interp (by norm_num) (by norm_num)
  have hq := libm_sqrt exactLibm_accurate (machine_u h Pose.interp)
  have hr := machine_range (L := 10) h Pose.interp (by norm_num)
  refine ⟨rnd, h, ?_⟩
  obtain ⟨m2, y⟩ := turned_hyps.2.2.2.2.2
  have x : ∃ m, ((Buf.init 100).run turnedOps).lookupTransform ['a'] ['a'] 7 = .ok m :=
    ⟨_, by unfold Buf.lookupTransform; rw [if_pos rfl]⟩
  obtain ⟨m1, x⟩ := x
  have va := (turned_valid _ _ _ (List.mem_cons_self ..)).1
  have vb := (turned_valid _ _ _ (List.mem_cons_of_mem _ (List.mem_cons_self ..))).1
  have ma : ['a'] ∈ mentions turnedOps := by
    simp [turnedOps, mentions, va, vb, stripSlash]
  have mb : ['b'] ∈ mentions turnedOps := by
    simp [turnedOps, mentions, va, vb, stripSlash]
  obtain ⟨m', hm'⟩ := lookup5_answers mb ma ma (by decide) (by decide) (by decide) ⟨by decide, by decide⟩ ⟨by decide, by decide⟩
    ⟨by decide, by decide⟩ x y
  rcases C92_static T hq hr 100 turned_normal hst ['b'] 7 ['a'] 7 ['a'] with ⟨e, _, he⟩ | ⟨m, _, e1, _⟩
  · rw [hm'] at he; cases he
  · exact ⟨m, e1, turned_normal, hst, T, hq, hr, fun a b num den _ _ _ _ _ =>
      ⟨by show Quat.apart (Pose.interp a b num den).rot _ ≤ _; rw [Quat.apart_self], by show Vec3.apart (Pose.interp a b num den).trans _ ≤ _; rw [Vec3.apart_self]⟩⟩

/-- The hypotheses of `C92_point`, `C92_product` and `C92_round_trip` are met by a turned frame and a point. -/
example : ∃ rnd, ∃ h : NearestDouble rnd, (machine rnd h Pose.interp).u ≤ 1 / 10 ^ 9 ∧ (machine rnd h Pose.interp).η ≤ 1 / 10 ^ 9 ∧
    5 * (⟨3, 4, 0⟩ : Vec3 ℝ).length + (⟨1, 2, 2⟩ : Vec3 ℝ).length + 10 ^ 4 ≤ (machine rnd h Pose.interp).Ω ∧
    SqrtNear (machine rnd h Pose.interp) exactLibm.sqrt ∧ (⟨0, 0, 3/5, 4/5⟩ : Quat ℝ).length = 1 := by
  obtain ⟨rnd, h⟩ := exists_nearest
  have T := machine_tame (L := 10) h Pose.interp (by norm_num) (by norm_num)
  have hr := machine_range (L := 10) h Pose.interp (by norm_num)
  refine ⟨rnd, h, T.u, T.η, ?_, libm_sqrt exactLibm_accurate (machine_u h Pose.interp), ?_⟩
  · have e1 : (⟨3, 4, 0⟩ : Vec3 ℝ).length ≤ 5 := Real.sqrt_le_iff.2 ⟨by norm_num, by simp only [Vec3.length2, Vec3.dot]; norm_num⟩
    have e2 : (⟨1, 2, 2⟩ : Vec3 ℝ).length ≤ 3 := Real.sqrt_le_iff.2 ⟨by norm_num, by simp only [Vec3.length2, Vec3.dot]; norm_num⟩
    refine le_trans ?_ hr
    norm_num
    linarith
  · simp only [Quat.length, Quat.length2, Quat.dot]; norm_num

end Tf2
