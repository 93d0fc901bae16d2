import Verif.Proofs.RoundedInterp
import Verif.Props.Rounded
import Verif.Props.Origin
import Verif.Props.PoseDenote

/-!
# C85: interpolation and lookups of moving transforms in rounded arithmetic
-/
namespace Tf2

/-! ### Doubles -/

theorem IsDouble.below_one {x : ℝ} (h : IsDouble x) (hx : x < 1) : x ≤ 1 - 1 / 10 ^ 16 := by
  obtain ⟨m, k, hm, _, _, rfl⟩ := h
  have h2 : (1 : ℝ) < 2 := by norm_num
  have hp : (0 : ℝ) < (2 : ℝ) ^ k := zpow_pos (by norm_num) _
  have small : (1 : ℝ) / 10 ^ 16 ≤ (2 : ℝ) ^ (-53 : ℤ) := by
    rw [zpow_neg, ← one_div]
    exact one_div_le_one_div_of_le (by norm_num) (by norm_num)
  by_cases hk : 0 ≤ k
  · obtain ⟨n, rfl⟩ := Int.eq_ofNat_of_zero_le hk
    have e : (m : ℝ) * (2 : ℝ) ^ ((n : ℕ) : ℤ) = ((m * 2 ^ n : ℤ) : ℝ) := by push_cast; rw [zpow_natCast]
    rw [e] at hx ⊢
    have : m * 2 ^ n < 1 := by exact_mod_cast hx
    have : m * 2 ^ n ≤ 0 := by omega
    have : ((m * 2 ^ n : ℤ) : ℝ) ≤ 0 := by exact_mod_cast this
    refine this.trans ?_
    norm_num
  · by_cases hk2 : -53 ≤ k
    · obtain ⟨n, hn⟩ := Int.eq_ofNat_of_zero_le (by omega : 0 ≤ -k)
      have hkn : k = -(n : ℤ) := by omega
      have e : (m : ℝ) * (2 : ℝ) ^ k ≤ 1 - (2 : ℝ) ^ k := by
        have hlt : (m : ℝ) < (2 : ℝ) ^ n := by
          rw [hkn, zpow_neg, zpow_natCast] at hx
          have hpn : (0 : ℝ) < (2 : ℝ) ^ n := by positivity
          rwa [← div_eq_mul_inv, div_lt_one hpn] at hx
        have : m < 2 ^ n := by exact_mod_cast hlt
        have : m + 1 ≤ 2 ^ n := by omega
        have hr : (m : ℝ) + 1 ≤ (2 : ℝ) ^ n := by exact_mod_cast this
        have := mul_le_mul_of_nonneg_right hr hp.le
        have e1 : (2 : ℝ) ^ n * (2 : ℝ) ^ k = 1 := by
          rw [hkn, zpow_neg, zpow_natCast]; exact mul_inv_cancel₀ (by positivity)
        rw [e1] at this
        linarith
      have : (2 : ℝ) ^ (-53 : ℤ) ≤ (2 : ℝ) ^ k := zpow_le_zpow_right₀ h2.le hk2
      have := small.trans this
      linarith
    · have h3 : (2 : ℝ) ^ k ≤ (2 : ℝ) ^ (-54 : ℤ) := zpow_le_zpow_right₀ h2.le (by omega)
      have h4 : (m : ℝ) ≤ 2 ^ 53 := by
        have := (abs_le.1 hm).2
        exact_mod_cast this
      have h5 : (m : ℝ) * (2 : ℝ) ^ k ≤ 2 ^ 53 * (2 : ℝ) ^ (-54 : ℤ) :=
        mul_le_mul h4 h3 hp.le (by norm_num)
      have e : (2 : ℝ) ^ 53 * (2 : ℝ) ^ (-54 : ℤ) = 1 / 2 := by
        rw [zpow_neg, ← zpow_natCast, ← one_div]; norm_num
      rw [e] at h5
      norm_num
      linarith

theorem machine_fine {rnd : ℝ → ℝ} (h : NearestDouble rnd) (interp : Pose → Pose → Int → Int → Pose) :
    Fine (machine rnd h interp) := by
  refine ⟨?_, ?_, ?_, ?_, ?_⟩
  · show (2 : ℝ) ^ (-53 : ℤ) ≤ _
    rw [zpow_neg, ← one_div]; norm_num
  · show (2 : ℝ) ^ (-1075 : ℤ) ≤ _
    refine (zpow_le_zpow_right₀ (by norm_num) (by norm_num : (-1075 : ℤ) ≤ -200)).trans ?_
    rw [zpow_neg, ← one_div]
    exact one_div_le_one_div_of_le (by norm_num) (by norm_num)
  · show _ ≤ (2 : ℝ) ^ (1023 : ℤ)
    refine le_trans ?_ (zpow_le_zpow_right₀ (by norm_num) (by norm_num : (70 : ℤ) ≤ 1023))
    norm_num
  · show rnd 0 = 0
    have := (h 0 (by rw [abs_zero]; exact zpow_nonneg (by norm_num) _)).2 0 ⟨0, 0, by norm_num, by norm_num, by norm_num, by simp⟩
    simpa using this
  · intro x hx hlt
    exact (h x hx).1.below_one hlt

/-- A machine with IEEE 754 `double`s and the library `M`, running the interpolation of tf2. -/
noncomputable def fullMachine (rnd : ℝ → ℝ) (h : NearestDouble rnd) (M : Libm) : Rounding :=
  machine rnd h ((machine rnd h Pose.interp).interpolate M)

/-! ### C85 -/

/-- **C85.** On a machine with `double`s and an accurate library, interpolating between two transforms of unit length (up
to `τ`) that do not differ by half a turn gives the rotation up to `1e-7 + 2 τ` and the translation up to
`2e-14 L + 1e-50`, for all stamps of up to 10^19 ns. -/
theorem C85_interpolate {rnd : ℝ → ℝ} (h : NearestDouble rnd) {M : Libm} (hM : M.Accurate) {τ L : ℝ} (hτ : τ ≤ 1 / 10 ^ 6)
    (hL : L ≤ 10 ^ 9) {a b : Pose} (ha : NormalTo τ L a) (hb : NormalTo τ L b) (hab : NotOpposite a b) {num den : Int}
    (h0 : 0 ≤ num) (h1 : num ≤ den) (h2 : 0 < den) (h3 : den ≤ 10 ^ 19) :
    ((fullMachine rnd h M).interp a b num den).rot.apart (Pose.interp a b num den).rot ≤ 1 / 10 ^ 7 + 2 * τ ∧
    ((fullMachine rnd h M).interp a b num den).trans.apart (Pose.interp a b num den).trans ≤ 2 / 10 ^ 14 * L + 1 / 10 ^ 50 := by
  have hF := machine_fine h Pose.interp
  have ht := Rounding.ratio_near hF h0 h1 h2 h3
  have r2 : (0 : ℝ) < den := by exact_mod_cast h2
  have r0 : (0 : ℝ) ≤ (num : ℝ) / den := div_nonneg (by exact_mod_cast h0) r2.le
  have r1 : (num : ℝ) / den ≤ 1 := (div_le_one r2).2 (by exact_mod_cast h1)
  exact ⟨Rounding.slerp_near hF hM (by norm_num at *; linarith) ha.1 hb.1 hab r0 r1 ht,
    Rounding.interpolate3_near hF hL ha.2 hb.2 r0 r1 ht⟩

theorem fullMachine_tame {rnd : ℝ → ℝ} (h : NearestDouble rnd) (M : Libm) {τ L : ℝ} (t0 : 0 ≤ τ) (hτ : τ ≤ 2 / 10 ^ 7)
    (h0 : 0 ≤ L) (h1 : L ≤ 10 ^ 9) : Tame (fullMachine rnd h M) L (1 / 10 ^ 7 + 2 * τ) (2 / 10 ^ 14 * L + 1 / 10 ^ 50) := by
  have T : Tame (fullMachine rnd h M) L 0 0 := machine_tame h _ h0 h1
  refine ⟨T.u, T.η, by positivity, ?_, by positivity, ?_, h0, T.Ω⟩
  · norm_num at *; linarith
  · norm_num at *; linarith

theorem answers_moving {rnd : ℝ → ℝ} (h : NearestDouble rnd) {M : Libm} (hM : M.Accurate) {τ L : ℝ} (t0 : 0 ≤ τ)
    (hτ : τ ≤ 2 / 10 ^ 7) (h0 : 0 ≤ L) (h1 : L ≤ 10 ^ 9) (D : Duration) {ops : List (Op Pose)}
    (ho : AllOffered (NormalTo τ L) ops) (hs : ∀ m a s, Op.set m a s ∈ ops → m.stamp ≤ TIME_MAX)
    (hn : NoHalfTurn ((Buf.init D).run ops)) (target source : Name) (t : Time) :
    RoundedAnswers (fullMachine rnd h M) L (1 / 10 ^ 7 + 2 * τ) (2 / 10 ^ 14 * L + 1 / 10 ^ 50) ((Buf.init D).run ops) target source t := by
  have hnorm : AllOffered (Normal L) ops := fun m a s hm =>
    ⟨(ho m a s hm).1.trans (by norm_num at *; linarith), (ho m a s hm).2⟩
  refine answers_of (fullMachine_tame h M t0 hτ h0 h1) D hnorm (fun f D' st hc o n hadj num k0 k1 => ?_) target source t
  have hst : ∀ s ∈ st, NormalTo τ L s.xf := StoredIn.run ops (WF.init D) (StoredIn.init (NormalTo τ L) D) ho f _ hc
  have htm : ∀ s ∈ st, s.stamp ≤ TIME_MAX := StampsIn.run (P := fun t => t ≤ TIME_MAX) ops (WF.init D) (StampsIn.init _ D)
    (fun m a s hm _ => hs m a s hm) f D' st hc
  have hlt := hadj.2.2.1
  have hmax := htm _ hadj.2.1
  unfold TIME_MAX at hmax
  exact C85_interpolate h hM (by norm_num at *; linarith) h1 (hst _ hadj.1) (hst _ hadj.2.1) (hn f D' st hc o n hadj) k0 k1
    (by omega) (by norm_num; omega)

/-- **C85, lookups.** On such a machine, whatever transforms were given (unit length up to `τ`, translations up to `L`,
stamps that fit in a `ros::Time`), as long as no two that follow one another in the buffer differ by half a turn, every
lookup throws what the lookup in exact arithmetic throws, or answers with the same names and stamp and a transform within
the bounds of C84 for `dq = 1e-7 + 2 τ` and `dt = 2e-14 L + 1e-50`. -/
theorem C85_lookup {rnd : ℝ → ℝ} (h : NearestDouble rnd) {M : Libm} (hM : M.Accurate) {τ L : ℝ} (t0 : 0 ≤ τ)
    (hτ : τ ≤ 2 / 10 ^ 7) (h0 : 0 ≤ L) (h1 : L ≤ 10 ^ 9) (D : Duration) {ops : List (Op Pose)}
    (ho : AllOffered (NormalTo τ L) ops) (hs : ∀ m a s, Op.set m a s ∈ ops → m.stamp ≤ TIME_MAX)
    (hn : NoHalfTurn ((Buf.init D).run ops)) (target source : Name) (t : Time) :
    Agree (fullMachine rnd h M) L (1 / 10 ^ 7 + 2 * τ) (2 / 10 ^ 14 * L + 1 / 10 ^ 50) D ops target source t := by
  have hnorm : AllOffered (Normal L) ops := fun m a s hm =>
    ⟨(ho m a s hm).1.trans (by norm_num at *; linarith), (ho m a s hm).2⟩
  exact (answers_moving h hM t0 hτ h0 h1 D ho hs hn target source t).agree (fullMachine_tame h M t0 hτ h0 h1) hnorm

/-- **C85, in numbers.** An answer over `N` transforms is off by at most `(N + 1) (3e-7 + 4 τ)` in the rotation and
`(N + 1)² ((5e-7 + 8 τ) L + 1e-40)` in the translation. -/
theorem C85_numbers {rnd : ℝ → ℝ} (h : NearestDouble rnd) {M : Libm} (hM : M.Accurate) {τ L : ℝ} (t0 : 0 ≤ τ)
    (hτ : τ ≤ 2 / 10 ^ 7) (h0 : 0 ≤ L) (h1 : L ≤ 10 ^ 9) (D : Duration) {ops : List (Op Pose)}
    (ho : AllOffered (NormalTo τ L) ops) (hs : ∀ m a s, Op.set m a s ∈ ops → m.stamp ≤ TIME_MAX)
    (hn : NoHalfTurn ((Buf.init D).run ops)) {target source : Name} (hne : target ≠ source) (t : Time) {m : Msg Pose}
    (hm : (fullMachine rnd h M).lookup ((fullMachine rnd h M).run D ops) target source t = .ok m) :
    ∃ m', ((Buf.init D).run ops).lookupTransform target source t = .ok m' ∧
      m.parent = m'.parent ∧ m.child = m'.child ∧ m.stamp = m'.stamp ∧
      ∃ s g r x y n k, IsFrame ((Buf.init D).run ops) source s ∧ IsFrame ((Buf.init D).run ops) target g ∧ n ≤ 1000 ∧ k ≤ 1000 ∧
        Chain ((Buf.init D).run ops) m'.stamp s r x n ∧ Chain ((Buf.init D).run ops) m'.stamp g r y k ∧
        m.xf.rot.apart m'.xf.rot ≤ ((n + k : ℕ) + 1) * (3 / 10 ^ 7 + 4 * τ) ∧
        m.xf.trans.apart m'.xf.trans ≤ ((n + k : ℕ) + 1) ^ 2 * ((5 / 10 ^ 7 + 8 * τ) * L + 1 / 10 ^ 40) := by
  rcases C85_lookup h hM t0 hτ h0 h1 D ho hs hn target source t with ⟨e, he, _⟩ | ⟨m1, m', e1, e2, p1, p2, p3, _, hx⟩
  · rw [hm] at he; cases he
  · rw [hm] at e1
    obtain rfl : m = m1 := by cases e1; rfl
    obtain ⟨s, g, r, x, y, n, k, hs, hg, n1, k1, hc, hc', o1, o2⟩ := hx hne
    have hF := machine_fine h ((machine rnd h Pose.interp).interpolate M)
    have u0 := (fullMachine rnd h M).u_nonneg
    have e0 := (fullMachine rnd h M).η_nonneg
    have u1 : (fullMachine rnd h M).u ≤ _ := hF.u
    have e1 : (fullMachine rnd h M).η ≤ _ := hF.η
    have hN : (0 : ℝ) ≤ (n + k : ℕ) := Nat.cast_nonneg _
    refine ⟨m', e2, p1, p2, p3, s, g, r, x, y, n, k, hs, hg, n1, k1, hc, hc', o1.trans ?_, o2.trans ?_⟩
    all_goals
      generalize ((n + k : ℕ) : ℝ) = N at *
      generalize (fullMachine rnd h M).u = u at *
      generalize (fullMachine rnd h M).η = η at *
      have c1 : 10 * u + (1 / 10 ^ 7 + 2 * τ) + 16 * η ≤ 11 / 10 ^ 8 + 2 * τ := by norm_num at *; linarith
    · have := mul_le_mul_of_nonneg_left c1 (by positivity : 0 ≤ 2 * (N + 1))
      have e : (N + 1) * (3 / 10 ^ 7 + 4 * τ) = 2 * (N + 1) * (11 / 10 ^ 8 + 2 * τ) + (N + 1) * (8 / 10 ^ 8) := by ring
      have : 0 ≤ (N + 1) * (8 / 10 ^ 8) := by positivity
      linarith
    · have k1 := mul_le_mul_of_nonneg_right (mul_le_mul_of_nonneg_left c1 (by positivity : 0 ≤ 4 * (N + 1) ^ 2)) h0
      have c2 : 2 * (2 / 10 ^ 14 * L + 1 / 10 ^ 50 + 40 * η) ≤ 5 / 10 ^ 14 * L + 1 / 10 ^ 40 := by norm_num at *; linarith
      have a2 : (N + 1) ≤ (N + 1) ^ 2 := by nlinarith
      have k2 : 2 * (N + 1) * (2 / 10 ^ 14 * L + 1 / 10 ^ 50 + 40 * η) ≤ (N + 1) ^ 2 * (5 / 10 ^ 14 * L + 1 / 10 ^ 40) := by
        have e : 2 * (N + 1) * (2 / 10 ^ 14 * L + 1 / 10 ^ 50 + 40 * η) = (N + 1) * (2 * (2 / 10 ^ 14 * L + 1 / 10 ^ 50 + 40 * η)) := by ring
        rw [e]
        exact mul_le_mul a2 c2 (by positivity) (by positivity)
      have e : (N + 1) ^ 2 * ((5 / 10 ^ 7 + 8 * τ) * L + 1 / 10 ^ 40) = 4 * (N + 1) ^ 2 * (11 / 10 ^ 8 + 2 * τ) * L +
          (N + 1) ^ 2 * (5 / 10 ^ 14 * L + 1 / 10 ^ 40) + (N + 1) ^ 2 * L * (6 / 10 ^ 8 - 5 / 10 ^ 14) := by ring
      have : 0 ≤ (N + 1) ^ 2 * L * (6 / 10 ^ 8 - 5 / 10 ^ 14) := mul_nonneg (by positivity) (by norm_num)
      linarith

/-- The condition on half turns follows from what was given: it is enough that no two transforms given differ by half a
turn. -/
theorem noHalfTurn_of_offered {D : Duration} {ops : List (Op Pose)}
    (h : ∀ m a s m' a' s', Op.set m a s ∈ ops → Op.set m' a' s' ∈ ops → NotOpposite m.xf m'.xf) :
    NoHalfTurn ((Buf.init D).run ops) := by
  intro f D' st hc o n hadj
  have hst : ∀ s ∈ st, ∃ m a s', Op.set m a s' ∈ ops ∧ m.xf = s.xf :=
    StoredIn.run ops (WF.init D) (StoredIn.init (fun p => ∃ m a s', Op.set m a s' ∈ ops ∧ m.xf = p) D)
      (fun m a s hm => ⟨m, a, s, hm, rfl⟩) f _ hc
  obtain ⟨m, a, s, hm, e⟩ := hst _ hadj.1
  obtain ⟨m', a', s', hm', e'⟩ := hst _ hadj.2.1
  rw [← e, ← e']
  exact h _ _ _ _ _ _ hm hm'

/-! ### Why half turns are excluded -/

/-- **C85, finding.** Near half a turn interpolation jumps: for every `ε` there are rotations `a`, `b`, `b'`, with `b` and
`b'` less than `ε` apart, whose half-way interpolations from `a` are a quarter turn to either side, 1 apart at least. No
arithmetic with rounding can be close to the exact one there. -/
theorem C85_half_turn_finding (ε : ℝ) (hε : 0 < ε) : ∃ a b b' : Quat ℝ, a.Unit ∧ b.Unit ∧ b'.Unit ∧ b.apart b' ≤ ε ∧
    1 ≤ (a.slerp b (1 / 2)).apart (a.slerp b' (1 / 2)) := by
  set δ : ℝ := min (ε / 2) (1 / 2) with hδ
  have d0 : 0 < δ := lt_min (by linarith) (by norm_num)
  have d1 : δ ≤ 1 / 2 := min_le_right _ _
  have d2 : δ ≤ ε / 2 := min_le_left _ _
  have pi3 := Real.pi_gt_three
  have s0 : 0 < Real.sin δ := Real.sin_pos_of_pos_of_lt_pi d0 (by linarith)
  have s1 : Real.sin δ ≤ δ := Real.sin_le d0.le
  have c0 : 1 / 2 ≤ Real.cos δ := by
    have := Real.one_sub_sq_div_two_le_cos (x := δ)
    nlinarith
  have sc := Real.sin_sq_add_cos_sq δ
  have ub : ∀ s : ℝ, s ^ 2 = Real.sin δ ^ 2 → (⟨0, 0, Real.cos δ, s⟩ : Quat ℝ).Unit := by
    intro s hs
    rw [Quat.unit_iff]
    simp only [Quat.length2, Quat.dot]; linarith
  have ua : (⟨0, 0, 0, 1⟩ : Quat ℝ).Unit := by rw [Quat.unit_iff]; simp [Quat.length2, Quat.dot]
  refine ⟨⟨0, 0, 0, 1⟩, ⟨0, 0, Real.cos δ, Real.sin δ⟩, ⟨0, 0, Real.cos δ, -Real.sin δ⟩, ua, ub _ rfl, ub _ (by ring), ?_, ?_⟩
  · unfold Quat.apart
    refine Real.sqrt_le_iff.2 ⟨hε.le, ?_⟩
    simp only [sub_self, sub_neg_eq_add]
    nlinarith
  · have key : ∀ s : ℝ, s ^ 2 = Real.sin δ ^ 2 → s ≠ 0 →
        (Quat.slerp ⟨0, 0, 0, 1⟩ ⟨0, 0, Real.cos δ, s⟩ (1 / 2)).z =
          wt (1 / 2) (Real.arccos (Real.sin δ)) * (if s < 0 then -Real.cos δ else Real.cos δ) := by
      intro s hs hne
      have hf := Quat.slerp_form ⟨0, 0, 0, 1⟩ ⟨0, 0, Real.cos δ, s⟩ (1 / 2)
      have l1 := (Quat.unit_iff _).1 ua
      have l2 := (Quat.unit_iff _).1 (ub s hs)
      have hd : |(⟨0, 0, 0, 1⟩ : Quat ℝ).dot ⟨0, 0, Real.cos δ, s⟩| = Real.sin δ := by
        have e : (⟨0, 0, 0, 1⟩ : Quat ℝ).dot ⟨0, 0, Real.cos δ, s⟩ = s := by simp [Quat.dot]
        rw [e]
        exact (sq_eq_sq₀ (abs_nonneg _) s0.le).1 (by rw [sq_abs]; exact hs)
      rw [l1, l2, hd, mul_one, Real.sqrt_one, div_one] at hf
      have hz : Real.arccos (Real.sin δ) ≠ 0 := by
        rw [Ne, Real.arccos_eq_zero]
        nlinarith
      rw [hf.2 hz]
      have e : (⟨0, 0, 0, 1⟩ : Quat ℝ).dot ⟨0, 0, Real.cos δ, s⟩ = s := by simp [Quat.dot]
      unfold Quat.comb Quat.side
      rw [e]
      split <;> simp [Quat.neg]
    have k1 := key (Real.sin δ) rfl s0.ne'
    have k2 := key (-Real.sin δ) (by ring) (neg_ne_zero.2 s0.ne')
    rw [if_neg (not_lt.2 s0.le)] at k1
    rw [if_pos (by linarith)] at k2
    -- the weight at a half
    set th := Real.arccos (Real.sin δ) with hth
    have th1 : th = Real.pi / 2 - δ := by
      rw [hth, Real.arccos_eq_pi_div_two_sub_arcsin, Real.arcsin_sin (by linarith) (by linarith)]
    have hw : 1 / 2 ≤ wt (1 / 2) th * Real.cos δ := by
      have hne : th ≠ 0 := by rw [th1]; linarith
      unfold wt
      rw [if_neg hne]
      have e1 : Real.sin th = Real.cos δ := by rw [th1, Real.sin_pi_div_two_sub]
      have cpos : 0 < Real.cos δ := by linarith
      rw [e1, div_mul_cancel₀ _ cpos.ne']
      have h2 : 1 / 2 * th = Real.pi / 4 - δ / 2 := by rw [th1]; ring
      rw [h2, ← Real.sin_pi_div_six]
      exact Real.sin_le_sin_of_le_of_le_pi_div_two (by linarith) (by linarith) (by linarith)
    unfold Quat.apart
    refine Real.le_sqrt_of_sq_le ?_
    rw [k1, k2]
    generalize wt (1 / 2) th = w at *
    have h1 : (1 : ℝ) ^ 2 ≤ (w * Real.cos δ - w * -Real.cos δ) ^ 2 := by
      have e : w * Real.cos δ - w * -Real.cos δ = 2 * (w * Real.cos δ) := by ring
      rw [e]
      exact pow_le_pow_left₀ (by norm_num) (by linarith) 2
    have := sq_nonneg ((Quat.slerp ⟨0, 0, 0, 1⟩ ⟨0, 0, Real.cos δ, Real.sin δ⟩ (1 / 2)).x - (Quat.slerp ⟨0, 0, 0, 1⟩ ⟨0, 0, Real.cos δ, -Real.sin δ⟩ (1 / 2)).x)
    have := sq_nonneg ((Quat.slerp ⟨0, 0, 0, 1⟩ ⟨0, 0, Real.cos δ, Real.sin δ⟩ (1 / 2)).y - (Quat.slerp ⟨0, 0, 0, 1⟩ ⟨0, 0, Real.cos δ, -Real.sin δ⟩ (1 / 2)).y)
    have := sq_nonneg ((Quat.slerp ⟨0, 0, 0, 1⟩ ⟨0, 0, Real.cos δ, Real.sin δ⟩ (1 / 2)).w - (Quat.slerp ⟨0, 0, 0, 1⟩ ⟨0, 0, Real.cos δ, -Real.sin δ⟩ (1 / 2)).w)
    linarith

/-! ### Why the bound is of the order of 1e-8, not 1e-16 -/

theorem IsDouble.above_one {x : ℝ} (h : IsDouble x) (hx : 1 < x) : 1 + (2 : ℝ) ^ (-52 : ℤ) ≤ x := by
  obtain ⟨m, k, hm, _, _, rfl⟩ := h
  have h2 : (1 : ℝ) < 2 := by norm_num
  have hp : (0 : ℝ) < (2 : ℝ) ^ k := zpow_pos (by norm_num) _
  by_cases hk : -52 ≤ k
  · obtain ⟨n, hn⟩ := Int.eq_ofNat_of_zero_le (by omega : 0 ≤ k + 52)
    have e : (m : ℝ) * (2 : ℝ) ^ k = ((m * 2 ^ n : ℤ) : ℝ) * (2 : ℝ) ^ (-52 : ℤ) := by
      have : k = (n : ℤ) + (-52) := by omega
      rw [this, zpow_add₀ (by norm_num), zpow_natCast]; push_cast; ring
    have h52 : (2 : ℝ) ^ (52 : ℤ) * (2 : ℝ) ^ (-52 : ℤ) = 1 := by rw [← zpow_add₀ (by norm_num)]; norm_num
    have hq : (0 : ℝ) < (2 : ℝ) ^ (-52 : ℤ) := zpow_pos (by norm_num) _
    rw [e] at hx ⊢
    have h3 : ((2 ^ 52 : ℤ) : ℝ) < ((m * 2 ^ n : ℤ) : ℝ) := by
      by_contra hc
      have h4 := mul_le_mul_of_nonneg_right (not_lt.1 hc) hq.le
      have e5 : ((2 ^ 52 : ℤ) : ℝ) = (2 : ℝ) ^ (52 : ℤ) := by norm_num
      rw [e5, h52] at h4
      linarith
    have h5 : (2 ^ 52 : ℤ) < m * 2 ^ n := by exact_mod_cast h3
    have h6 : ((2 ^ 52 + 1 : ℤ) : ℝ) ≤ ((m * 2 ^ n : ℤ) : ℝ) := by exact_mod_cast h5
    have h7 := mul_le_mul_of_nonneg_right h6 hq.le
    have e5 : ((2 ^ 52 + 1 : ℤ) : ℝ) = (2 : ℝ) ^ (52 : ℤ) + 1 := by norm_num
    rw [e5, add_mul, h52, one_mul] at h7
    exact h7
  · have h3 : (2 : ℝ) ^ k ≤ (2 : ℝ) ^ (-53 : ℤ) := zpow_le_zpow_right₀ h2.le (by omega)
    have h4 : (m : ℝ) ≤ 2 ^ 53 := by
      have := (abs_le.1 hm).2
      exact_mod_cast this
    have h5 : (m : ℝ) * (2 : ℝ) ^ k ≤ 2 ^ 53 * (2 : ℝ) ^ (-53 : ℤ) := mul_le_mul h4 h3 hp.le (by norm_num)
    have e : (2 : ℝ) ^ 53 * (2 : ℝ) ^ (-53 : ℤ) = 1 := by
      rw [zpow_neg, ← one_div]; norm_num
    rw [e] at h5
    linarith

/-- Doubles are not rounded. -/
theorem NearestDouble.fix {rnd : ℝ → ℝ} (h : NearestDouble rnd) {x : ℝ} (hx : IsDouble x) (hb : |x| ≤ (2 : ℝ) ^ (1023 : ℤ)) :
    rnd x = x := by
  have := (h x hb).2 x hx
  rw [sub_self, abs_zero] at this
  exact sub_eq_zero.1 (abs_nonpos_iff.1 this)

/-- `2 ^ (-56)` is lost when added to 1. -/
theorem NearestDouble.one_add {rnd : ℝ → ℝ} (h : NearestDouble rnd) {d : ℝ} (h0 : 0 ≤ d) (h1 : d ≤ 1 / 2 ^ 56) :
    rnd (1 + d) = 1 := by
  have hb : |1 + d| ≤ (2 : ℝ) ^ (1023 : ℤ) := by
    rw [abs_of_nonneg (by linarith)]
    refine le_trans ?_ (zpow_le_zpow_right₀ (by norm_num) (by norm_num : (70 : ℤ) ≤ 1023))
    norm_num at *; linarith
  have o : IsDouble 1 := ⟨1, 0, by norm_num, by norm_num, by norm_num, by norm_num⟩
  have hm := (h _ hb).2 1 o
  have hd := (h _ hb).1
  have e : |(1 : ℝ) - (1 + d)| = d := by rw [show (1 : ℝ) - (1 + d) = -d by ring, abs_neg, abs_of_nonneg h0]
  rw [e] at hm
  obtain ⟨m1, m2⟩ := abs_le.1 hm
  rcases lt_trichotomy (rnd (1 + d)) 1 with hl | hl | hl
  · have := hd.below_one hl
    exfalso
    norm_num at *; linarith
  · exact hl
  · have := hd.above_one hl
    rw [zpow_neg, ← one_div] at this
    exfalso
    norm_num at *; linarith

/-- **C85, finding.** Interpolation on `double`s sticks: between the identity and a rotation whose quaternion is
`2^-28` (4e-9) away every interpolated rotation is the identity, whatever the ratio, while the exact half-way rotation is at
least `2^-29` (2e-9) away: ten million times the precision of a `double`. So the bound of C85 on rotations cannot be of
the order of the precision. (The root of 1 is exact in every C library.) -/
theorem C85_sticks_finding {rnd : ℝ → ℝ} (h : NearestDouble rnd) {M : Libm} (hM : M.Accurate) (h1 : M.sqrt 1 = 1) :
    ∃ a b : Pose, NormalTo (1 / 10 ^ 16) 0 a ∧ NormalTo (1 / 10 ^ 16) 0 b ∧ NotOpposite a b ∧
      (∀ num den : Int, ((fullMachine rnd h M).interp a b num den).rot = a.rot) ∧
      1 / 2 ^ 29 ≤ ((fullMachine rnd h M).interp a b 1 2).rot.apart (Pose.interp a b 1 2).rot := by
  have big : ∀ x : ℝ, |x| ≤ 2 → |x| ≤ (2 : ℝ) ^ (1023 : ℤ) := by
    intro x hx
    refine hx.trans (le_trans ?_ (zpow_le_zpow_right₀ (by norm_num) (by norm_num : (70 : ℤ) ≤ 1023)))
    norm_num
  have r0 : rnd 0 = 0 := h.fix ⟨0, 0, by norm_num, by norm_num, by norm_num, by norm_num⟩ (big _ (by norm_num))
  have r1 : rnd 1 = 1 := h.fix ⟨1, 0, by norm_num, by norm_num, by norm_num, by norm_num⟩ (big _ (by norm_num))
  have rd : rnd (1 / 2 ^ 28 * (1 / 2 ^ 28)) = 1 / 2 ^ 56 := by
    have e : (1 : ℝ) / 2 ^ 28 * (1 / 2 ^ 28) = 1 / 2 ^ 56 := by norm_num
    rw [e]
    refine h.fix ⟨1, -56, by norm_num, by norm_num, by norm_num, ?_⟩ (big _ ?_)
    · rw [zpow_neg]; norm_num
    · rw [abs_of_pos (by norm_num)]; norm_num
  have rs : rnd (1 / 2 ^ 56 + 1) = 1 := by rw [add_comm]; exact h.one_add (by norm_num) le_rfl
  have ac : M.acos 1 = 0 := by
    have := hM.acos 1 (by norm_num) le_rfl
    rw [Real.arccos_one, mul_zero, sub_zero] at this
    exact abs_nonpos_iff.1 this
  set F := machine rnd h Pose.interp with hF
  have Fr : F.rnd = rnd := rfl
  have rdd : rnd (1 / 2 ^ 56) = 1 / 2 ^ 56 := by
    have e : (1 : ℝ) / 2 ^ 28 * (1 / 2 ^ 28) = 1 / 2 ^ 56 := by norm_num
    rw [e] at rd; exact rd
  have daa : F.dot ⟨0, 0, 0, 1⟩ ⟨0, 0, 0, 1⟩ = 1 := by
    simp only [Rounding.dot, Rounding.sum4, Fr, mul_zero, mul_one, r0, r1, add_zero, zero_add]
  have dab : F.dot ⟨0, 0, 0, 1⟩ ⟨1 / 2 ^ 28, 0, 0, 1⟩ = 1 := by
    simp only [Rounding.dot, Rounding.sum4, Fr, mul_zero, zero_mul, mul_one, r0, r1, add_zero, zero_add]
  have dbb : F.dot ⟨1 / 2 ^ 28, 0, 0, 1⟩ ⟨1 / 2 ^ 28, 0, 0, 1⟩ = 1 := by
    simp only [Rounding.dot, Rounding.sum4, Fr, rd, mul_zero, mul_one, r0, r1, add_zero, rdd, rs]
  have stick : ∀ t, F.slerp M ⟨0, 0, 0, 1⟩ ⟨1 / 2 ^ 28, 0, 0, 1⟩ t = ⟨0, 0, 0, 1⟩ := by
    intro t
    have hang : F.angleShortestPath M ⟨0, 0, 0, 1⟩ ⟨1 / 2 ^ 28, 0, 0, 1⟩ = 0 := by
      unfold Rounding.angleShortestPath
      rw [daa, dab, dbb]
      dsimp only
      rw [if_neg (by norm_num), Fr, mul_one, r1, h1, div_one, r1]
      have : M.acosClamped 1 = 0 := by unfold Libm.acosClamped; norm_num; exact ac
      rw [this, zero_mul, r0]
    unfold Rounding.slerp
    rw [hang]
    simp [Fr, r0]
  have hmach : ∀ num den : Int, ((fullMachine rnd h M).interp ⟨⟨0, 0, 0, 1⟩, ⟨0, 0, 0⟩⟩ ⟨⟨1 / 2 ^ 28, 0, 0, 1⟩, ⟨0, 0, 0⟩⟩ num den).rot = ⟨0, 0, 0, 1⟩ :=
    fun num den => stick _
  have z0 : (⟨0, 0, 0⟩ : Vec3 ℝ).length = 0 := by simp [Vec3.length, Vec3.length2, Vec3.dot]
  refine ⟨⟨⟨0, 0, 0, 1⟩, ⟨0, 0, 0⟩⟩, ⟨⟨1 / 2 ^ 28, 0, 0, 1⟩, ⟨0, 0, 0⟩⟩, ⟨?_, z0.le⟩, ⟨?_, z0.le⟩, ?_, hmach, ?_⟩
  · simp only [Quat.length2, Quat.dot]; norm_num
  · simp only [Quat.length2, Quat.dot]; norm_num
  · unfold NotOpposite; simp only [Quat.dot]; norm_num
  · rw [hmach]
    have e2 : (Pose.interp ⟨⟨0, 0, 0, 1⟩, ⟨0, 0, 0⟩⟩ ⟨⟨1 / 2 ^ 28, 0, 0, 1⟩, ⟨0, 0, 0⟩⟩ 1 2).rot =
        Quat.slerp ⟨0, 0, 0, 1⟩ ⟨1 / 2 ^ 28, 0, 0, 1⟩ (1 / 2) := by
      show Quat.slerp _ _ (((1 : Int) : ℝ) / ((2 : Int) : ℝ)) = _
      norm_num
    rw [e2]
    have hf := (Quat.slerp_form ⟨0, 0, 0, 1⟩ ⟨1 / 2 ^ 28, 0, 0, 1⟩ (1 / 2)).2
    set th := Real.arccos (|(⟨0, 0, 0, 1⟩ : Quat ℝ).dot ⟨1 / 2 ^ 28, 0, 0, 1⟩| /
      Real.sqrt ((⟨0, 0, 0, 1⟩ : Quat ℝ).length2 * (⟨1 / 2 ^ 28, 0, 0, 1⟩ : Quat ℝ).length2)) with hth
    have hd : (⟨0, 0, 0, 1⟩ : Quat ℝ).dot ⟨1 / 2 ^ 28, 0, 0, 1⟩ = 1 := by simp [Quat.dot]
    have hne : th ≠ 0 := by
      rw [hth, Ne, Real.arccos_eq_zero, hd, not_le, abs_one]
      have hs : 1 < Real.sqrt ((⟨0, 0, 0, 1⟩ : Quat ℝ).length2 * (⟨1 / 2 ^ 28, 0, 0, 1⟩ : Quat ℝ).length2) := by
        rw [Real.lt_sqrt (by norm_num)]
        simp only [Quat.length2, Quat.dot]; norm_num
      exact (div_lt_one (by linarith)).2 hs
    rw [hf hne]
    have t0 : 0 ≤ th := Real.arccos_nonneg _
    have t1 : th ≤ Real.pi / 2 := Real.arccos_le_pi_div_two.2 (div_nonneg (abs_nonneg _) (Real.sqrt_nonneg _))
    have hw := wt_nonneg (t := 1 / 2) (by norm_num) (by norm_num) t0 t1
    have hx : (Quat.comb (wt (1 - 1 / 2) th) (wt (1 / 2) th) ⟨0, 0, 0, 1⟩ (Quat.side ⟨0, 0, 0, 1⟩ ⟨1 / 2 ^ 28, 0, 0, 1⟩)).x =
        wt (1 / 2) th * (1 / 2 ^ 28) := by
      unfold Quat.comb Quat.side
      rw [hd, if_neg (by norm_num)]
      simp
    unfold Quat.apart
    refine Real.le_sqrt_of_sq_le ?_
    rw [hx]
    generalize Quat.comb (wt (1 - 1 / 2) th) (wt (1 / 2) th) ⟨0, 0, 0, 1⟩ (Quat.side ⟨0, 0, 0, 1⟩ ⟨1 / 2 ^ 28, 0, 0, 1⟩) = q
    have l1 : (1 / 2 ^ 29 : ℝ) ≤ wt (1 / 2) th * (1 / 2 ^ 28) := by
      have := mul_le_mul_of_nonneg_right hw (by norm_num : (0 : ℝ) ≤ 1 / 2 ^ 28)
      norm_num at *; linarith
    have l2 := pow_le_pow_left₀ (by norm_num : (0 : ℝ) ≤ 1 / 2 ^ 29) l1 2
    have s1 := sq_nonneg ((⟨0, 0, 0, 1⟩ : Quat ℝ).y - q.y)
    have s2 := sq_nonneg ((⟨0, 0, 0, 1⟩ : Quat ℝ).z - q.z)
    have s3 := sq_nonneg ((⟨0, 0, 0, 1⟩ : Quat ℝ).w - q.w)
    have e : ((⟨0, 0, 0, 1⟩ : Quat ℝ).x - wt (1 / 2) th * (1 / 2 ^ 28)) ^ 2 = (wt (1 / 2) th * (1 / 2 ^ 28)) ^ 2 := by
      show (0 - _) ^ 2 = _
      ring
    rw [e]
    linarith

/-! ### The hypotheses can be met -/

/-- A library without errors. -/
noncomputable def exactLibm : Libm := ⟨Real.sin, Real.arccos, Real.sqrt⟩

theorem exactLibm_accurate : exactLibm.Accurate := by
  refine ⟨fun x _ => ?_, fun x _ _ => ?_, fun x _ _ => ?_⟩
  all_goals
    simp only [exactLibm, sub_self, abs_zero]
  · positivity
  · exact mul_nonneg (by norm_num) (Real.arccos_nonneg _)
  · positivity

/-- A frame that turns and moves. -/
noncomputable def turningOps : List (Op Pose) :=
  [.set ⟨['w'], ['a'], 10, ⟨⟨0, 0, 3/5, 4/5⟩, ⟨1, 2, 3⟩⟩⟩ ['p'] false,
   .set ⟨['w'], ['a'], 20, ⟨⟨5/13, 0, 0, 12/13⟩, ⟨4, 5, 6⟩⟩⟩ ['p'] false]

theorem turning_given {m a s} (hm : Op.set m a s ∈ turningOps) : ValidMsg m ∧ NormalTo 0 10 m.xf ∧ m.stamp ≤ TIME_MAX ∧
    s = false ∧ stripSlash m.child = ['a'] ∧ (m.stamp = 10 ∨ m.stamp = 20) := by
  simp only [turningOps, List.mem_cons, List.not_mem_nil, or_false, Op.set.injEq] at hm
  have hok : ∀ p : Pose, p.rot.Unit → Rigid.hasNaN p = false ∧ Rigid.normOK p = true := by
    intro p hp
    refine ⟨rfl, ?_⟩
    show Pose.normOK p = true
    unfold Quat.Unit at hp
    have : p.rot.w * p.rot.w + p.rot.x * p.rot.x + p.rot.y * p.rot.y + p.rot.z * p.rot.z - 1 = 0 := by linarith
    simp only [Pose.normOK, this, abs_zero, decide_eq_true_eq]
    norm_num
  have hl : ∀ v : Vec3 ℝ, v.length2 ≤ 100 → v.length ≤ 10 := fun v hv =>
    Real.sqrt_le_iff.2 ⟨by norm_num, by norm_num; exact hv⟩
  rcases hm with ⟨rfl, _, rfl⟩ | ⟨rfl, _, rfl⟩
  · have hu : (⟨0, 0, 3/5, 4/5⟩ : Quat ℝ).Unit := by unfold Quat.Unit; norm_num
    refine ⟨⟨by decide, by decide, by decide, (hok _ hu).1, (hok _ hu).2⟩, ⟨?_, hl _ ?_⟩, by decide, rfl, by decide, .inl rfl⟩
    · rw [(Quat.unit_iff _).1 hu]; norm_num
    · simp only [Vec3.length2, Vec3.dot]; norm_num
  · have hu : (⟨5/13, 0, 0, 12/13⟩ : Quat ℝ).Unit := by unfold Quat.Unit; norm_num
    refine ⟨⟨by decide, by decide, by decide, (hok _ hu).1, (hok _ hu).2⟩, ⟨?_, hl _ ?_⟩, by decide, rfl, by decide, .inr rfl⟩
    · rw [(Quat.unit_iff _).1 hu]; norm_num
    · simp only [Vec3.length2, Vec3.dot]; norm_num

theorem turning_half : NoHalfTurn ((Buf.init 100).run turningOps) := by
  refine noHalfTurn_of_offered ?_
  intro m a s m' a' s' hm hm'
  simp only [turningOps, List.mem_cons, List.not_mem_nil, or_false, Op.set.injEq] at hm hm'
  rcases hm with ⟨rfl, _⟩ | ⟨rfl, _⟩ <;> rcases hm' with ⟨rfl, _⟩ | ⟨rfl, _⟩ <;>
  · unfold NotOpposite; simp only [Quat.dot]; norm_num [abs_of_pos]

theorem turning_answers {t : Time} (h1 : 10 < t) (h2 : t < 20) : ['a'] ∈ mentions turningOps ∧ ['w'] ∈ mentions turningOps ∧
    (∃ m, ((Buf.init 100).run turningOps).lookupTransform ['w'] ['a'] t = .ok m) ∧
    ∃ m, ((Buf.init 100).run turningOps).lookupTransform ['a'] ['w'] t = .ok m := by
  have hv := fun {m a s} => @turning_given m a s
  have hr : Regular 100 turningOps := ⟨by decide, fun m a s hm _ => by rcases (hv hm).2.2.2.2.2 with h | h <;> rw [h] <;> decide,
    fun m a s hm _ => by rw [(hv hm).2.2.2.2.1]; decide⟩
  have va := (hv (m := _) (List.mem_cons_self ..)).1
  have vb := (hv (m := _) (List.mem_cons_of_mem _ (List.mem_cons_self ..))).1
  have oa : offersFor ['a'] turningOps = [(⟨['w'], ['a'], 10, ⟨⟨0, 0, 3/5, 4/5⟩, ⟨1, 2, 3⟩⟩⟩, false),
      (⟨['w'], ['a'], 20, ⟨⟨5/13, 0, 0, 12/13⟩, ⟨4, 5, 6⟩⟩⟩, false)] := by
    simp [turningOps, offersFor, va, vb, stripSlash]
  have ra : recentFor ['a'] turningOps [] = [⟨['w'], ['a'], 10, ⟨⟨0, 0, 3/5, 4/5⟩, ⟨1, 2, 3⟩⟩⟩,
      ⟨['w'], ['a'], 20, ⟨⟨5/13, 0, 0, 12/13⟩, ⟨4, 5, 6⟩⟩⟩] := by
    simp [turningOps, recentFor, va, vb, stripSlash]
  have ow : offersFor ['w'] turningOps = [] := by
    simp [turningOps, offersFor, stripSlash]
  have e1 : Effective 100 turningOps ['a'] ⟨['w'], ['a'], 10, ⟨⟨0, 0, 3/5, 4/5⟩, ⟨1, 2, 3⟩⟩⟩ := by
    refine ⟨by rw [ra]; rfl, ?_⟩
    rw [ra]
    intro a ha
    simp only [List.mem_cons, List.not_mem_nil, or_false] at ha
    rcases ha with rfl | rfl <;> decide
  have e2 : Effective 100 turningOps ['a'] ⟨['w'], ['a'], 20, ⟨⟨5/13, 0, 0, 12/13⟩, ⟨4, 5, 6⟩⟩⟩ := by
    refine ⟨by rw [ra]; rfl, ?_⟩
    rw [ra]
    intro a ha
    simp only [List.mem_cons, List.not_mem_nil, or_false] at ha
    rcases ha with rfl | rfl <;> decide
  have sa : Says 100 turningOps t ['a'] ['w'] _ := .between oa e1 e2 h1 h2 (fun k hk => by
    have := List.mem_of_find?_eq_some hk.1
    rw [ra] at this
    simp only [List.mem_cons, List.not_mem_nil, or_false] at this
    rcases this with rfl | rfl
    · exact .inl (by decide)
    · exact .inr (by decide)) rfl
  have hw : ∀ {p : Name} {e : Pose}, ¬ Says 100 turningOps t ['w'] p e := by
    intro p e h
    obtain ⟨m, s, hm, _⟩ := h.offer
    rw [ow] at hm
    cases hm
  have la : Leads 100 turningOps t ['a'] ['w'] _ 1 := .snoc .refl sa (by decide)
  have wa : WayEnds 100 turningOps t ['a'] := ⟨_, _, 1, by decide, la, fun ⟨_, _, h, _⟩ => hw h⟩
  have ww : WayEnds 100 turningOps t ['w'] := ⟨_, _, 0, by decide, .refl, fun ⟨_, _, h, _⟩ => hw h⟩
  refine ⟨sa.mentioned.1, sa.mentioned.2, ?_, ?_⟩
  · exact (C59_complete hr interpZero_pose (by omega) sa.mentioned.2 sa.mentioned.1 (by decide) (by decide)
      ⟨by decide, by decide⟩ ⟨by decide, by decide⟩ ww wa).2 ⟨_, _, _, _, _, la, .refl⟩
  · exact (C59_complete hr interpZero_pose (by omega) sa.mentioned.1 sa.mentioned.2 (by decide) (by decide)
      ⟨by decide, by decide⟩ ⟨by decide, by decide⟩ wa ww).2 ⟨_, _, _, _, _, .refl, la⟩

theorem turning_answer : ∃ m, ((Buf.init 100).run turningOps).lookupTransform ['w'] ['a'] 13 = .ok m :=
  (turning_answers (by decide) (by decide)).2.2.1

/-- The hypotheses of `C85_lookup` and `C85_numbers` are met by a turning frame looked up between two messages: the lookup on
the machine succeeds. -/
example : ∃ rnd, ∃ h : NearestDouble rnd, ∃ m, (fullMachine rnd h exactLibm).lookup ((fullMachine rnd h exactLibm).run 100 turningOps) ['w'] ['a'] 13 = .ok m ∧
    exactLibm.Accurate ∧ exactLibm.sqrt 1 = 1 ∧ AllOffered (NormalTo 0 10) turningOps ∧ NoHalfTurn ((Buf.init 100).run turningOps) := by
  obtain ⟨rnd, h⟩ := exists_nearest
  have ho : AllOffered (NormalTo 0 10) turningOps := fun m a s hm => (turning_given hm).2.1
  refine ⟨rnd, h, ?_⟩
  obtain ⟨m', hm'⟩ := turning_answer
  rcases C85_lookup (L := 10) h exactLibm_accurate le_rfl (by norm_num) (by norm_num) (by norm_num) 100 ho
    (fun m a s hm => (turning_given hm).2.2.1) turning_half ['w'] ['a'] 13 with ⟨e, _, he⟩ | ⟨m, _, e1, _⟩
  · rw [hm'] at he; cases he
  · exact ⟨m, e1, exactLibm_accurate, Real.sqrt_one, ho, turning_half⟩

/-- The hypotheses of `C85_interpolate` are met by the two transforms, a third of the way. -/
example : NormalTo 0 10 ⟨⟨0, 0, 3/5, 4/5⟩, ⟨1, 2, 3⟩⟩ ∧ NormalTo 0 10 ⟨⟨5/13, 0, 0, 12/13⟩, ⟨4, 5, 6⟩⟩ ∧
    NotOpposite ⟨⟨0, 0, 3/5, 4/5⟩, ⟨1, 2, 3⟩⟩ ⟨⟨5/13, 0, 0, 12/13⟩, ⟨4, 5, 6⟩⟩ := by
  refine ⟨(turning_given (m := ⟨['w'], ['a'], 10, _⟩) (List.mem_cons_self ..)).2.1,
    (turning_given (m := ⟨['w'], ['a'], 20, _⟩) (List.mem_cons_of_mem _ (List.mem_cons_self ..))).2.1, ?_⟩
  unfold NotOpposite; simp only [Quat.dot]; norm_num [abs_of_pos]

end Tf2
