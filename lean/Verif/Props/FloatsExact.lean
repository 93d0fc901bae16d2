import Verif.Spec.FloatsExact
import Verif.Proofs.FloatsSame
import Verif.Props.FloatsFive
import Verif.Props.RoundedProduct

/-!
# C95: answers of an IEEE 754 machine are close to the exact ones
-/
namespace Tf2

section
variable {K : Machine} (h : K.IEEE)
include h

/-- The arithmetic of the machine without overflow, with its interpolation. -/
noncomputable def Machine.IEEE.full : Rounding := fullMachine _ h.nearest K.lib

theorem Machine.IEEE.full_extends : Extends K h.full where
  fine := machine_fine h.nearest _
  fl x hx := h.beyond.fl x hx

omit h in
theorem FPose.Is.eq {p : FPose} {x : Pose} (hp : p.Is x) : p = x.up := Prod.ext hp.1 hp.2

/-- Broken messages leave no trace. -/
theorem Reads.run {P : Pose → Prop} {ops : List (Op FPose)} {ops' : List (Op Pose)} (hr : Reads P ops ops') : ∀ b : Buf FPose,
    @Buf.run FPose K.rigid b ops = @Buf.run FPose K.rigid b (ops'.map (Op.mapX Pose.up)) := by
  let _ := K.rigid
  induction hr with
  | nil => intro b; rfl
  | clear _ ih => intro b; exact ih _
  | @broken m a s ops ops' hm _ ih =>
    intro b
    have e : b.setTransform m a s = (b, .invalid) := C89_reject h hm b a s
    show (b.setTransform m a s).1.run ops = _
    rw [e]
    exact ih b
  | @set m m' a s ops ops' hm _ _ ih =>
    intro b
    obtain ⟨e1, e2, e3, e4⟩ := hm
    have e : m = m'.mapX Pose.up := by
      obtain ⟨p, c, st, xf⟩ := m
      obtain ⟨p', c', st', xf'⟩ := m'
      obtain rfl : p = p' := e1
      obtain rfl : c = c' := e2
      obtain rfl : st = st' := e3
      obtain rfl : xf = xf'.up := FPose.Is.eq e4
      rfl
    rw [e]
    exact ih _

omit h in
theorem Reads.offered {P : Pose → Prop} {ops : List (Op FPose)} {ops' : List (Op Pose)} (hr : Reads P ops ops') : AllOffered P ops' := by
  induction hr with
  | nil => intro m a s hm; cases hm
  | clear _ ih =>
    intro m a s hm
    cases hm with
    | tail _ hm => exact ih m a s hm
  | broken _ _ ih => exact ih
  | set _ hp _ ih =>
    intro m a s hm
    cases hm with
    | head => exact hp
    | tail _ hm => exact ih m a s hm

/-- The buffer of both machines. -/
theorem twin_buffer {L : ℝ} (h0 : 0 ≤ L) (h1 : L ≤ 10 ^ 290) (D : Duration) {ops : List (Op FPose)} {ops' : List (Op Pose)}
    (hr : Reads (Normal L) ops ops') (hs : ∀ m a s, Op.set m a s ∈ ops' → m.stamp ≤ TIME_MAX) :
    ∃ b : Buf (Pose × FPose), b.mapX Prod.snd = K.run D ops ∧ b.mapX Prod.fst = h.full.run D ops' ∧ WF D b ∧
      @EdgesIn _ (twinRigid K h.full) (Twin (FEdge (9 * (L + 1)))) b := by
  let _ := twinRigid K h.full
  have ho := Reads.offered hr
  have hu : h.full.u ≤ 1 / 10 ^ 9 := h.full_extends.fine.u.trans (by norm_num)
  have hη : h.full.η ≤ 1 / 10 ^ 9 := h.full_extends.fine.η.trans (by norm_num)
  have hΩ : 10 ≤ h.full.Ω := le_trans (by norm_num) h.full_extends.fine.Ω
  have room : 10 ^ 16 * (9 * (L + 1) + 1) ≤ h.full.Ω := h.room h1
  have mem : ∀ {m a s}, Op.set m a s ∈ ops'.map (Op.mapX (fun p : Pose => (p, p.up))) → ∃ m', Op.set m' a s ∈ ops' ∧
      m = m'.mapX (fun p : Pose => (p, p.up)) := by
    intro m a s hm
    obtain ⟨o, ho, e⟩ := List.mem_map.1 hm
    cases o with
    | clear => cases e
    | set m' a' s' =>
      simp only [Op.mapX, Op.set.injEq] at e
      obtain ⟨rfl, rfl, rfl⟩ := e
      exact ⟨m', ho, rfl⟩
  have loose : ∀ {p : Pose}, Normal L p → p.rot.Loose := fun hp => hp.1.trans (by norm_num)
  refine ⟨(Buf.init D).run (ops'.map (Op.mapX (fun p : Pose => (p, p.up)))), ?_, ?_, WF.run (WF.init D) _, ?_⟩
  · show _ = @Buf.run FPose K.rigid (Buf.init D) ops
    rw [Reads.run h hr, ← @run_mapX _ _ Prod.snd (twinRigid K h.full) K.rigid _ _ (fun m a s _ => rfl), Op.mapX_mapX]
    rfl
  · show _ = @Buf.run Pose h.full.rigid (Buf.init D) ops'
    rw [← @run_mapX _ _ Prod.fst (twinRigid K h.full) h.full.rigid, Op.mapX_mapX, Op.mapX_id]
    · rfl
    · intro m a s hm
      obtain ⟨m', hm', rfl⟩ := mem hm
      have hp := ho m' a s hm'
      have n1 := (normOK_normal hu hη hΩ hp).1
      have n2 : K.normOK m'.xf.up = true := h.beyond.passes (q := m'.xf.rot) rfl (hp.1.trans (by norm_num))
      have n3 : Machine.hasNaN m'.xf.up = false := rfl
      show (_ && !false && h.full.normOK m'.xf) = (_ && !Machine.hasNaN m'.xf.up && K.normOK m'.xf.up)
      rw [n1, n2, n3]
      rfl
  · refine twin_edges h.full_extends rfl h.lib h.acosAll h0 (by norm_num at *; linarith) (WF.run (WF.init D) _) ?_ ?_
    · refine StoredIn.run _ (WF.init D) (StoredIn.init _ D) (fun m a s hm => ?_)
      obtain ⟨m', hm', rfl⟩ := mem hm
      have hp := ho m' a s hm'
      exact ⟨rfl, m'.xf, rfl, loose hp, m'.xf.trans.box_length.mono hp.2⟩
    · refine StampsIn.run _ (WF.init D) (StampsIn.init _ D) (fun m a s hm _ => ?_)
      obtain ⟨m', hm', rfl⟩ := mem hm
      exact hs m' a s hm'

/-- **C95, no overflow.** As long as translations stay below 1e290 and rotations are unit quaternions, the machine with
infinities and NaN gives exactly the answers of rounded arithmetic without them (C84, C85), whatever broken messages
were offered in between. -/
theorem C95_same {L : ℝ} (h0 : 0 ≤ L) (h1 : L ≤ 10 ^ 290) (D : Duration) {ops : List (Op FPose)} {ops' : List (Op Pose)}
    (hr : Reads (Normal L) ops ops') (hs : ∀ m a s, Op.set m a s ∈ ops' → m.stamp ≤ TIME_MAX) (target source : Name) (t : Time) :
    K.lookup (K.run D ops) target source t = (h.full.lookup (h.full.run D ops') target source t).mapX (Msg.mapX Pose.up) := by
  obtain ⟨b, e1, e2, hw, hE⟩ := twin_buffer h h0 h1 D hr hs
  have l1 := @lookup_mapX _ _ Prod.snd (twinRigid K h.full) K.rigid (pair_snd _ _) b target source t
  have l2 := @lookup_mapX _ _ Prod.fst (twinRigid K h.full) (h.full.rigid5 K.lib.sqrt) (pair_fst _ _) b target source t
  rw [e1] at l1
  rw [e2] at l2
  have l2' : h.full.lookup (h.full.run D ops') target source t = _ := l2
  show @Buf.lookupTransform FPose K.rigid _ target source t = _
  rw [l1, l2']
  cases hl : @Buf.lookupTransform _ (twinRigid K h.full) b target source t with
  | throw e => rfl
  | ub => rfl
  | ok m =>
    have hT := twin_lookup h.full_extends (by positivity) (h.room h1) hw hE hl
    obtain ⟨p, c, st, ⟨x, y⟩⟩ := m
    obtain ⟨rfl, _⟩ := hT
    rfl

/-- **C95, no overflow, two times.** The same for the five-argument lookup. -/
theorem C95_same5 {L : ℝ} (h0 : 0 ≤ L) (h1 : L ≤ 10 ^ 290) (D : Duration) {ops : List (Op FPose)} {ops' : List (Op Pose)}
    (hr : Reads (Normal L) ops ops') (hs : ∀ m a s, Op.set m a s ∈ ops' → m.stamp ≤ TIME_MAX) (target : Name) (tt : Time)
    (source : Name) (st : Time) (fixed : Name) : K.lookup5 (K.run D ops) target tt source st fixed =
      (h.full.lookup5 K.lib.sqrt (h.full.run D ops') target tt source st fixed).mapX (Msg.mapX Pose.up) := by
  obtain ⟨b, e1, e2, hw, hE⟩ := twin_buffer h h0 h1 D hr hs
  have l1 := @lookup5_mapX _ _ Prod.snd (twinRigid K h.full) K.rigid (pair_snd _ _) b target tt source st fixed
  have l2 := @lookup5_mapX _ _ Prod.fst (twinRigid K h.full) (h.full.rigid5 K.lib.sqrt) (pair_fst _ _) b target tt source st fixed
  rw [e1] at l1
  rw [e2] at l2
  have l2' : h.full.lookup5 K.lib.sqrt (h.full.run D ops') target tt source st fixed = _ := l2
  show @Buf.lookupTransform5 FPose K.rigid _ target tt source st fixed = _
  rw [l1, l2']
  cases hl : @Buf.lookupTransform5 _ (twinRigid K h.full) b target tt source st fixed with
  | throw e => rfl
  | ub => rfl
  | ok m =>
    obtain ⟨m1, m2, g1, g2, ex⟩ := @lookup5_legs _ (twinRigid K h.full) b target source fixed tt st m hl
    have t1 := twin_lookup h.full_extends (by positivity) (h.room h1) hw hE g1
    have t2 := twin_lookup h.full_extends (by positivity) (h.room h1) hw hE g2
    obtain ⟨p, c, st, ⟨x, y⟩⟩ := m
    obtain ⟨p1, c1, st1, ⟨x1, y1⟩⟩ := m1
    obtain ⟨p2, c2, st2, ⟨x2, y2⟩⟩ := m2
    obtain ⟨rfl, s1⟩ := t1
    obtain ⟨rfl, s2⟩ := t2
    have ex' : (x, y) = (h.full.mulMsg K.lib.sqrt x2 x1, K.mulMsg x2.up x1.up) := ex
    have hx : x = h.full.mulMsg K.lib.sqrt x2 x1 := congrArg Prod.fst ex'
    have hy : y = K.mulMsg x2.up x1.up := congrArg Prod.snd ex'
    have e := h.full_extends.mulMsg_eq h.lib (by positivity) (h.room h1) s2 s1
    rw [hx, hy, e]
    rfl

/-! ### In numbers -/

omit h in
theorem Pose.up_is (x : Pose) : x.up.Is x := ⟨rfl, rfl⟩

omit h in
theorem Reads.mono {P Q : Pose → Prop} (hPQ : ∀ p, P p → Q p) {ops : List (Op FPose)} {ops' : List (Op Pose)}
    (hr : Reads P ops ops') : Reads Q ops ops' := by
  induction hr with
  | nil => exact .nil
  | clear _ ih => exact .clear ih
  | broken hm _ ih => exact .broken hm ih
  | set hm hp _ ih => exact .set hm (hPQ _ hp) ih

omit h in
theorem closeTo_of {near : Pose → Pose → Prop} {exact rounded : Res (Msg Pose)}
    (hc : (∃ e, rounded = .throw e ∧ exact = .throw e) ∨ ∃ m m', rounded = .ok m ∧ exact = .ok m' ∧ m.parent = m'.parent ∧
      m.child = m'.child ∧ m.stamp = m'.stamp ∧ near m.xf m'.xf) : CloseTo near (rounded.mapX (Msg.mapX Pose.up)) exact := by
  rcases hc with ⟨e, rfl, h2⟩ | ⟨m, m', rfl, h2, p1, p2, p3, hn⟩
  · exact .inl ⟨e, rfl, h2⟩
  · exact .inr ⟨_, m', m.xf, rfl, h2, p1, p2, p3, Pose.up_is _, hn⟩

/-- **C95, moving frames.** Doubles with infinities and NaN, rounded to nearest at every operation, a C library good to four
units in the last place, any history with whatever broken messages in between: a lookup over `N` transforms gives the exact
rotation up to `(N + 1) (3e-7 + 4 τ)` and the exact translation up to `(N + 1)² ((5e-7 + 8 τ) L + 1e-40)`, or throws what the
exact lookup throws. -/
theorem C95_lookup {τ L : ℝ} (t0 : 0 ≤ τ) (hτ : τ ≤ 2 / 10 ^ 7) (h0 : 0 ≤ L) (h1 : L ≤ 10 ^ 9) (D : Duration)
    {ops : List (Op FPose)} {ops' : List (Op Pose)} (hr : Reads (NormalTo τ L) ops ops')
    (hs : ∀ m a s, Op.set m a s ∈ ops' → m.stamp ≤ TIME_MAX) (hn : NoHalfTurn ((Buf.init D).run ops'))
    (target source : Name) (t : Time) :
    CloseTo (fun x y => ∃ N, Steps ((Buf.init D).run ops') target source t N ∧
        x.rot.apart y.rot ≤ (N + 1) * (3 / 10 ^ 7 + 4 * τ) ∧
        x.trans.apart y.trans ≤ (N + 1) ^ 2 * ((5 / 10 ^ 7 + 8 * τ) * L + 1 / 10 ^ 40))
      (K.lookup (K.run D ops) target source t) (((Buf.init D).run ops').lookupTransform target source t) := by
  have ho := Reads.offered hr
  have hr' : Reads (Normal L) ops ops' := hr.mono (fun p hp => ⟨hp.1.trans (by norm_num at *; linarith), hp.2⟩)
  rw [C95_same h h0 (h1.trans (pow_le_pow_right₀ (by norm_num) (by norm_num))) D hr' hs]
  apply closeTo_of
  rcases C85_lookup h.nearest h.lib t0 hτ h0 h1 D ho hs hn target source t with hl | ⟨m, m', e1, e2, p1, p2, p3, hx, _⟩
  · exact .inl hl
  refine .inr ⟨m, m', e1, e2, p1, p2, p3, ?_⟩
  by_cases hne : target = source
  · obtain rfl := hx hne
    refine ⟨0, .inl ⟨hne, rfl⟩, ?_, ?_⟩
    · rw [Quat.apart_self]; positivity
    · rw [Vec3.apart_self]; positivity
  · obtain ⟨m'', e3, _, _, _, s, g, r, x, y, n, k, a1, a2, n1, k1, a3, a4, o1, o2⟩ :=
      C85_numbers h.nearest h.lib t0 hτ h0 h1 D ho hs hn hne t e1
    rw [e2] at e3
    obtain rfl : m' = m'' := by cases e3; rfl
    exact ⟨n + k, .inr ⟨m', s, g, r, x, y, n, k, e2, a1, a2, a3, a4, n1, k1, rfl⟩, o1, o2⟩

/-- **C95, static transforms.** Without moving frames: the exact rotation up to `(N + 1) / 2^48` and the exact translation up to
`(N + 1)² (L / 2^47 + 1 / 2^1000)`. -/
theorem C95_static {L : ℝ} (h0 : 0 ≤ L) (h1 : L ≤ 10 ^ 9) (D : Duration) {ops : List (Op FPose)} {ops' : List (Op Pose)}
    (hr : Reads (Normal L) ops ops') (hs : ∀ m a s, Op.set m a s ∈ ops' → m.stamp ≤ TIME_MAX) (hst : StaticOnly ops')
    (target source : Name) (t : Time) :
    CloseTo (fun x y => ∃ N, Steps ((Buf.init D).run ops') target source t N ∧
        x.rot.apart y.rot ≤ (N + 1) / 2 ^ 48 ∧
        x.trans.apart y.trans ≤ (N + 1) ^ 2 * (L / 2 ^ 47 + (2 : ℝ) ^ (-1000 : ℤ)))
      (K.lookup (K.run D ops) target source t) (((Buf.init D).run ops').lookupTransform target source t) := by
  have ho := Reads.offered hr
  rw [C95_same h h0 (h1.trans (pow_le_pow_right₀ (by norm_num) (by norm_num))) D hr hs]
  apply closeTo_of
  rcases C84_static (machine_tame h.nearest _ h0 h1) D ho hst target source t with hl | ⟨m, m', e1, e2, p1, p2, p3, hx, _⟩
  · exact .inl hl
  refine .inr ⟨m, m', e1, e2, p1, p2, p3, ?_⟩
  by_cases hne : target = source
  · obtain rfl := hx hne
    refine ⟨0, .inl ⟨hne, rfl⟩, ?_, ?_⟩
    · rw [Quat.apart_self]; positivity
    · rw [Vec3.apart_self]; positivity
  · obtain ⟨m'', e3, _, _, _, s, g, r, x, y, n, k, a1, a2, n1, k1, a3, a4, o1, o2⟩ :=
      C84_double h.nearest _ h0 h1 D ho hst hne t e1
    rw [e2] at e3
    obtain rfl : m' = m'' := by cases e3; rfl
    exact ⟨n + k, .inr ⟨m', s, g, r, x, y, n, k, e2, a1, a2, a3, a4, n1, k1, rfl⟩, o1, o2⟩

/-- **C95, moving frames, two times.** With legs of `N` and `M` transforms and `S = N + M + 2`: the exact rotation up to
`(5 S + 280) (2e-7 + 2 τ)` (and up to the sign of the quaternion), and the exact translation up to
`(5 S² + 31 S) ((2e-7 + 2 τ) L + 1e-40)`. -/
theorem C95_lookup5 {τ L : ℝ} (t0 : 0 ≤ τ) (hτ : τ ≤ 2 / 10 ^ 7) (h0 : 0 ≤ L) (h1 : L ≤ 10 ^ 9) (D : Duration)
    {ops : List (Op FPose)} {ops' : List (Op Pose)} (hr : Reads (NormalTo τ L) ops ops')
    (hs : ∀ m a s, Op.set m a s ∈ ops' → m.stamp ≤ TIME_MAX) (hn : NoHalfTurn ((Buf.init D).run ops'))
    (target : Name) (tt : Time) (source : Name) (st : Time) (fixed : Name) :
    CloseTo (fun x y => ∃ N M : ℕ, Steps ((Buf.init D).run ops') fixed source st N ∧ Steps ((Buf.init D).run ops') target fixed tt M ∧
        x.rot.gap y.rot ≤ (5 * (N + M + 2) + 280) * (2 / 10 ^ 7 + 2 * τ) ∧
        x.trans.apart y.trans ≤ (5 * (N + M + 2) ^ 2 + 31 * (N + M + 2)) * ((2 / 10 ^ 7 + 2 * τ) * L + 1 / 10 ^ 40))
      (K.lookup5 (K.run D ops) target tt source st fixed)
      (((Buf.init D).run ops').lookupTransform5 target tt source st fixed) := by
  have ho := Reads.offered hr
  have hr' : Reads (Normal L) ops ops' := hr.mono (fun p hp => ⟨hp.1.trans (by norm_num at *; linarith), hp.2⟩)
  rw [C95_same5 h h0 (h1.trans (pow_le_pow_right₀ (by norm_num) (by norm_num))) D hr' hs]
  apply closeTo_of
  rcases C92_lookup h.nearest h.lib t0 hτ h0 h1 D ho hs hn target tt source st fixed with
    hl | ⟨m, m', e1, e2, p1, p2, p3, N, M, hN, hM, o1, o2⟩
  · exact .inl hl
  refine .inr ⟨m, m', e1, e2, p1, p2, p3, N, M, hN, hM, o1.trans ?_, o2.trans ?_⟩
  all_goals
    have hF := machine_fine h.nearest ((machine _ h.nearest Pose.interp).interpolate K.lib)
    have u1 : (fullMachine _ h.nearest K.lib).u ≤ _ := hF.u
    have n1 : (fullMachine _ h.nearest K.lib).η ≤ _ := hF.η
    have u0 := (fullMachine _ h.nearest K.lib).u_nonneg
    have n0 := (fullMachine _ h.nearest K.lib).η_nonneg
    generalize (fullMachine _ h.nearest K.lib).u = u at *
    generalize (fullMachine _ h.nearest K.lib).η = η at *
    have hS : (2 : ℝ) ≤ N + M + 2 := by
      have := Nat.cast_nonneg (α := ℝ) N
      have := Nat.cast_nonneg (α := ℝ) M
      linarith
    generalize (N : ℝ) + M + 2 = S at *
    have c1 : 10 * u + (1 / 10 ^ 7 + 2 * τ) + 16 * η ≤ 11 / 10 ^ 8 + 2 * τ := by norm_num at *; linarith
  · have c2 : 10 * u + (1 / 10 ^ 7 + 2 * τ) + 16 * η ≤ 2 / 10 ^ 7 + 2 * τ := by norm_num at *; linarith
    exact mul_le_mul_of_nonneg_left c2 (by positivity)
  · have W : 0 ≤ 5 * S ^ 2 + 31 * S := by positivity
    have k1 := mul_le_mul_of_nonneg_right (mul_le_mul_of_nonneg_left c1 W) h0
    have c2 : 2 / 10 ^ 14 * L + 1 / 10 ^ 50 + 40 * η ≤ 5 / 10 ^ 14 * L + 1 / 10 ^ 40 := by norm_num at *; linarith
    have k2 : 3 * S * (2 / 10 ^ 14 * L + 1 / 10 ^ 50 + 40 * η) ≤ (5 * S ^ 2 + 31 * S) * (5 / 10 ^ 14 * L + 1 / 10 ^ 40) :=
      mul_le_mul (by nlinarith) c2 (by positivity) W
    have k3 : (5 * S ^ 2 + 31 * S) * ((11 / 10 ^ 8 + 2 * τ) * L) + (5 * S ^ 2 + 31 * S) * (5 / 10 ^ 14 * L + 1 / 10 ^ 40) ≤
        (5 * S ^ 2 + 31 * S) * ((2 / 10 ^ 7 + 2 * τ) * L + 1 / 10 ^ 40) := by
      rw [← mul_add]
      refine mul_le_mul_of_nonneg_left ?_ W
      have : (11 / 10 ^ 8 + 5 / 10 ^ 14) * L ≤ 2 / 10 ^ 7 * L := mul_le_mul_of_nonneg_right (by norm_num) h0
      linarith
    have e : (5 * S ^ 2 + 31 * S) * (11 / 10 ^ 8 + 2 * τ) * L = (5 * S ^ 2 + 31 * S) * ((11 / 10 ^ 8 + 2 * τ) * L) := by ring
    linarith

/-- **C95, static transforms, two times.** -/
theorem C95_static5 {L : ℝ} (h0 : 0 ≤ L) (h1 : L ≤ 10 ^ 9) (D : Duration) {ops : List (Op FPose)} {ops' : List (Op Pose)}
    (hr : Reads (Normal L) ops ops') (hs : ∀ m a s, Op.set m a s ∈ ops' → m.stamp ≤ TIME_MAX) (hst : StaticOnly ops')
    (target : Name) (tt : Time) (source : Name) (st : Time) (fixed : Name) :
    CloseTo (fun x y => ∃ N M : ℕ, Steps ((Buf.init D).run ops') fixed source st N ∧ Steps ((Buf.init D).run ops') target fixed tt M ∧
        x.rot.gap y.rot ≤ (N + M + 58) / 2 ^ 46 ∧
        x.trans.apart y.trans ≤ (N + M + 6) ^ 2 * (L / 2 ^ 46 + (2 : ℝ) ^ (-1000 : ℤ)))
      (K.lookup5 (K.run D ops) target tt source st fixed)
      (((Buf.init D).run ops').lookupTransform5 target tt source st fixed) := by
  have ho := Reads.offered hr
  rw [C95_same5 h h0 (h1.trans (pow_le_pow_right₀ (by norm_num) (by norm_num))) D hr hs]
  apply closeTo_of
  rcases C92_static (machine_tame h.nearest ((machine _ h.nearest Pose.interp).interpolate K.lib) h0 h1)
    (libm_sqrt h.lib (machine_u h.nearest _)) (machine_range h.nearest _ h1) D ho hst target tt source st fixed with
    hl | ⟨m, _, e1, _⟩
  · exact .inl hl
  obtain ⟨m', e2, p1, p2, p3, hx⟩ := C92_double h.nearest h.lib _ h0 h1 D ho hst tt st e1
  exact .inr ⟨m, m', e1, e2, p1, p2, p3, hx⟩

end

/-! ### The hypotheses can be met -/

/-- A frame that turns and moves, given in doubles, with a message full of NaN and one with a rotation of length 2 in between. -/
noncomputable def noisyOps : List (Op FPose) :=
  [.set ⟨['w'], ['a'], 10, Pose.up ⟨⟨0, 0, 3/5, 4/5⟩, ⟨1, 2, 3⟩⟩⟩ ['p'] false,
   .set ⟨['w'], ['a'], 12, (⟨.nan, .nan, .nan, .nan⟩, ⟨.nan, .nan, .nan⟩)⟩ ['p'] false,
   .set ⟨['w'], ['a'], 20, Pose.up ⟨⟨5/13, 0, 0, 12/13⟩, ⟨4, 5, 6⟩⟩⟩ ['p'] false,
   .set ⟨['w'], ['a'], 30, Pose.up ⟨⟨0, 0, 0, 2⟩, ⟨4, 5, 6⟩⟩⟩ ['p'] false]

theorem noisy_reads : Reads (NormalTo 0 10) noisyOps turningOps := by
  have g := fun {m a s} (hm : Op.set m a s ∈ turningOps) => (turning_given hm).2.1
  refine .set ⟨rfl, rfl, rfl, Pose.up_is _⟩ (g (List.mem_cons_self ..)) (.broken (.inl (.inl rfl))
    (.set ⟨rfl, rfl, rfl, Pose.up_is _⟩ (g (List.mem_cons_of_mem _ (List.mem_cons_self ..))) (.broken (.inr (.inr ?_)) .nil)))
  rintro ⟨q, e, hq⟩
  have hw : (2 : ℝ) = q.w := by injection e with _ _ _ e; injection e
  have hx : (0 : ℝ) = q.x := by injection e with e; injection e
  have hy : (0 : ℝ) = q.y := by injection e with _ e; injection e
  have hz : (0 : ℝ) = q.z := by injection e with _ _ e; injection e
  simp only [Quat.length2, Quat.dot, ← hw, ← hx, ← hy, ← hz] at hq
  norm_num [abs_of_pos] at hq

/-- The hypotheses of `C95_lookup`, `C95_lookup5`, `C95_same` and `C95_same5` are met by a turning frame and broken messages, on
a machine that exists, and the machine answers. -/
example : ∃ K : Machine, K.IEEE ∧ Reads (NormalTo 0 10) noisyOps turningOps ∧
    (∀ m a s, Op.set m a s ∈ turningOps → m.stamp ≤ TIME_MAX) ∧ NoHalfTurn ((Buf.init 100).run turningOps) ∧
    (∃ m, K.lookup (K.run 100 noisyOps) ['w'] ['a'] 13 = .ok m) ∧
    ∃ m, K.lookup5 (K.run 100 noisyOps) ['a'] 17 ['a'] 13 ['w'] = .ok m := by
  obtain ⟨K, h⟩ := exists_ieee
  have hs : ∀ m a s, Op.set m a s ∈ turningOps → m.stamp ≤ TIME_MAX := fun m a s hm => (turning_given hm).2.2.1
  refine ⟨K, h, noisy_reads, hs, turning_half, ?_, ?_⟩
  · obtain ⟨m', hm'⟩ := turning_answer
    rcases C95_lookup h (L := 10) le_rfl (by norm_num) (by norm_num) (by norm_num) 100 noisy_reads hs turning_half ['w'] ['a'] 13 with
      ⟨e, _, he⟩ | ⟨m, _, _, e1, _⟩
    · rw [hm'] at he; cases he
    · exact ⟨m, e1⟩
  · obtain ⟨ma, mw, ⟨m1, x⟩, _⟩ := turning_answers (t := 13) (by decide) (by decide)
    obtain ⟨_, _, _, ⟨m2, y⟩⟩ := turning_answers (t := 17) (by decide) (by decide)
    obtain ⟨m', hm'⟩ := lookup5_answers ma ma mw (by decide) (by decide) (by decide) ⟨by decide, by decide⟩ ⟨by decide, by decide⟩
      ⟨by decide, by decide⟩ x y
    rcases C95_lookup5 h (L := 10) le_rfl (by norm_num) (by norm_num) (by norm_num) 100 noisy_reads hs turning_half
      ['a'] 17 ['a'] 13 ['w'] with ⟨e, _, he⟩ | ⟨m, _, _, e1, _⟩
    · rw [hm'] at he; cases he
    · exact ⟨m, e1⟩

/-- Every history of real numbers is read off some history of doubles. -/
theorem reads_up {P : Pose → Prop} : ∀ {ops : List (Op Pose)}, AllOffered P ops → Reads P (ops.map (Op.mapX Pose.up)) ops
  | [], _ => .nil
  | .clear :: _, h => .clear (reads_up fun m a s hm => h m a s (List.mem_cons_of_mem _ hm))
  | .set m a s :: _, h => .set ⟨rfl, rfl, rfl, Pose.up_is _⟩ (h m a s (List.mem_cons_self ..))
      (reads_up fun m a s hm => h m a s (List.mem_cons_of_mem _ hm))

/-- The hypotheses of `C95_static` and `C95_static5` are met by two turned frames and a message with an infinite rotation. -/
example : ∃ K : Machine, K.IEEE ∧ ∃ ops : List (Op FPose), Reads (Normal 10) ops turnedOps ∧ StaticOnly turnedOps ∧
    (∀ m a s, Op.set m a s ∈ turnedOps → m.stamp ≤ TIME_MAX) ∧ ∃ m, K.lookup (K.run 100 ops) ['b'] ['a'] 7 = .ok m := by
  obtain ⟨K, h⟩ := exists_ieee
  have hst : StaticOnly turnedOps := by
    intro m a s hm
    simp only [turnedOps, List.mem_cons, List.not_mem_nil, or_false, Op.set.injEq] at hm
    rcases hm with ⟨_, _, rfl⟩ | ⟨_, _, rfl⟩ <;> rfl
  have hs : ∀ m a s, Op.set m a s ∈ turnedOps → m.stamp ≤ TIME_MAX := by
    intro m a s hm
    simp only [turnedOps, List.mem_cons, List.not_mem_nil, or_false, Op.set.injEq] at hm
    rcases hm with ⟨rfl, _⟩ | ⟨rfl, _⟩ <;> decide
  have hr : Reads (Normal 10) (.set ⟨['w'], ['a'], 12, (⟨.inf true, .fin 0, .fin 0, .fin 1⟩, ⟨.fin 0, .fin 0, .fin 0⟩)⟩ ['p'] false ::
      turnedOps.map (Op.mapX Pose.up)) turnedOps := .broken (.inr (.inl (.inl ⟨_, rfl⟩))) (reads_up turned_normal)
  refine ⟨K, h, _, hr, hst, hs, ?_⟩
  obtain ⟨m', hm'⟩ := turned_hyps.2.2.2.2.2
  rcases C95_static h (L := 10) (by norm_num) (by norm_num) 100 hr hs hst ['b'] ['a'] 7 with ⟨e, _, he⟩ | ⟨m, _, _, e1, _⟩
  · rw [hm'] at he; cases he
  · exact ⟨m, e1⟩

end Tf2
