import Verif.Proofs.RoundedWalk
import Verif.Props.Drift
import Mathlib.Data.Int.Log
import Mathlib.Algebra.Order.Round
import Mathlib.Algebra.Order.Field.Power

/-!
# C84: lookups in rounded arithmetic
-/
namespace Tf2

variable {F : Rounding} {L dq dt : ℝ}

/-! ### What is stored -/

theorem Normal.edge {e : Pose} (h : Normal L e) (h1 : 0 ≤ dq) (h2 : 0 ≤ dt) : EdgeNear L dq dt e e :=
  ⟨h.1, h.2, by rw [Quat.apart_self]; exact h1, by rw [Vec3.apart_self]; exact h2⟩

theorem Normal.interp {a b : Pose} (ha : Normal L a) (hb : Normal L b) {num den : Int} (h0 : 0 ≤ num) (h1 : num ≤ den) (h2 : 0 < den) :
    Normal L (Pose.interp a b num den) := by
  have r2 : (0 : ℝ) < den := by exact_mod_cast h2
  have r0 : (0 : ℝ) ≤ (num : ℝ) / den := div_nonneg (by exact_mod_cast h0) r2.le
  have r1 : (num : ℝ) / den ≤ 1 := (div_le_one r2).2 (by exact_mod_cast h1)
  obtain ⟨a1, a2⟩ := abs_le.1 ha.1
  obtain ⟨b1, b2⟩ := abs_le.1 hb.1
  obtain ⟨s1, s2⟩ := Quat.length2_slerp (a := a.rot) (q := b.rot) (lo := 1 - 1 / 1000000) (hi := 1 + 1 / 1000000) (by norm_num)
    (by linarith) (by linarith) (by linarith) (by linarith) r0 r1
  refine ⟨?_, Vec3.length_interpolate ha.2 hb.2 r0 r1⟩
  show |(a.rot.slerp b.rot _).length2 - 1| ≤ _
  rw [abs_le]
  constructor <;> linarith

theorem getNear_stat (h1 : 0 ≤ dq) (h2 : 0 ≤ dt) {o : Option (Sample Pose)} (ho : ∀ s, o = some s → Normal L s.xf) (t : Time) :
    GetNear L dq dt (@Cache.getData Pose F.rigid (.stat o) t) ((Cache.stat o).getData t) := by
  cases o with
  | none => exact trivial
  | some s => exact ⟨rfl, (ho s rfl).edge h1 h2⟩

theorem getNear_dyn (T : Tame F L dq dt) {D D' : Duration} {st : List (Sample Pose)}
    (hi : ∀ o n, Adjacent st o n → ∀ num : Int, 0 ≤ num → num ≤ (n.stamp : Int) - o.stamp →
      (F.interp o.xf n.xf num ((n.stamp : Int) - o.stamp)).rot.apart (Pose.interp o.xf n.xf num ((n.stamp : Int) - o.stamp)).rot ≤ dq ∧
      (F.interp o.xf n.xf num ((n.stamp : Int) - o.stamp)).trans.apart (Pose.interp o.xf n.xf num ((n.stamp : Int) - o.stamp)).trans ≤ dt)
    (hr : ReachableCache D st) (hs : ∀ s ∈ st, Normal L s.xf) (t : Time) :
    GetNear L dq dt (@Cache.getData Pose F.rigid (.dyn D' st) t) ((Cache.dyn D' st).getData t) := by
  simp only [Cache.getData]
  unfold dynGetData
  rcases findClosest_cases hr.sorted t with ⟨_, e⟩ | ⟨f, r, e0, _, e⟩ | ⟨_, s', hs', _, e⟩ | ⟨_, o, n, hadj, h1, h2, e⟩ | ⟨_, _, e⟩ <;>
    rw [e]
  · exact trivial
  · exact ⟨rfl, (hs f (by simp [e0])).edge T.dq0 T.dt0⟩
  · exact ⟨rfl, (hs s' hs').edge T.dq0 T.dt0⟩
  · have ho := hs _ hadj.1
    have hn := hs _ hadj.2.1
    dsimp only
    split
    · have hne : n.stamp ≠ o.stamp := by omega
      have k0 : (0 : Int) ≤ (t : Int) - o.stamp := by omega
      have k1 : (t : Int) - o.stamp ≤ (n.stamp : Int) - o.stamp := by omega
      have k2 : (0 : Int) < (n.stamp : Int) - o.stamp := by omega
      obtain ⟨i1, i2⟩ := hi o n hadj _ k0 k1
      have nn := ho.interp hn k0 k1 k2
      simp only [interpolate, hne, if_false]
      exact ⟨rfl, nn.1, nn.2, i1, i2⟩
    · exact ⟨rfl, ho.edge T.dq0 T.dt0⟩
  · exact trivial

/-! ### What is accepted -/

theorem normOK_normal (h : F.u ≤ 1 / 10 ^ 9) (hη : F.η ≤ 1 / 10 ^ 9) (hΩ : 10 ≤ F.Ω) {p : Pose} (hp : Normal L p) :
    F.normOK p = true ∧ Pose.normOK p = true := by
  have u0 := F.u_nonneg
  have e0 := F.η_nonneg
  norm_num at h hη
  obtain ⟨p1, p2⟩ := abs_le.1 hp.1
  have el : p.rot.length2 = p.rot.w * p.rot.w + p.rot.x * p.rot.x + p.rot.y * p.rot.y + p.rot.z * p.rot.z := by
    simp only [Quat.length2, Quat.dot]; ring
  constructor
  · unfold Rounding.normOK
    rw [decide_eq_true_eq]
    have nw := mul_self_nonneg p.rot.w
    have nx := mul_self_nonneg p.rot.x
    have ny := mul_self_nonneg p.rot.y
    have nz := mul_self_nonneg p.rot.z
    have P : ∀ r : ℝ, r * r ≤ 2 → |F.rnd (r * r) - r * r| ≤ F.u * |r * r| + F.η := fun r hr =>
      F.err _ (by rw [abs_of_nonneg (mul_self_nonneg r)]; linarith)
    have hs := Rounding.sum4_err (F := F) (by linarith) (P p.rot.w (by linarith)) (P p.rot.x (by linarith))
      (P p.rot.y (by linarith)) (P p.rot.z (by linarith))
      (by rw [abs_of_nonneg nw, abs_of_nonneg nx, abs_of_nonneg ny, abs_of_nonneg nz]; linarith)
    rw [abs_of_nonneg nw, abs_of_nonneg nx, abs_of_nonneg ny, abs_of_nonneg nz, ← el] at hs
    generalize F.sum4 (F.rnd (p.rot.w * p.rot.w)) (F.rnd (p.rot.x * p.rot.x)) (F.rnd (p.rot.y * p.rot.y))
      (F.rnd (p.rot.z * p.rot.z)) = s at *
    have m1 : 5 * F.u * p.rot.length2 ≤ 1 / 100000000 * 2 :=
      mul_le_mul (by linarith) (by linarith) (Quat.length2_nonneg' _) (by norm_num)
    have m2 : |s - p.rot.length2| ≤ 1 / 1000000 := by linarith
    obtain ⟨s1, s2⟩ := abs_le.1 m2
    have m3 : |s - 1| ≤ 2 / 1000000 := abs_le.2 ⟨by linarith, by linarith⟩
    have m4 := F.err (s - 1) (by linarith)
    have m5 := F.err (10e-3) (by rw [abs_of_pos (by norm_num)]; linarith)
    have m6 : F.u * |s - 1| ≤ 1 / 1000000000 * (2 / 1000000) := mul_le_mul h m3 (abs_nonneg _) (by norm_num)
    have m7 : F.u * |(10e-3 : ℝ)| ≤ 1 / 1000000000 * 1 :=
      mul_le_mul h (by rw [abs_of_pos (by norm_num)]; norm_num) (abs_nonneg _) (by norm_num)
    obtain ⟨m8, _⟩ := abs_le.1 (m5.trans (add_le_add m7 hη))
    obtain ⟨m9, m10⟩ := abs_le.1 (m4.trans (add_le_add m6 hη))
    obtain ⟨m11, m12⟩ := abs_le.1 m3
    rw [abs_lt]
    norm_num at *
    constructor <;> linarith
  · unfold Pose.normOK
    rw [decide_eq_true_eq, ← el]
    refine lt_of_le_of_lt hp.1 (by norm_num)

/-- The machine accepts what exact arithmetic accepts and stores the same. -/
theorem run_same (h : F.u ≤ 1 / 10 ^ 9) (hη : F.η ≤ 1 / 10 ^ 9) (hΩ : 10 ≤ F.Ω) (D : Duration) {ops : List (Op Pose)}
    (ho : AllOffered (Normal L) ops) : F.run D ops = (Buf.init D).run ops := by
  have hset : ∀ (b : Buf Pose) m a s, Normal L m.xf → @Buf.setTransform Pose F.rigid b m a s = b.setTransform m a s := by
    intro b m a s hm
    have n := normOK_normal h hη hΩ hm
    have hv : @Buf.msgValid Pose F.rigid (Buf.stripMsg m) = Buf.msgValid (Buf.stripMsg m) := by
      have e1 : F.rigid.normOK (Buf.stripMsg m).xf = true := n.1
      have e2 : Rigid.normOK (Buf.stripMsg m).xf = true := n.2
      have e3 : F.rigid.hasNaN (Buf.stripMsg m).xf = false := rfl
      have e4 : Rigid.hasNaN (Buf.stripMsg m).xf = false := rfl
      unfold Buf.msgValid
      rw [e1, e2, e3, e4]
    unfold Buf.setTransform
    simp only [hv]
  unfold Rounding.run
  generalize Buf.init D = b
  induction ops generalizing b with
  | nil => rfl
  | cons o r ih =>
    have e : @Buf.step Pose F.rigid b o = b.step o := by
      cases o with
      | clear => rfl
      | set m a s => exact congrArg Prod.fst (hset b m a s (ho m a s (List.mem_cons_self ..)))
    show @Buf.run Pose F.rigid (@Buf.step Pose F.rigid b o) r = (b.step o).run r
    rw [e]
    exact ih (fun m a s hm => ho m a s (List.mem_cons_of_mem _ hm)) _

/-! ### Lookups -/

/-- RoundedAnswers of a lookup in both arithmetics. -/
def RoundedAnswers (F : Rounding) (L dq dt : ℝ) (b : Buf Pose) (target source : Name) (t : Time) : Prop :=
    (∃ e, F.lookup b target source t = .throw e ∧ b.lookupTransform target source t = .throw e) ∨
    ∃ m m', F.lookup b target source t = .ok m ∧ b.lookupTransform target source t = .ok m' ∧
      m.parent = m'.parent ∧ m.child = m'.child ∧ m.stamp = m'.stamp ∧
      (target = source → m = m') ∧
      (target ≠ source → ∃ s g r x y n k, IsFrame b source s ∧ IsFrame b target g ∧ n ≤ 1000 ∧ k ≤ 1000 ∧
        Chain b m'.stamp s r x n ∧ Chain b m'.stamp g r y k ∧ Off F L dq dt (n + k) m.xf m'.xf ∧ Sized L (n + k) m'.xf)

theorem lookup_near (T : Tame F L dq dt) {D : Duration} {b : Buf Pose} (hw : WF D b)
    (hE : ∀ t f c, b.getFrame f = some c → GetNear L dq dt (@Cache.getData Pose F.rigid c t) (c.getData t))
    (target source : Name) (t : Time) : RoundedAnswers F L dq dt b target source t := by
  unfold RoundedAnswers
  by_cases hne : target = source
  · subst hne
    right
    have e1 : ∃ m, b.lookupTransform target target t = .ok m := ⟨_, by unfold Buf.lookupTransform; rw [if_pos rfl]⟩
    obtain ⟨m, hm⟩ := e1
    refine ⟨m, m, ?_, hm, rfl, rfl, rfl, fun _ => rfl, fun h => absurd rfl h⟩
    rw [← hm]
    unfold Rounding.lookup Buf.lookupTransform
    rw [if_pos rfl, if_pos rfl]
    rfl
  · have bad : ∀ e, (b.validateFrameId target = .throw e ∨ ((∃ i, b.validateFrameId target = .ok i) ∧ b.validateFrameId source = .throw e)) →
        F.lookup b target source t = .throw e ∧ b.lookupTransform target source t = .throw e := by
      intro e h
      unfold Rounding.lookup Buf.lookupTransform
      rw [if_neg hne, if_neg hne]
      rcases h with h | ⟨⟨i, h⟩, h'⟩
      · rw [h]; exact ⟨rfl, rfl⟩
      · rw [h, h']; exact ⟨rfl, rfl⟩
    rcases validate_cases b target with ⟨lg, g, hg, eg⟩ | ⟨_, eg⟩ | ⟨_, _, eg⟩
    · rcases validate_cases b source with ⟨ls, s, hs, es⟩ | ⟨_, es⟩ | ⟨_, _, es⟩
      · -- both known
        have hsg : s ≠ g := fun e => hne (hw.inj hg.2 (e ▸ hs.2))
        have fin : ∀ u, (∃ e, @lookupOfWalk Pose target source
              (b.walkAt (@transformAccum Pose F.rigid) (@TAcc.init Pose F.rigid) u g s) = .throw e ∧
              lookupOfWalk target source (b.walkAt transformAccum TAcc.init u g s) = .throw e) ∨
            ∃ m m', @lookupOfWalk Pose target source
              (b.walkAt (@transformAccum Pose F.rigid) (@TAcc.init Pose F.rigid) u g s) = .ok m ∧
              lookupOfWalk target source (b.walkAt transformAccum TAcc.init u g s) = .ok m' ∧
              m.parent = m'.parent ∧ m.child = m'.child ∧ m.stamp = m'.stamp ∧ (target = source → m = m') ∧
              (target ≠ source → ∃ s g r x y n k, IsFrame b source s ∧ IsFrame b target g ∧ n ≤ 1000 ∧ k ≤ 1000 ∧
                Chain b m'.stamp s r x n ∧ Chain b m'.stamp g r y k ∧ Off F L dq dt (n + k) m.xf m'.xf ∧ Sized L (n + k) m'.xf) := by
          intro u
          have hn := walkAt_near T (hE u) s g
          have hsp := walkAt_spec (t := u) hw (tgt := g) hs.1 TAcc.init rfl rfl
          generalize b.walkAt (@transformAccum Pose F.rigid) (@TAcc.init Pose F.rigid) u g s = w at *
          generalize b.walkAt transformAccum TAcc.init u g s = w' at *
          cases w' with
          | ub => exact hsp.elim
          | err c' =>
            cases w with
            | err c =>
              obtain rfl : c = c' := hn
              exact .inl ⟨_, rfl, rfl⟩
            | _ => exact hn.elim
          | done a' ch' =>
            cases w with
            | done a ch =>
              obtain ⟨_, h1, h2, r, x, y, n, k, hn, hk, hx, hy, ho⟩ := hn
              refine .inr ⟨_, _, rfl, rfl, rfl, rfl, h1.trans h2.symm, fun e => absurd e hne, fun _ => ?_⟩
              refine ⟨s, g, r, x, y, n, k, hs, hg, hn, hk, ?_, ?_, ho⟩
              · show Chain b a'.time _ _ _ _; rw [h2]; exact hx
              · show Chain b a'.time _ _ _ _; rw [h2]; exact hy
            | _ => exact hn.elim
        have eF : F.lookup b target source t = @lookupOfWalk Pose target source
            (b.walk (@transformAccum Pose F.rigid) (@TAcc.init Pose F.rigid) t g s) :=
          @lookup_eq Pose F.rigid b t target source g s hg hs lg ls hne
        rw [eF, lookup_eq hg hs lg ls hne]
        unfold Buf.walk
        rw [if_neg hsg, if_neg hsg]
        split
        · cases hl : b.latestCommonTime g s with
          | ub => exact absurd hl (latestCommonTime_ne_ub hw _ _)
          | err c => exact .inl ⟨_, rfl, rfl⟩
          | ok u => exact fin u
        · exact fin t
      · exact .inl ⟨_, bad _ (.inr ⟨⟨g, eg⟩, es⟩)⟩
      · exact .inl ⟨_, bad _ (.inr ⟨⟨g, eg⟩, es⟩)⟩
    · exact .inl ⟨_, bad _ (.inl eg)⟩
    · exact .inl ⟨_, bad _ (.inl eg)⟩

/-! ### C84 -/

/-- `C84_rounding` for the interpolations that occur. -/
theorem answers_of (T : Tame F L dq dt) (D : Duration) {ops : List (Op Pose)} (ho : AllOffered (Normal L) ops)
    (hi : ∀ f D' st, ((Buf.init D).run ops).getFrame f = some (.dyn D' st) → ∀ o n, Adjacent st o n →
      ∀ num : Int, 0 ≤ num → num ≤ (n.stamp : Int) - o.stamp →
      (F.interp o.xf n.xf num ((n.stamp : Int) - o.stamp)).rot.apart (Pose.interp o.xf n.xf num ((n.stamp : Int) - o.stamp)).rot ≤ dq ∧
      (F.interp o.xf n.xf num ((n.stamp : Int) - o.stamp)).trans.apart (Pose.interp o.xf n.xf num ((n.stamp : Int) - o.stamp)).trans ≤ dt)
    (target source : Name) (t : Time) : RoundedAnswers F L dq dt ((Buf.init D).run ops) target source t := by
  have hw : WF D ((Buf.init D).run ops) := WF.run (WF.init D) ops
  have hs := StoredIn.run ops (WF.init D) (StoredIn.init (Normal L) D) ho
  refine lookup_near T hw (fun t f c hc => ?_) target source t
  have h1 := hs f c hc
  have h2 := hw.caches f c hc
  cases c with
  | dyn D' st => exact getNear_dyn T (hi f D' st hc) h2.2.1 h1 t
  | stat o => exact getNear_stat T.dq0 T.dt0 h1 t

theorem RoundedAnswers.agree (T : Tame F L dq dt) {D : Duration} {ops : List (Op Pose)} (ho : AllOffered (Normal L) ops)
    {target source : Name} {t : Time} (h : RoundedAnswers F L dq dt ((Buf.init D).run ops) target source t) :
    Agree F L dq dt D ops target source t := by
  have hΩ := T.Ω
  have L0 := T.L0
  unfold Agree
  rw [run_same T.u T.η (by norm_num at *; linarith) D ho]
  rcases h with h | ⟨m, m', h1, h2, h3, h4, h5, h6, h7⟩
  · exact .inl h
  · refine .inr ⟨m, m', h1, h2, h3, h4, h5, h6, fun hne => ?_⟩
    obtain ⟨s, g, r, x, y, n, k, a1, a2, a3, a4, a5, a6, a7, _⟩ := h7 hne
    exact ⟨s, g, r, x, y, n, k, a1, a2, a3, a4, a5, a6, a7⟩

/-- **C84.** On a machine that rounds after every operation, a lookup throws exactly when the lookup in exact arithmetic
does, with the same exception, and otherwise its answer has the same names and stamp; over `N` transforms the rotation is
off by at most `2 (N + 1) (10 u + dq + 16 η)` and the translation by at most
`4 (N + 1)² (10 u + dq + 16 η) L + 2 (N + 1) (dt + 40 η)`: the first grows linearly, the second quadratically, neither
exponentially. `dq` and `dt` bound the error of the machine's interpolation. -/
theorem C84_rounding (T : Tame F L dq dt) (hi : InterpNear F L dq dt) (D : Duration) {ops : List (Op Pose)}
    (ho : AllOffered (Normal L) ops) (target source : Name) (t : Time) : Agree F L dq dt D ops target source t := by
  have hw : WF D ((Buf.init D).run ops) := WF.run (WF.init D) ops
  have hs := StoredIn.run ops (WF.init D) (StoredIn.init (Normal L) D) ho
  refine (answers_of T D ho (fun f D' st hc o n hadj num h0 h1 => ?_) target source t).agree T ho
  have hst : ∀ s ∈ st, Normal L s.xf := hs f _ hc
  have := hadj.2.2.1
  exact hi _ _ _ _ (hst _ hadj.1) (hst _ hadj.2.1) h0 h1 (by omega)

/-! ### Static transforms -/

theorem staticOnly_caches {D : Duration} : ∀ (ops : List (Op Pose)) {b : Buf Pose}, WF D b →
    (∀ f c, b.getFrame f = some c → ∃ o, c = .stat o) → StaticOnly ops →
    ∀ f c, (b.run ops).getFrame f = some c → ∃ o, c = .stat o := by
  intro ops
  induction ops with
  | nil => intro b _ h _; exact h
  | cons o r ih =>
    intro b hw h hs
    refine ih (hw.step o) ?_ (fun m a s hm => hs m a s (List.mem_cons_of_mem _ hm))
    cases o with
    | clear =>
      intro f c hc
      simp only [Buf.step] at hc
      rw [Buf.getFrame_clear] at hc
      split at hc
      · exact h 0 c hc
      · cases hb : b.getFrame f with
        | none => rw [hb] at hc; cases hc
        | some c' =>
          rw [hb] at hc; simp only [Option.map_some, Option.some.injEq] at hc
          obtain ⟨o, rfl⟩ := h f c' hb
          exact ⟨o, hc.symm⟩
    | set m a s =>
      obtain rfl : s = true := hs m a s (List.mem_cons_self ..)
      simp only [Buf.step]
      cases hv : Buf.msgValid (Buf.stripMsg m) with
      | false => rw [Buf.setTransform_invalid hv]; exact h
      | true =>
        obtain ⟨cid, pid, c0, c1, ir, st⟩ := Buf.setTransform_step hw.names m a true hv
        intro f c hc
        rw [st.hframes] at hc
        split at hc
        · injection hc with hc
          subst hc
          have h0 : ∃ o, c0 = .stat o := by
            rw [st.hc0]
            cases hb : b.getFrame cid with
            | some c' => exact h cid c' hb
            | none => exact ⟨none, rfl⟩
          obtain ⟨o, rfl⟩ := h0
          have hins := st.hins
          unfold Cache.insert at hins
          cases hins
          exact ⟨_, rfl⟩
        · exact h f c hc

theorem answers_static (T : Tame F L 0 0) (D : Duration) {ops : List (Op Pose)} (ho : AllOffered (Normal L) ops)
    (hst : StaticOnly ops) (target source : Name) (t : Time) : RoundedAnswers F L 0 0 ((Buf.init D).run ops) target source t := by
  have hw : WF D ((Buf.init D).run ops) := WF.run (WF.init D) ops
  have hs := StoredIn.run ops (WF.init D) (StoredIn.init (Normal L) D) ho
  have hc0 := staticOnly_caches ops (WF.init D) (fun f c hc => by
    exfalso
    unfold Buf.init Buf.getFrame at hc
    cases f <;> simp at hc) hst
  refine lookup_near T hw (fun t f c hc => ?_) target source t
  have h1 := hs f c hc
  obtain ⟨o, rfl⟩ := hc0 f c hc
  exact getNear_stat le_rfl le_rfl h1 t

/-- **C84, static transforms.** If every transform offered was static, no interpolation takes place and nothing need be
assumed of it. -/
theorem C84_static (T : Tame F L 0 0) (D : Duration) {ops : List (Op Pose)} (ho : AllOffered (Normal L) ops)
    (hst : StaticOnly ops) (target source : Name) (t : Time) : Agree F L 0 0 D ops target source t :=
  (answers_static T D ho hst target source t).agree T ho

/-! ### Doubles -/

/-- A candidate: the nearest multiple of the spacing of `double`s at the size of `x`. -/
theorem exists_double (x : ℝ) (hx : |x| ≤ (2 : ℝ) ^ (1023 : ℤ)) :
    ∃ y, IsDouble y ∧ |y - x| ≤ (2 : ℝ) ^ (-53 : ℤ) * |x| + (2 : ℝ) ^ (-1075 : ℤ) := by
  by_cases h0 : x = 0
  · refine ⟨0, ⟨0, 0, by norm_num, by norm_num, by norm_num, by simp⟩, ?_⟩
    rw [h0, sub_zero, abs_zero, mul_zero, zero_add]
    exact zpow_nonneg (by norm_num) _
  set e : ℤ := max (Int.log 2 |x| - 52) (-1074) with he
  have h2 : (1 : ℝ) < 2 := by norm_num
  have hk : (0 : ℝ) < (2 : ℝ) ^ e := zpow_pos (by norm_num) _
  have t1 : (0 : ℝ) < (2 : ℝ) ^ (-1075 : ℤ) := zpow_pos (by norm_num) _
  have t2 : (0 : ℝ) < (2 : ℝ) ^ (-53 : ℤ) := zpow_pos (by norm_num) _
  have hr : |(round (x / 2 ^ e) : ℝ) * 2 ^ e - x| ≤ (2 : ℝ) ^ e / 2 := by
    have := abs_sub_round (x / 2 ^ e)
    have e1 : (round (x / 2 ^ e) : ℝ) * (2 : ℝ) ^ e - x = -((x / 2 ^ e - round (x / 2 ^ e)) * 2 ^ e) := by
      field_simp
      ring
    rw [e1, abs_neg, abs_mul, abs_of_pos hk]
    nlinarith
  have hb : |x| ≤ 2 ^ 53 * (2 : ℝ) ^ e := by
    have h1 := Int.lt_zpow_succ_log_self (b := 2) (by norm_num) |x|
    push_cast at h1
    have h3 : (2 : ℝ) ^ (Int.log 2 |x| + 1) ≤ 2 ^ 53 * (2 : ℝ) ^ e := by
      have : (2 : ℝ) ^ 53 * (2 : ℝ) ^ e = (2 : ℝ) ^ (53 + e) := by
        rw [zpow_add₀ (by norm_num)]; norm_num
      rw [this]
      refine zpow_le_zpow_right₀ h2.le ?_
      have := le_max_left (Int.log 2 |x| - 52) (-1074)
      omega
    linarith
  have heb : e ≤ 971 := by
    rw [he]
    refine max_le ?_ (by norm_num)
    have h3 := Int.zpow_log_le_self (b := 2) (by norm_num) (abs_pos.2 h0)
    push_cast at h3
    have := (zpow_le_zpow_iff_right₀ h2).1 (h3.trans hx)
    omega
  refine ⟨(round (x / 2 ^ e) : ℝ) * 2 ^ e, ⟨round (x / 2 ^ e), e, ?_, le_max_right _ _, heb, rfl⟩, hr.trans ?_⟩
  · obtain ⟨b1, b2⟩ := abs_le.1 hb
    rw [abs_le]
    constructor
    · rw [round_eq, Int.le_floor]
      have : -(2 ^ 53 : ℝ) ≤ x / 2 ^ e := by rw [le_div_iff₀ hk]; linarith
      push_cast
      linarith
    · rw [round_eq, ← Int.lt_add_one_iff, Int.floor_lt]
      have : x / 2 ^ e ≤ (2 ^ 53 : ℝ) := by rw [div_le_iff₀ hk]; linarith
      push_cast
      linarith
  · have e2 : (2 : ℝ) ^ e / 2 = (2 : ℝ) ^ (e - 1) := by rw [zpow_sub_one₀ (by norm_num)]; ring
    rw [e2]
    rcases max_choice (Int.log 2 |x| - 52) (-1074) with h | h <;> rw [← he] at h <;> rw [h]
    · have h3 := Int.zpow_log_le_self (b := 2) (by norm_num) (abs_pos.2 h0)
      push_cast at h3
      have : (2 : ℝ) ^ (Int.log 2 |x| - 52 - 1) = (2 : ℝ) ^ (-53 : ℤ) * (2 : ℝ) ^ Int.log 2 |x| := by
        rw [← zpow_add₀ (by norm_num)]; congr 1; ring
      rw [this]
      have := mul_le_mul_of_nonneg_left h3 t2.le
      linarith
    · have : (-1074 : ℤ) - 1 = -1075 := by norm_num
      rw [this]
      have := mul_nonneg t2.le (abs_nonneg x)
      linarith

/-- A machine with IEEE 754 `double`s, rounding to nearest. -/
noncomputable def machine (rnd : ℝ → ℝ) (h : NearestDouble rnd) (interp : Pose → Pose → Int → Int → Pose) : Rounding where
  rnd := rnd
  u := (2 : ℝ) ^ (-53 : ℤ)
  η := (2 : ℝ) ^ (-1075 : ℤ)
  Ω := (2 : ℝ) ^ (1023 : ℤ)
  u_nonneg := zpow_nonneg (by norm_num) _
  η_nonneg := zpow_nonneg (by norm_num) _
  err := fun x hx => by
    obtain ⟨y, hy, hyx⟩ := exists_double x hx
    exact ((h x hx).2 y hy).trans hyx
  interp := interp


theorem machine_tame {rnd : ℝ → ℝ} (h : NearestDouble rnd) (interp : Pose → Pose → Int → Int → Pose) (h0 : 0 ≤ L) (h1 : L ≤ 10 ^ 9) :
    Tame (machine rnd h interp) L 0 0 := by
  have a1 : (2 : ℝ) ^ (-1075 : ℤ) ≤ (2 : ℝ) ^ (-53 : ℤ) := zpow_le_zpow_right₀ (by norm_num) (by norm_num)
  have a2 : (2 : ℝ) ^ (-53 : ℤ) ≤ 1 / 10 ^ 9 := by
    rw [zpow_neg, ← one_div]
    exact one_div_le_one_div_of_le (by norm_num) (by norm_num)
  have a3 : (2 : ℝ) ^ (50 : ℤ) ≤ (2 : ℝ) ^ (1023 : ℤ) := zpow_le_zpow_right₀ (by norm_num) (by norm_num)
  have a4 : (10 : ℝ) ^ 4 * (10 ^ 9 + 1) ≤ (2 : ℝ) ^ (50 : ℤ) := by norm_num
  refine ⟨a2, a1.trans a2, le_rfl, by norm_num, le_rfl, by norm_num, h0, ?_⟩
  have a5 : 10 ^ 4 * (L + 1) ≤ (10 : ℝ) ^ 4 * (10 ^ 9 + 1) := mul_le_mul_of_nonneg_left (by linarith) (by norm_num)
  exact a5.trans (a4.trans a3)

/-- **C84, doubles.** With `double`s rounded to nearest and static transforms of unit length (up to a millionth) and with
translations up to `L` (at most a million kilometres), an answer over `N` transforms is off by at most `(N + 1) / 2^48` in
the rotation and `(N + 1)² (L / 2^47 + 1 / 2^1000)` in the translation: for ten transforms and 100 metres, less than a tenth of a nanometre. -/
theorem C84_double {rnd : ℝ → ℝ} (h : NearestDouble rnd) (interp : Pose → Pose → Int → Int → Pose) (h0 : 0 ≤ L) (h1 : L ≤ 10 ^ 9)
    (D : Duration) {ops : List (Op Pose)} (ho : AllOffered (Normal L) ops) (hst : StaticOnly ops) {target source : Name}
    (hne : target ≠ source) (t : Time) {m : Msg Pose}
    (hm : (machine rnd h interp).lookup ((machine rnd h interp).run D ops) target source t = .ok m) :
    ∃ m', ((Buf.init D).run ops).lookupTransform target source t = .ok m' ∧
      m.parent = m'.parent ∧ m.child = m'.child ∧ m.stamp = m'.stamp ∧
      ∃ s g r x y n k, IsFrame ((Buf.init D).run ops) source s ∧ IsFrame ((Buf.init D).run ops) target g ∧ n ≤ 1000 ∧ k ≤ 1000 ∧
        Chain ((Buf.init D).run ops) m'.stamp s r x n ∧ Chain ((Buf.init D).run ops) m'.stamp g r y k ∧
        m.xf.rot.apart m'.xf.rot ≤ ((n + k : ℕ) + 1) / 2 ^ 48 ∧
        m.xf.trans.apart m'.xf.trans ≤ ((n + k : ℕ) + 1) ^ 2 * (L / 2 ^ 47 + (2 : ℝ) ^ (-1000 : ℤ)) := by
  rcases C84_static (machine_tame h interp h0 h1) D ho hst target source t with ⟨e, he, _⟩ | ⟨m1, m', e1, e2, p1, p2, p3, _, hx⟩
  · rw [hm] at he; cases he
  · rw [hm] at e1
    obtain rfl : m = m1 := by cases e1; rfl
    obtain ⟨s, g, r, x, y, n, k, hs, hg, n1, k1, hc, hc', o1, o2⟩ := hx hne
    refine ⟨m', e2, p1, p2, p3, s, g, r, x, y, n, k, hs, hg, n1, k1, hc, hc', o1.trans ?_, o2.trans ?_⟩
    all_goals
      have eu : (machine rnd h interp).u = 1 / 2 ^ 53 := by
        show (2 : ℝ) ^ (-53 : ℤ) = _
        rw [zpow_neg, ← one_div]; norm_num
      have eη : (machine rnd h interp).η = (2 : ℝ) ^ (-1075 : ℤ) := rfl
      have b1 : (2 : ℝ) ^ (-1075 : ℤ) ≤ 1 / 2 ^ 60 := by
        have : (2 : ℝ) ^ (-1075 : ℤ) ≤ (2 : ℝ) ^ (-60 : ℤ) := zpow_le_zpow_right₀ (by norm_num) (by norm_num)
        rw [zpow_neg (2 : ℝ) 60, ← one_div] at this
        exact_mod_cast this
      have b2 : 80 * (2 : ℝ) ^ (-1075 : ℤ) ≤ (2 : ℝ) ^ (-1000 : ℤ) := by
        have e : (2 : ℝ) ^ (-1000 : ℤ) = 2 ^ 75 * (2 : ℝ) ^ (-1075 : ℤ) := by
          rw [← zpow_natCast, ← zpow_add₀ (by norm_num)]; norm_num
        rw [e]
        have : (0 : ℝ) < (2 : ℝ) ^ (-1075 : ℤ) := zpow_pos (by norm_num) _
        have h75 : (80 : ℝ) ≤ 2 ^ 75 := by norm_num
        exact mul_le_mul_of_nonneg_right h75 this.le
      have b0 : (0 : ℝ) ≤ (2 : ℝ) ^ (-1075 : ℤ) := zpow_nonneg (by norm_num) _
      rw [eu, eη]
      generalize (2 : ℝ) ^ (-1075 : ℤ) = d at *
      generalize (2 : ℝ) ^ (-1000 : ℤ) = d' at *
      have hN : (0 : ℝ) ≤ (n + k : ℕ) := Nat.cast_nonneg _
      generalize ((n + k : ℕ) : ℝ) = N at *
      have c1 : 10 * (1 / 2 ^ 53) + 0 + 16 * d ≤ 1 / 2 ^ 49 := by norm_num at *; linarith
    · have := mul_le_mul_of_nonneg_left c1 (by positivity : 0 ≤ 2 * (N + 1))
      norm_num at *
      linarith
    · have k1 := mul_le_mul_of_nonneg_right (mul_le_mul_of_nonneg_left c1 (by positivity : 0 ≤ 4 * (N + 1) ^ 2)) h0
      have k2 : 2 * (N + 1) * (0 + 40 * d) ≤ (N + 1) ^ 2 * d' := by
        have a1 : 2 * (N + 1) * (0 + 40 * d) = (N + 1) * (80 * d) := by ring
        have a2 : (N + 1) ≤ (N + 1) ^ 2 := by nlinarith
        rw [a1]
        exact mul_le_mul a2 b2 (by positivity) (by positivity)
      have k3 : 4 * (N + 1) ^ 2 * (1 / 2 ^ 49) * L = (N + 1) ^ 2 * (L / 2 ^ 47) := by norm_num; ring
      rw [k3] at k1
      linarith

/-! ### The hypotheses can be met -/

/-- There is a rounding to the nearest `double`. -/
theorem exists_nearest : ∃ rnd, NearestDouble rnd := by
  have hfin : {x : ℝ | IsDouble x}.Finite := by
    refine ((Set.finite_Icc (-2 ^ 53 : ℤ) (2 ^ 53)).prod (Set.finite_Icc (-1074 : ℤ) 971)).image (fun p => (p.1 : ℝ) * (2 : ℝ) ^ p.2) |>.subset ?_
    rintro x ⟨m, k, h1, h2, h3, rfl⟩
    exact ⟨(m, k), ⟨abs_le.1 h1, h2, h3⟩, rfl⟩
  have : ∀ x : ℝ, ∃ y, IsDouble y ∧ ∀ z, IsDouble z → |y - x| ≤ |z - x| := by
    intro x
    obtain ⟨y, hy, hmin⟩ := Set.exists_min_image {x : ℝ | IsDouble x} (fun y => |y - x|) hfin
      ⟨0, 0, 0, by norm_num, by norm_num, by norm_num, by simp⟩
    exact ⟨y, hy, hmin⟩
  choose f hf using this
  exact ⟨f, fun x _ => hf x⟩

theorem turned_normal : AllOffered (Normal 10) turnedOps := by
  intro m a s hm
  have hu := (Quat.unit_iff _).1 (turned_valid m a s hm).2.1
  refine ⟨by rw [hu]; norm_num, ?_⟩
  simp only [turnedOps, List.mem_cons, List.not_mem_nil, or_false, Op.set.injEq] at hm
  rcases hm with ⟨rfl, _⟩ | ⟨rfl, _⟩ <;>
  · refine Real.sqrt_le_iff.2 ⟨by norm_num, ?_⟩
    simp only [Vec3.length2, Vec3.dot]; norm_num

/-- The hypotheses of `C84_double` and `C84_rounding` are met by two turned frames: the lookup on the machine succeeds. -/
example : ∃ rnd, ∃ h : NearestDouble rnd, ∃ m, (machine rnd h Pose.interp).lookup ((machine rnd h Pose.interp).run 100 turnedOps) ['b'] ['a'] 7 = .ok m ∧
    AllOffered (Normal 10) turnedOps ∧ StaticOnly turnedOps ∧ Tame (machine rnd h Pose.interp) 10 0 0 ∧
    InterpNear (machine rnd h Pose.interp) 10 0 0 := by
  obtain ⟨rnd, h⟩ := exists_nearest
  have hst : StaticOnly turnedOps := by
    intro m a s hm
    simp only [turnedOps, List.mem_cons, List.not_mem_nil, or_false, Op.set.injEq] at hm
    rcases hm with ⟨_, _, rfl⟩ | ⟨_, _, rfl⟩ <;> rfl
  have T := machine_tame (L := 10) h Pose.interp (by norm_num) (by norm_num)
  refine ⟨rnd, h, ?_⟩
  obtain ⟨m', hm'⟩ := turned_hyps.2.2.2.2.2
  rcases C84_static T 100 turned_normal hst ['b'] ['a'] 7 with ⟨e, _, he⟩ | ⟨m, _, e1, _⟩
  · rw [hm'] at he; cases he
  · exact ⟨m, e1, turned_normal, hst, T, fun a b num den _ _ _ _ _ =>
      ⟨by show Quat.apart (Pose.interp a b num den).rot _ ≤ _; rw [Quat.apart_self], by show Vec3.apart (Pose.interp a b num den).trans _ ≤ _; rw [Vec3.apart_self]⟩⟩

end Tf2
