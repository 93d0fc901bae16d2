import Verif.Proofs.Drift
import Verif.Spec.Drift
import Verif.Props.Origin

/-!
# C77: quaternions that are not of unit length

`setTransform` accepts quaternions whose squared length is off by less than 0.01.
-/
namespace Tf2

/-! ### The ways behind an answer -/

theorem lookup_at_stamp {X : Type} [Rigid X] {D : Duration} {b : Buf X} (hw : WF D b) {target source : Name} (hne : target ≠ source)
    {t : Time} {m : Msg X} (h : b.lookupTransform target source t = .ok m) (hst : m.stamp ≠ 0) :
    b.lookupTransform target source m.stamp = .ok m := by
  obtain ⟨g, s, hg, hs, lg, ls⟩ := lookup_ok_frames hne h
  have hsg : s ≠ g := fun e => hne (hw.inj hg.2 (e ▸ hs.2))
  rw [lookup_eq hg hs lg ls hne] at h
  have key : ∀ u a ch, b.walkAt transformAccum TAcc.init u g s = .done a ch → a.time = u := by
    intro u a ch hwt
    have := walkAt_spec (t := u) hw (tgt := g) hs.1 TAcc.init rfl rfl
    rw [hwt] at this
    exact this.1
  have fin : ∀ u, lookupOfWalk target source (b.walkAt transformAccum TAcc.init u g s) = .ok m →
      b.lookupTransform target source m.stamp = .ok m := by
    intro u hu
    cases h3 : b.walkAt transformAccum TAcc.init u g s with
    | ub => rw [h3] at hu; cases hu
    | err c => rw [h3] at hu; cases hu
    | done a ch =>
      have e := key u a ch h3
      rw [h3] at hu
      have hm : m.stamp = u := by cases hu; exact e
      rw [hm, lookup_walkAt hw hg hs lg ls hne (hm ▸ hst), h3]
      exact hu
  unfold Buf.walk at h
  rw [if_neg hsg] at h
  split at h
  · cases h4 : b.latestCommonTime g s with
    | ub => rw [h4] at h; cases h
    | err c => rw [h4] at h; cases h
    | ok u => rw [h4] at h; exact fin u h
  · exact fin t h

theorem Pose.inv_one_comp (x : Pose) : Rigid.comp (Rigid.inv (Rigid.one : Pose)) x = x := by
  show Pose.comp (Pose.inv Pose.one) x = x
  ext <;> simp [Pose.comp, Pose.inv, Pose.one, Quat.mul, Quat.inverse, Quat.identity, Quat.rotate, Quat.mulVec, Vec3.add,
    Vec3.neg, Vec3.zero]

theorem Pose.inv_comp_one (y : Pose) : Rigid.comp (Rigid.inv y) (Rigid.one : Pose) = Rigid.inv y := by
  show Pose.comp (Pose.inv y) Pose.one = Pose.inv y
  ext <;> simp [Pose.comp, Pose.inv, Pose.one, Quat.mul, Quat.inverse, Quat.identity, Quat.rotate, Quat.mulVec, Vec3.add,
    Vec3.neg, Vec3.zero]

theorem answer_ways {D : Duration} {ops : List (Op Pose)} (hreg : Regular D ops) {target source : Name} (hne : target ≠ source)
    {t : Time} {m : Msg Pose} (h : ((Buf.init D).run ops).lookupTransform target source t = .ok m) (hst : m.stamp ≠ 0) :
    ∃ c x y k l, Leads D ops m.stamp source c x k ∧ Leads D ops m.stamp target c y l ∧ m.xf = Pose.comp (Pose.inv y) x := by
  have h' := lookup_at_stamp (WF.run (WF.init D) ops) hne h hst
  obtain ⟨_, _, _, _, _, _, _, hc⟩ := C59_sound hreg interpZero_pose hst hne h'
  rcases hc with ⟨k, hl⟩ | ⟨k, y, hl, e⟩ | ⟨c, x, y, k, l, hx, hy, e⟩
  · exact ⟨target, m.xf, Rigid.one, k, 0, hl, .refl, (Pose.inv_one_comp _).symm⟩
  · exact ⟨source, Rigid.one, y, 0, k, .refl, hl, by rw [e]; exact (Pose.inv_comp_one y).symm⟩
  · exact ⟨c, x, y, k, l, hx, hy, e⟩

/-- What the messages say about one frame. -/
theorem Says.within {D : Duration} {ops : List (Op Pose)} {lo hi L : ℝ} (hlo : 0 < lo) (hn : LengthsIn lo hi ops)
    {t : Time} {n p : Name} {e : Pose} (h : Says D ops t n p e) :
    (lo ≤ e.rot.length2 ∧ e.rot.length2 ≤ hi) ∧ (ShiftsWithin L ops → e.trans.length ≤ L) := by
  have mem : ∀ {m : Msg Pose}, m ∈ recentFor n ops [] → (lo ≤ m.xf.rot.length2 ∧ m.xf.rot.length2 ≤ hi) ∧
      (ShiftsWithin L ops → m.xf.trans.length ≤ L) := by
    intro m hm
    rcases recentFor_mem hm with h | ⟨s, h⟩
    · cases h
    · obtain ⟨⟨a, ha⟩, hv, _⟩ := offersFor_mem h
      exact ⟨hn m a s ha hv, fun hL => hL m a s ha hv⟩
  cases h with
  | static h1 h2 =>
    obtain ⟨⟨a, ha⟩, hv, _⟩ := offersFor_mem (List.mem_of_getLast? h2)
    exact ⟨hn _ _ _ ha hv, fun hL => hL _ _ _ ha hv⟩
  | exact _ hm _ => exact mem hm.mem
  | @between m0 o w r _ ho hw h1 h2 _ _ =>
    have e : Rigid.interp o.xf w.xf ((t : Int) - o.stamp) ((w.stamp : Int) - o.stamp) =
        Pose.interp o.xf w.xf ((t : Int) - o.stamp) ((w.stamp : Int) - o.stamp) := rfl
    have hd : (0 : ℝ) < (((w.stamp : Int) - o.stamp : Int) : ℝ) := by exact_mod_cast (by omega : (0 : Int) < (w.stamp : Int) - o.stamp)
    have hn0 : (0 : ℝ) ≤ (((t : Int) - o.stamp : Int) : ℝ) := by exact_mod_cast (by omega : (0 : Int) ≤ (t : Int) - o.stamp)
    have hle : (((t : Int) - o.stamp : Int) : ℝ) ≤ (((w.stamp : Int) - o.stamp : Int) : ℝ) := by
      exact_mod_cast (by omega : (t : Int) - o.stamp ≤ (w.stamp : Int) - o.stamp)
    have r0 := div_nonneg hn0 hd.le
    have r1 := (div_le_one hd).2 hle
    obtain ⟨⟨a1, a2⟩, a3⟩ := mem ho.mem
    obtain ⟨⟨b1, b2⟩, b3⟩ := mem hw.mem
    rw [e]
    exact ⟨Quat.length2_slerp hlo a1 a2 b1 b2 r0 r1, fun hL => Vec3.length_interpolate (a3 hL) (b3 hL) r0 r1⟩
  | switch _ ho _ _ _ _ _ => exact mem ho.mem

theorem Leads.within {D : Duration} {ops : List (Op Pose)} {lo hi : ℝ} (hlo : 0 < lo) (hn : LengthsIn lo hi ops) (hhi : 0 ≤ hi)
    {t : Time} {a c : Name} {x : Pose} {k : Nat} (h : Leads D ops t a c x k) :
    lo ^ k ≤ x.rot.length2 ∧ x.rot.length2 ≤ hi ^ k := by
  induction h with
  | refl =>
    have : (Rigid.one : Pose).rot.length2 = 1 := by
      show Pose.one.rot.length2 = 1
      simp [Pose.one, Quat.identity, Quat.length2, Quat.dot]
    rw [this]; simp
  | @snoc c p x e k _ hs _ ih =>
    have he := (hs.within (L := 0) hlo hn).1
    have : (Rigid.comp e x).rot.length2 = e.rot.length2 * x.rot.length2 := Quat.length2_mul _ _
    rw [this]
    have hp : 0 ≤ lo ^ k := (pow_pos hlo k).le
    constructor
    · rw [pow_succ']; exact mul_le_mul he.1 ih.1 hp (le_trans hlo.le he.1)
    · rw [pow_succ']; exact mul_le_mul he.2 ih.2 (le_trans hp ih.1) hhi

theorem Leads.reach {D : Duration} {ops : List (Op Pose)} {lo hi L : ℝ} (hlo : 0 < lo) (hn : LengthsIn lo hi ops)
    (hL : ShiftsWithin L ops) (hhi : 0 ≤ hi) {t : Time} {a c : Name} {x : Pose} {k : Nat} (h : Leads D ops t a c x k) :
    x.trans.length ≤ L * ∑ i ∈ Finset.range k, hi ^ i := by
  induction h with
  | refl =>
    have : (Rigid.one : Pose).trans.length = 0 := by
      show Pose.one.trans.length = 0
      simp [Pose.one, Vec3.zero, Vec3.length, Vec3.length2, Vec3.dot]
    rw [this]; simp
  | @snoc c p x e k _ hs _ ih =>
    obtain ⟨⟨he0, he⟩, het⟩ := hs.within (L := L) hlo hn
    have e1 : (Rigid.comp e x).trans = (e.rot.rotate x.trans).add e.trans := rfl
    rw [e1]
    refine (Vec3.length_add_le _ _).trans ?_
    rw [Quat.length_rotate]
    have h1 : e.rot.length2 * x.trans.length ≤ hi * (L * ∑ i ∈ Finset.range k, hi ^ i) :=
      mul_le_mul he ih (Vec3.length_nonneg' _) hhi
    have h2 := het hL
    rw [Finset.sum_range_succ', Finset.mul_sum] at *
    simp only [pow_succ, pow_zero]
    have : (∑ i ∈ Finset.range k, hi ^ i * hi) = hi * ∑ i ∈ Finset.range k, hi ^ i := by
      rw [Finset.mul_sum]; exact Finset.sum_congr rfl (fun _ _ => mul_comm _ _)
    rw [this, mul_add, mul_one]
    rw [← Finset.mul_sum] at h1
    nlinarith

/-! ### C77 -/

/-- **C77.** An answer found over ways of `k` and `l` transforms: if the squared lengths of all quaternions that were
accepted are between `lo` and `hi`, that of the answer is between `lo ^ (k + l)` and `hi ^ (k + l)`, interpolation
included; if the translations are no longer than `L`, that of the answer is no longer than
`L * hi ^ l * (1 + hi + … + hi ^ (k - 1) + 1 + hi + … + hi ^ (l - 1))`. -/
theorem C77_drift {D : Duration} {ops : List (Op Pose)} (hreg : Regular D ops) {lo hi : ℝ} (hlo : 0 < lo) (hle : lo ≤ hi)
    (hn : LengthsIn lo hi ops) {target source : Name} (hne : target ≠ source) {t : Time} {m : Msg Pose}
    (h : ((Buf.init D).run ops).lookupTransform target source t = .ok m) (hst : m.stamp ≠ 0) :
    ∃ c x y k l, Leads D ops m.stamp source c x k ∧ Leads D ops m.stamp target c y l ∧
      lo ^ (k + l) ≤ m.xf.rot.length2 ∧ m.xf.rot.length2 ≤ hi ^ (k + l) ∧
      ∀ L, ShiftsWithin L ops → m.xf.trans.length ≤
        L * (hi ^ l * (∑ i ∈ Finset.range k, hi ^ i + ∑ i ∈ Finset.range l, hi ^ i)) := by
  obtain ⟨c, x, y, k, l, hx, hy, e⟩ := answer_ways hreg hne h hst
  have hhi : 0 ≤ hi := hlo.le.trans hle
  have nx := hx.within hlo hn hhi
  have ny := hy.within hlo hn hhi
  have el : m.xf.rot.length2 = y.rot.length2 * x.rot.length2 := by
    rw [e]
    show ((y.rot.inverse).mul x.rot).length2 = _
    rw [Quat.length2_mul, Quat.length2_inverse]
  refine ⟨c, x, y, k, l, hx, hy, ?_, ?_, fun L hL => ?_⟩
  · rw [el, pow_add, mul_comm (lo ^ k)]
    exact mul_le_mul ny.1 nx.1 (pow_pos hlo k).le ((pow_pos hlo l).le.trans ny.1)
  · rw [el, pow_add, mul_comm (hi ^ k)]
    exact mul_le_mul ny.2 nx.2 (Quat.length2_nonneg' _) (pow_nonneg hhi l)
  · have rx := hx.reach hlo hn hL hhi
    have ry := hy.reach hlo hn hL hhi
    have e1 : m.xf.trans = (y.rot.inverse.rotate x.trans).add (y.rot.inverse.rotate y.trans.neg) := by rw [e]; rfl
    rw [e1]
    refine (Vec3.length_add_le _ _).trans ?_
    rw [Quat.length_rotate, Quat.length_rotate, Quat.length2_inverse, Vec3.length_neg, ← mul_add]
    have h1 : y.rot.length2 * (x.trans.length + y.trans.length) ≤
        hi ^ l * (L * ∑ i ∈ Finset.range k, hi ^ i + L * ∑ i ∈ Finset.range l, hi ^ i) :=
      mul_le_mul ny.2 (add_le_add rx ry) (add_nonneg (Vec3.length_nonneg' _) (Vec3.length_nonneg' _)) (pow_nonneg hhi l)
    calc _ ≤ _ := h1
      _ = _ := by ring

/-- Whatever `setTransform` accepts has a squared length between 0.99 and 1.01. -/
theorem lengthsIn_valid (ops : List (Op Pose)) : LengthsIn (99 / 100) (101 / 100) ops := by
  intro m a s _ hv
  have h := hv.2.2.2.2
  have h' : Pose.normOK m.xf = true := h
  unfold Pose.normOK at h'
  simp only [decide_eq_true_eq] at h'
  rw [abs_lt] at h'
  have e : m.xf.rot.length2 = m.xf.rot.w * m.xf.rot.w + m.xf.rot.x * m.xf.rot.x + m.xf.rot.y * m.xf.rot.y +
      m.xf.rot.z * m.xf.rot.z := by simp only [Quat.length2, Quat.dot]; ring
  rw [e]
  constructor <;> norm_num at h' ⊢ <;> linarith [h'.1, h'.2]

/-- **C77, for every history.** Whatever was offered to the buffer, the squared length of the quaternion of an answer over
`n` transforms is between `0.99 ^ n` and `1.01 ^ n`; in particular it is not zero. -/
theorem C77_tolerance {D : Duration} {ops : List (Op Pose)} (hreg : Regular D ops) {target source : Name} (hne : target ≠ source)
    {t : Time} {m : Msg Pose} (h : ((Buf.init D).run ops).lookupTransform target source t = .ok m) (hst : m.stamp ≠ 0) :
    ∃ c x y k l, Leads D ops m.stamp source c x k ∧ Leads D ops m.stamp target c y l ∧
      (99 / 100 : ℝ) ^ (k + l) ≤ m.xf.rot.length2 ∧ m.xf.rot.length2 ≤ (101 / 100 : ℝ) ^ (k + l) := by
  obtain ⟨c, x, y, k, l, h1, h2, h3, h4, _⟩ :=
    C77_drift hreg (by norm_num) (by norm_num) (lengthsIn_valid ops) hne h hst
  exact ⟨c, x, y, k, l, h1, h2, h3, h4⟩

/-- **C77, unit quaternions.** If every quaternion accepted has length one, so has that of every answer; and if every
translation is at most `L` long, that of an answer over `n` transforms is at most `n * L` long. -/
theorem C77_unit {D : Duration} {ops : List (Op Pose)} (hreg : Regular D ops) (hn : LengthsIn 1 1 ops) {target source : Name}
    (hne : target ≠ source) {t : Time} {m : Msg Pose}
    (h : ((Buf.init D).run ops).lookupTransform target source t = .ok m) (hst : m.stamp ≠ 0) :
    m.xf.rot.length2 = 1 ∧ ∃ c x y k l, Leads D ops m.stamp source c x k ∧ Leads D ops m.stamp target c y l ∧
      ∀ L, ShiftsWithin L ops → m.xf.trans.length ≤ (k + l : Nat) * L := by
  obtain ⟨c, x, y, k, l, h1, h2, h3, h4, h5⟩ := C77_drift hreg (by norm_num) le_rfl hn hne h hst
  rw [one_pow] at h3 h4
  refine ⟨le_antisymm h4 h3, c, x, y, k, l, h1, h2, fun L hL => ?_⟩
  have := h5 L hL
  simp only [one_pow, one_mul, Finset.sum_const, Finset.card_range, nsmul_eq_mul, mul_one] at this
  push_cast
  linarith

/-! ### Findings -/

/-- A frame whose quaternion is slightly too long, and one a thousand metres away in it. No frame is turned. -/
noncomputable def longOps : List (Op Pose) :=
  [.set ⟨['w'], ['a'], 0, ⟨⟨0, 0, 0, 251 / 250⟩, ⟨0, 0, 0⟩⟩⟩ ['p'] true,
   .set ⟨['a'], ['b'], 0, ⟨⟨0, 0, 0, 251 / 250⟩, ⟨1000, 0, 0⟩⟩⟩ ['p'] true]

theorem long_valid : ∀ m a s, Op.set m a s ∈ longOps → ValidMsg m ∧ m.stamp = 0 ∧ stripSlash m.child ≠ noParentName := by
  intro m a s hm
  simp only [longOps, List.mem_cons, List.not_mem_nil, or_false, Op.set.injEq] at hm
  have hok : ∀ v, Rigid.normOK (⟨⟨0, 0, 0, 251 / 250⟩, v⟩ : Pose) = true := by
    intro v
    show Pose.normOK _ = true
    simp only [Pose.normOK, decide_eq_true_eq]
    rw [abs_lt]; norm_num
  rcases hm with ⟨rfl, _⟩ | ⟨rfl, _⟩ <;>
    exact ⟨⟨by decide, by decide, by decide, rfl, hok _⟩, rfl, by decide⟩

theorem long_regular : Regular 100 longOps :=
  ⟨by decide, fun m a s hm _ => by rw [(long_valid m a s hm).2.1]; decide, fun m a s hm _ => (long_valid m a s hm).2.2⟩

theorem long_offers : offersFor ['a'] longOps = [(⟨['w'], ['a'], 0, ⟨⟨0, 0, 0, 251 / 250⟩, ⟨0, 0, 0⟩⟩⟩, true)] ∧
    offersFor ['b'] longOps = [(⟨['a'], ['b'], 0, ⟨⟨0, 0, 0, 251 / 250⟩, ⟨1000, 0, 0⟩⟩⟩, true)] ∧
    offersFor ['w'] longOps = [] := by
  have va := (long_valid _ _ _ (List.mem_cons_self ..)).1
  have vb := (long_valid _ _ _ (List.mem_cons_of_mem _ (List.mem_cons_self ..))).1
  exact ⟨by simp [longOps, offersFor, va, stripSlash], by simp [longOps, offersFor, vb, stripSlash],
    by simp [longOps, offersFor, stripSlash]⟩

theorem says_single {D : Duration} {ops : List (Op Pose)} {t : Time} {n p : Name} {e : Pose} {m : Msg Pose}
    (ho : offersFor n ops = [(m, true)]) (h : Says D ops t n p e) : p = stripSlash m.parent ∧ e = m.xf := by
  cases h with
  | static h1 h2 =>
    rw [ho] at h2
    cases h2
    exact ⟨rfl, rfl⟩
  | exact h1 _ _ => rw [ho] at h1; cases h1
  | between h1 _ _ _ _ _ _ => rw [ho] at h1; cases h1
  | switch h1 _ _ _ _ _ _ => rw [ho] at h1; cases h1

theorem long_leads {t : Time} {c : Name} {x : Pose} {k : Nat} (h : Leads 100 longOps t ['b'] c x k) :
    (c = ['b'] ∧ x = Rigid.one) ∨ (c = ['a'] ∧ x = ⟨⟨0, 0, 0, 251 / 250⟩, ⟨1000, 0, 0⟩⟩) ∨
      (c = ['w'] ∧ x = Pose.comp ⟨⟨0, 0, 0, 251 / 250⟩, ⟨0, 0, 0⟩⟩ ⟨⟨0, 0, 0, 251 / 250⟩, ⟨1000, 0, 0⟩⟩) := by
  obtain ⟨oa, ob, ow⟩ := long_offers
  induction h with
  | refl => exact .inl ⟨rfl, rfl⟩
  | snoc _ hs _ ih =>
    rcases ih with ⟨rfl, rfl⟩ | ⟨rfl, rfl⟩ | ⟨rfl, rfl⟩
    · obtain ⟨rfl, rfl⟩ := says_single ob hs
      refine .inr (.inl ⟨rfl, ?_⟩)
      show Pose.comp _ Pose.one = _
      ext <;> simp [Pose.comp, Pose.one, Quat.mul, Quat.inverse, Quat.identity, Quat.rotate, Quat.mulVec, Vec3.add, Vec3.zero]
    · obtain ⟨rfl, rfl⟩ := says_single oa hs
      exact .inr (.inr ⟨rfl, rfl⟩)
    · obtain ⟨m, s, hm, _⟩ := hs.offer
      rw [ow] at hm
      cases hm

theorem long_top {t : Time} {c : Name} {x : Pose} {k : Nat} (h : Leads 100 longOps t ['w'] c x k) : c = ['w'] ∧ x = Rigid.one := by
  obtain ⟨oa, ob, ow⟩ := long_offers
  induction h with
  | refl => exact ⟨rfl, rfl⟩
  | snoc _ hs _ ih =>
    obtain ⟨rfl, rfl⟩ := ih
    obtain ⟨m, s, hm, _⟩ := hs.offer
    rw [ow] at hm
    cases hm

theorem long_answer : ∃ m, ((Buf.init 100).run longOps).lookupTransform ['w'] ['b'] 7 = .ok m ∧ m.stamp = 7 ∧
    m.parent = ['w'] ∧ m.child = ['b'] ∧
    m.xf = ⟨⟨0, 0, 0, (251 / 250) ^ 2⟩, ⟨1000 * (251 / 250) ^ 2, 0, 0⟩⟩ := by
  obtain ⟨oa, ob, ow⟩ := long_offers
  have sa : Says 100 longOps 7 ['a'] ['w'] _ := .static oa (by rw [oa]; rfl)
  have sb : Says 100 longOps 7 ['b'] ['a'] _ := .static ob (by rw [ob]; rfl)
  have lb : Leads 100 longOps 7 ['b'] ['w'] _ 2 := .snoc (.snoc .refl sb (by decide)) sa (by decide)
  have hw : ¬ ∃ p e, Says 100 longOps 7 ['w'] p e ∧ p ≠ noParentName := by
    rintro ⟨p, e, h, _⟩
    obtain ⟨m, s, hm, _⟩ := h.offer
    rw [ow] at hm
    cases hm
  have wb : WayEnds 100 longOps 7 ['b'] := ⟨_, _, 2, by decide, lb, hw⟩
  have ww : WayEnds 100 longOps 7 ['w'] := ⟨_, _, 0, by decide, .refl, hw⟩
  obtain ⟨m, hm⟩ := (C59_complete long_regular interpZero_pose (by decide) (sa.mentioned.2) sb.mentioned.1 (by decide) (by decide)
    ⟨by decide, by decide⟩ ⟨by decide, by decide⟩ ww wb).2 ⟨_, _, _, _, _, lb, .refl⟩
  obtain ⟨_, _, _, _, h1, h2, h3, _⟩ := C59_sound long_regular interpZero_pose (by decide) (by decide) hm
  obtain ⟨c, x, y, k, l, hx, hy, e⟩ := answer_ways long_regular (by decide) hm (by rw [h3]; decide)
  refine ⟨m, hm, h3, h1, h2, ?_⟩
  obtain ⟨rfl, rfl⟩ := long_top hy
  have hx' : x = Pose.comp ⟨⟨0, 0, 0, 251 / 250⟩, ⟨0, 0, 0⟩⟩ ⟨⟨0, 0, 0, 251 / 250⟩, ⟨1000, 0, 0⟩⟩ := by
    rcases long_leads hx with ⟨h, _⟩ | ⟨h, _⟩ | ⟨_, h⟩
    · exact absurd h (by decide)
    · exact absurd h (by decide)
    · exact h
  rw [e]
  show Rigid.comp (Rigid.inv Rigid.one) x = _
  rw [Pose.inv_one_comp, hx']
  ext <;> simp [Pose.comp, Quat.mul, Quat.inverse, Quat.rotate, Quat.mulVec, Vec3.add] <;> norm_num

/-- **C77 (finding).** A buffer can give an answer that a buffer would not accept: both messages here were accepted, but
the answer composed of the two is refused as not normalised. -/
theorem C77_refused_finding : ∃ m, ((Buf.init 100).run longOps).lookupTransform ['w'] ['b'] 7 = .ok m ∧
    (∀ m a s, Op.set m a s ∈ longOps → ValidMsg m) ∧
    ∀ (b : Buf Pose) (auth : Name) (s : Bool), b.setTransform m auth s = (b, .invalid) := by
  obtain ⟨m, h, _, _, _, e⟩ := long_answer
  refine ⟨m, h, fun m a s hm => (long_valid m a s hm).1, fun b auth s => ?_⟩
  refine Buf.setTransform_invalid (msgValid_false fun hv => ?_)
  have h' : Pose.normOK m.xf = true := hv.2.2.2.2
  rw [e] at h'
  simp only [Pose.normOK, decide_eq_true_eq, abs_lt] at h'
  norm_num at h'

/-- **C77 (finding).** The excess length is taken for a change of scale: with the frame not turned at all and the point
1000 metres away, the answer is 1008.016 metres. -/
theorem C77_scale_finding : ∃ m, ((Buf.init 100).run longOps).lookupTransform ['w'] ['b'] 7 = .ok m ∧
    (∀ m a s, Op.set m a s ∈ longOps → ValidMsg m ∧ m.xf.trans.length ≤ 1000 ∧ m.xf.rot.x = 0 ∧ m.xf.rot.y = 0 ∧ m.xf.rot.z = 0) ∧
    m.xf.trans = ⟨1008016 / 1000, 0, 0⟩ := by
  obtain ⟨m, h, _, _, _, e⟩ := long_answer
  refine ⟨m, h, fun m a s hm => ⟨(long_valid m a s hm).1, ?_⟩, by rw [e]; norm_num⟩
  simp only [longOps, List.mem_cons, List.not_mem_nil, or_false, Op.set.injEq] at hm
  rcases hm with ⟨rfl, _⟩ | ⟨rfl, _⟩
  · refine ⟨?_, rfl, rfl, rfl⟩
    simp [Vec3.length, Vec3.length2, Vec3.dot]
  · refine ⟨?_, rfl, rfl, rfl⟩
    refine Real.sqrt_le_iff.2 ⟨by norm_num, ?_⟩
    simp only [Vec3.length2, Vec3.dot]; norm_num

/-- The hypotheses of `C77_drift` are met, with a way of two transforms. -/
example : Regular 100 longOps ∧ LengthsIn (99 / 100) (101 / 100) longOps ∧ ShiftsWithin 1000 longOps ∧
    ∃ m, ((Buf.init 100).run longOps).lookupTransform ['w'] ['b'] 7 = .ok m ∧ m.stamp ≠ 0 := by
  obtain ⟨m, h, hs, _⟩ := long_answer
  obtain ⟨_, _, hL, _⟩ := C77_scale_finding
  exact ⟨long_regular, lengthsIn_valid _, fun m a s hm _ => (hL m a s hm).2.1, m, h, by rw [hs]; decide⟩

/-- The hypothesis of `C77_unit` is met by a history with two turned frames. -/
example : LengthsIn 1 1 turnedOps ∧ Regular 100 turnedOps := by
  refine ⟨fun m a s hm _ => ?_, ⟨by decide, fun m a s hm _ => by rw [(turned_valid m a s hm).2.2.1]; decide,
    fun m a s hm _ => (turned_valid m a s hm).2.2.2⟩⟩
  have := (Quat.unit_iff _).1 (turned_valid m a s hm).2.1
  exact ⟨this.ge, this.le⟩

end Tf2
