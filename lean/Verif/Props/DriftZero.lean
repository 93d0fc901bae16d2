import Verif.Props.TimeZero
import Verif.Props.Drift

/-!
# C77 for answers stamped 0

A lookup at time 0 over static transforms only is stamped 0; it follows the newest transforms of the messages.
-/
namespace Tf2

open scoped BigOperators

/-- The ways of the buffer at time 0 are the ways along the newest transforms of the messages. -/
theorem Chain.newestWay {X : Type} [Rigid X] {D : Duration} {ops : List (Op X)} (hreg : Regular D ops) {b : Buf X}
    (hb : b = (Buf.init D).run ops) {i j n : Nat} {x : X} (h : Chain b 0 i j x n) {a : Name} (hi : IsFrame b a i) :
    ∃ c l, IsFrame b c j ∧ NewestWay ops a c l x ∧ l.length = n := by
  have hw : WF D b := by rw [hb]; exact WF.run (WF.init D) ops
  induction h with
  | refl => exact ⟨a, [], hi, .refl, rfl⟩
  | snoc _ he ih =>
    obtain ⟨c, l, hc, hl, e⟩ := ih
    obtain ⟨s, hs⟩ := he.newest
    obtain ⟨p, hp, hn⟩ := (newest_iff hreg hb hc _ s _).1 ⟨hs, he⟩
    exact ⟨p, l ++ [s], hp, .snoc hl hn (isFrame_ne hw hp), by simp [e]⟩

theorem Newest.within {ops : List (Op Pose)} {lo hi L : ℝ} (hn : LengthsIn lo hi ops)
    {s : Time} {n p : Name} {e : Pose} (h : Newest ops n p s e) :
    (lo ≤ e.rot.length2 ∧ e.rot.length2 ≤ hi) ∧ (ShiftsWithin L ops → e.trans.length ≤ L) := by
  cases h with
  | static h1 h2 =>
    obtain ⟨⟨a, ha⟩, hv, _⟩ := offersFor_mem (List.mem_of_getLast? h2)
    exact ⟨hn _ _ _ ha hv, fun hL => hL _ _ _ ha hv⟩
  | dynamic h1 h2 _ =>
    rcases recentFor_mem (List.mem_of_find?_eq_some h2) with h | ⟨s, h⟩
    · cases h
    · obtain ⟨⟨a, ha⟩, hv, _⟩ := offersFor_mem h
      exact ⟨hn _ _ _ ha hv, fun hL => hL _ _ _ ha hv⟩

theorem NewestWay.within {ops : List (Op Pose)} {lo hi : ℝ} (hlo : 0 < lo) (hn : LengthsIn lo hi ops) (hhi : 0 ≤ hi)
    {a c : Name} {x : Pose} {l : List Time} (h : NewestWay ops a c l x) :
    (lo ^ l.length ≤ x.rot.length2 ∧ x.rot.length2 ≤ hi ^ l.length) ∧
      ∀ L, ShiftsWithin L ops → x.trans.length ≤ L * ∑ i ∈ Finset.range l.length, hi ^ i := by
  induction h with
  | refl =>
    have : (Rigid.one : Pose).rot.length2 = 1 := by
      show Pose.one.rot.length2 = 1
      simp [Pose.one, Quat.identity, Quat.length2, Quat.dot]
    have h2 : (Rigid.one : Pose).trans.length = 0 := by
      show Pose.one.trans.length = 0
      simp [Pose.one, Vec3.zero, Vec3.length, Vec3.length2, Vec3.dot]
    rw [this]
    refine ⟨by simp, fun L _ => by rw [h2]; simp⟩
  | @snoc c p l s x e _ hs _ ih =>
    obtain ⟨⟨i1, i2⟩, i3⟩ := ih
    have he := (hs.within (L := 0) hn).1
    have : (Rigid.comp e x).rot.length2 = e.rot.length2 * x.rot.length2 := Quat.length2_mul _ _
    rw [this, List.length_append, List.length_singleton]
    have hp : 0 ≤ lo ^ l.length := (pow_pos hlo _).le
    refine ⟨⟨?_, ?_⟩, fun L hL => ?_⟩
    · rw [pow_succ']; exact mul_le_mul he.1 i1 hp (le_trans hlo.le he.1)
    · rw [pow_succ']; exact mul_le_mul he.2 i2 (le_trans hp i1) hhi
    · have h2 := (hs.within (L := L) hn).2 hL
      have e1 : (Rigid.comp e x).trans = (e.rot.rotate x.trans).add e.trans := rfl
      rw [e1]
      refine (Vec3.length_add_le _ _).trans ?_
      rw [Quat.length_rotate]
      have h1 : e.rot.length2 * x.trans.length ≤ hi * (L * ∑ i ∈ Finset.range l.length, hi ^ i) :=
        mul_le_mul he.2 (i3 L hL) (Vec3.length_nonneg' _) hhi
      rw [Finset.sum_range_succ']
      simp only [pow_succ, pow_zero]
      have : (∑ i ∈ Finset.range l.length, hi ^ i * hi) = hi * ∑ i ∈ Finset.range l.length, hi ^ i := by
        rw [Finset.mul_sum]; exact Finset.sum_congr rfl fun i _ => mul_comm _ _
      rw [this]
      calc _ ≤ hi * (L * ∑ i ∈ Finset.range l.length, hi ^ i) + L := add_le_add h1 h2
        _ = _ := by ring

/-- **C77, answers stamped 0.** The bounds of `C77_drift` for an answer over static transforms only, found over the newest transforms of
`k` and `l` frames. -/
theorem C77_zero {D : Duration} {ops : List (Op Pose)} (hreg : Regular D ops) {lo hi : ℝ} (hlo : 0 < lo) (hle : lo ≤ hi)
    (hn : LengthsIn lo hi ops) {target source : Name} (hne : target ≠ source) {t : Time} {m : Msg Pose}
    (h : ((Buf.init D).run ops).lookupTransform target source t = .ok m) (hst : m.stamp = 0) :
    ∃ c x y k l, NewestWay ops source c k x ∧ NewestWay ops target c l y ∧
      lo ^ (k.length + l.length) ≤ m.xf.rot.length2 ∧ m.xf.rot.length2 ≤ hi ^ (k.length + l.length) ∧
      ∀ L, ShiftsWithin L ops → m.xf.trans.length ≤
        L * (hi ^ l.length * (∑ i ∈ Finset.range k.length, hi ^ i + ∑ i ∈ Finset.range l.length, hi ^ i)) := by
  have hhi : 0 ≤ hi := hlo.le.trans hle
  have hw : WF D ((Buf.init D).run ops) := WF.run (WF.init D) ops
  have ways : ∃ c x y k l, NewestWay ops source c k x ∧ NewestWay ops target c l y ∧ m.xf = Pose.comp (Pose.inv y) x := by
    obtain ⟨g, s, hg, hs, _, _, _, hc⟩ := C15_stamp ⟨ops, rfl⟩ hne h
    rw [hst] at hc
    rcases hc with ⟨n, _, h1⟩ | ⟨n, y, _, h1, e⟩ | ⟨c, x, y, n, k, _, _, h1, h2, e⟩
    · obtain ⟨c, l, hc, hl, _⟩ := h1.newestWay hreg rfl hs
      have : c = target := hw.inj hc.2 hg.2
      subst this
      exact ⟨c, m.xf, Rigid.one, l, [], hl, .refl, (Pose.inv_one_comp _).symm⟩
    · obtain ⟨c, l, hc, hl, _⟩ := h1.newestWay hreg rfl hg
      have : c = source := hw.inj hc.2 hs.2
      subst this
      exact ⟨c, Rigid.one, y, [], l, .refl, hl, by rw [e]; exact (Pose.inv_comp_one y).symm⟩
    · obtain ⟨p, l, hp, hl, _⟩ := h1.newestWay hreg rfl hs
      obtain ⟨q, l', hq, hl', _⟩ := h2.newestWay hreg rfl hg
      have : p = q := hw.inj hp.2 hq.2
      subst this
      exact ⟨p, x, y, l, l', hl, hl', e⟩
  obtain ⟨c, x, y, k, l, hx, hy, e⟩ := ways
  obtain ⟨nx, rx⟩ := hx.within hlo hn hhi
  obtain ⟨ny, ry⟩ := hy.within hlo hn hhi
  have el : m.xf.rot.length2 = y.rot.length2 * x.rot.length2 := by
    rw [e]
    show ((y.rot.inverse).mul x.rot).length2 = _
    rw [Quat.length2_mul, Quat.length2_inverse]
  refine ⟨c, x, y, k, l, hx, hy, ?_, ?_, fun L hL => ?_⟩
  · rw [el, pow_add, mul_comm (lo ^ k.length)]
    exact mul_le_mul ny.1 nx.1 (pow_pos hlo _).le ((pow_pos hlo _).le.trans ny.1)
  · rw [el, pow_add, mul_comm (hi ^ k.length)]
    exact mul_le_mul ny.2 nx.2 (Quat.length2_nonneg' _) (pow_nonneg hhi _)
  · have e1 : m.xf.trans = (y.rot.inverse.rotate x.trans).add (y.rot.inverse.rotate y.trans.neg) := by rw [e]; rfl
    rw [e1]
    refine (Vec3.length_add_le _ _).trans ?_
    rw [Quat.length_rotate, Quat.length_rotate, Quat.length2_inverse, Vec3.length_neg, ← mul_add]
    have h1 : y.rot.length2 * (x.trans.length + y.trans.length) ≤ hi ^ l.length *
        (L * ∑ i ∈ Finset.range k.length, hi ^ i + L * ∑ i ∈ Finset.range l.length, hi ^ i) :=
      mul_le_mul ny.2 (add_le_add (rx L hL) (ry L hL)) (add_nonneg (Vec3.length_nonneg' _) (Vec3.length_nonneg' _)) (pow_nonneg hhi _)
    calc _ ≤ _ := h1
      _ = _ := by ring

/-- One static transform. -/
noncomputable def stillOps : List (Op Pose) := [.set ⟨['w'], ['a'], 0, ⟨⟨0, 0, 0, 1⟩, ⟨3, 0, 0⟩⟩⟩ ['p'] true]

theorem still_valid : ∀ m a s, Op.set m a s ∈ stillOps → ValidMsg m ∧ m.stamp = 0 ∧ m.xf = ⟨⟨0, 0, 0, 1⟩, ⟨3, 0, 0⟩⟩ ∧
    stripSlash m.child ≠ noParentName := by
  intro m a s hm
  simp only [stillOps, List.mem_singleton, Op.set.injEq] at hm
  obtain ⟨rfl, _⟩ := hm
  have hok : Rigid.normOK (⟨⟨0, 0, 0, 1⟩, ⟨3, 0, 0⟩⟩ : Pose) = true := by
    show Pose.normOK _ = true
    simp only [Pose.normOK, decide_eq_true_eq]
    rw [abs_lt]; norm_num
  exact ⟨⟨by decide, by decide, by decide, rfl, hok⟩, rfl, rfl, by decide⟩

/-- Not vacuous: a regular history with quaternions of length 1 and translations of length 3, and a lookup at time 0 with an answer
stamped 0. -/
example : Regular 100 stillOps ∧ LengthsIn 1 1 stillOps ∧ ShiftsWithin 3 stillOps ∧
    ∃ m, ((Buf.init 100).run stillOps).lookupTransform ['w'] ['a'] 0 = .ok m ∧ m.stamp = 0 ∧ m.xf.trans.length = 3 := by
  have hreg : Regular 100 stillOps :=
    ⟨by decide, fun m a s hm _ => by rw [(still_valid m a s hm).2.1]; decide, fun m a s hm _ => (still_valid m a s hm).2.2.2⟩
  have hl1 : LengthsIn 1 1 stillOps := by
    intro m a s hm _
    rw [(still_valid m a s hm).2.2.1]
    simp [Quat.length2, Quat.dot]
  refine ⟨hreg, hl1, ?_, ?_⟩
  · intro m a s hm _
    rw [(still_valid m a s hm).2.2.1]
    simp [Vec3.length, Vec3.length2, Vec3.dot]
  · have va := (still_valid _ _ _ (List.mem_cons_self ..)).1
    have oa : offersFor ['a'] stillOps = [(⟨['w'], ['a'], 0, ⟨⟨0, 0, 0, 1⟩, ⟨3, 0, 0⟩⟩⟩, true)] := by
      simp [stillOps, offersFor, va, stripSlash]
    have ow : offersFor ['w'] stillOps = [] := by simp [stillOps, offersFor, stripSlash]
    have sa : Newest stillOps ['a'] ['w'] 0 ⟨⟨0, 0, 0, 1⟩, ⟨3, 0, 0⟩⟩ :=
      @Newest.static Pose _ stillOps ['a'] _ ⟨['w'], ['a'], 0, ⟨⟨0, 0, 0, 1⟩, ⟨3, 0, 0⟩⟩⟩ true [] oa (by rw [oa]; rfl)
    have lb : NewestWay stillOps ['a'] ['w'] [0] _ := .snoc .refl sa (by decide)
    have hw : ¬ ∃ p s e, Newest stillOps ['w'] p s e ∧ p ≠ noParentName := by
      rintro ⟨p, s, e, h, _⟩
      obtain ⟨m, s, hm, _⟩ := h.offer
      rw [ow] at hm
      cases hm
    obtain ⟨t, h1, _, _, h4⟩ := C83_value pose_laws (by decide) hreg
      (show AllOffered (fun p : Pose => p.rot.Unit) stillOps by
        intro m a s hm
        rw [(still_valid m a s hm).2.2.1]
        simp [Quat.Unit])
      (target := ['w']) (source := ['a']) (by decide) ⟨by decide, by decide⟩ ⟨by decide, by decide⟩ (offersFor_mentions (oa ▸ List.mem_singleton_self _)).2.1
      (offersFor_mentions (oa ▸ List.mem_singleton_self _)).1 (by decide) (by decide) ⟨⟨_, _, lb, by decide⟩, hw⟩ ⟨⟨_, _, .refl, by decide⟩, hw⟩
      ⟨⟨_, _, lb⟩, ⟨_, _, .refl⟩, fun f _ h => h⟩ lb .refl
    have ht : t = 0 := by
      rcases h1 with ⟨h, _⟩ | ⟨_, h, _⟩
      · exact h
      · simpa using h
    refine ⟨_, h4 ht, rfl, ?_⟩
    show (Rigid.comp (Rigid.inv Rigid.one) (_ : Pose)).trans.length = 3
    rw [Pose.inv_one_comp]
    show (Pose.comp _ Pose.one).trans.length = 3
    simp [Pose.comp, Pose.one, Quat.mul, Quat.inverse, Quat.identity, Quat.rotate, Quat.mulVec, Vec3.add, Vec3.zero, Vec3.length, Vec3.length2,
      Vec3.dot]

end Tf2
