import Verif.Proofs.FloatsEdge

/-!
# C89: NaN, infinities and overflow
-/
namespace Tf2

section
variable {K : Machine} (h : K.IEEE)
include h

/-- **C89, what is rejected.** A message with NaN in any of its seven numbers, with an infinite number in its rotation, or
whose rotation is not a unit quaternion (up to 0.0101 in the squared length) is rejected and changes nothing, in any
state of the buffer. -/
theorem C89_reject {m : Msg FPose} (hm : m.xf.SomeNaN ∨ m.xf.InfiniteRotation ∨ ¬ m.xf.UnitRotation) (b : Buf FPose)
    (authority : Name) (static : Bool) : K.setTransform b m authority static = (b, .invalid) := by
  let _ := K.rigid
  refine Buf.setTransform_invalid (msgValid_false (m := m) (fun hv => ?_))
  obtain ⟨_, _, _, hn, ho⟩ := hv
  have hn' : Machine.hasNaN m.xf = false := hn
  obtain ⟨q, e, hq⟩ := h.beyond.accepted hn' ho
  have hu : m.xf.UnitRotation := ⟨q, e, hq⟩
  rcases hm with hm | hm | hm
  · simp only [Machine.hasNaN, Bool.or_eq_false_iff] at hn'
    obtain ⟨⟨⟨⟨⟨⟨n1, n2⟩, n3⟩, n4⟩, n5⟩, n6⟩, n7⟩ := hn'
    rcases hm with e | e | e | e | e | e | e
    · rw [e] at n4; cases n4
    · rw [e] at n5; cases n5
    · rw [e] at n6; cases n6
    · rw [e] at n7; cases n7
    · rw [e] at n1; cases n1
    · rw [e] at n2; cases n2
    · rw [e] at n3; cases n3
  · rcases hm with ⟨s, e'⟩ | ⟨s, e'⟩ | ⟨s, e'⟩ | ⟨s, e'⟩ <;> rw [e] at e' <;> cases e'
  · exact hm hu

/-- **C89, what is not rejected.** A message between two different frames with names, whose rotation is a unit
quaternion (up to 0.0099 in the squared length) and whose translation has no NaN is not called invalid: an infinite
translation passes. -/
theorem C89_accept {m : Msg FPose} (hne : stripSlash m.child ≠ stripSlash m.parent) (hc : stripSlash m.child ≠ [])
    (hp : stripSlash m.parent ≠ []) {q : Quat ℝ} (hq : m.xf.1 = ⟨.fin q.x, .fin q.y, .fin q.z, .fin q.w⟩)
    (hl : |q.length2 - 1| ≤ 99 / 10000) (hx : m.xf.2.x ≠ .nan) (hy : m.xf.2.y ≠ .nan) (hz : m.xf.2.z ≠ .nan) (b : Buf FPose)
    (authority : Name) (static : Bool) : (K.setTransform b m authority static).2 ≠ .invalid := by
  let _ := K.rigid
  have nn : ∀ {v : Fl}, v ≠ .nan → v.isNaN = false := fun {v} hv => by cases v <;> first | rfl | exact absurd rfl hv
  have hv : ValidMsg m := by
    refine ⟨hne, hc, hp, ?_, h.beyond.passes hq hl⟩
    show Machine.hasNaN m.xf = false
    unfold Machine.hasNaN
    rw [hq, nn hx, nn hy, nn hz]
    rfl
  have hv' := (msgValid_iff m).2 hv
  change (b.setTransform m authority static).2 ≠ .invalid
  unfold Buf.setTransform
  simp only [hv', if_true]
  split
  · split <;> (intro e; cases e)
  · intro e; cases e

/-- **C89, rotations.** Whatever was offered - NaN, infinities, huge translations, in any order, with stamps that fit in a
`ros::Time` - the four components of the rotation in every answer are numbers, also of interpolated answers and between
opposite rotations. -/
theorem C89_rotation (D : Duration) {ops : List (Op FPose)} (hs : ∀ m a s, Op.set m a s ∈ ops → m.stamp ≤ TIME_MAX)
    {target source : Name} {t : Time} {m : Msg FPose} (hm : K.lookup (K.run D ops) target source t = .ok m) :
    m.xf.1.x.Finite ∧ m.xf.1.y.Finite ∧ m.xf.1.z.Finite ∧ m.xf.1.w.Finite := by
  let _ := K.rigid
  have hS : StoredIn (fun p : FPose => ∃ q : Quat ℝ, p.1 = q.up ∧ q.Loose) (K.run D ops) :=
    StoredIn.run_valid ops (WF.init D) (StoredIn.init _ D) (fun m a s _ hv => h.beyond.accepted hv.2.2.2.1 hv.2.2.2.2)
  have hT : StampsIn (fun t => t ≤ TIME_MAX) (K.run D ops) :=
    StampsIn.run ops (WF.init D) (StampsIn.init _ D) (fun m a s hm _ => hs m a s hm)
  obtain ⟨q, e, _⟩ := lookup_rotation h.beyond.toExtends (WF.run (WF.init D) ops)
    (edges_rotation h.beyond.toExtends h.lib h.acosAll (WF.run (WF.init D) ops) hS hT) hm
  rw [e]
  exact ⟨⟨_, rfl⟩, ⟨_, rfl⟩, ⟨_, rfl⟩, ⟨_, rfl⟩⟩

/-- There is room for sums of such numbers below the largest of the machine. -/
theorem Machine.IEEE.room {B : ℝ} (hB' : B ≤ 10 ^ 290) : 10 ^ 16 * (9 * (B + 1) + 1) ≤ h.rounding.Ω := by
  show _ ≤ (2 : ℝ) ^ (1023 : ℤ)
  have e1 : (10 : ℝ) ^ 16 * (9 * (B + 1) + 1) ≤ 10 ^ 307 := by
    have e : (10 : ℝ) ^ 307 = 10 ^ 16 * (10 * 10 ^ 290) := by rw [← pow_succ', ← pow_add]
    have hX : (10 : ℝ) ^ 2 ≤ 10 ^ 290 := pow_le_pow_right₀ (by norm_num) (by norm_num)
    rw [e]
    clear e
    generalize (10 : ℝ) ^ 290 = X at *
    refine mul_le_mul_of_nonneg_left ?_ (by norm_num)
    norm_num at hX
    linarith
  refine e1.trans ?_
  have e2 : (10 : ℝ) ^ 307 ≤ (2 : ℝ) ^ 1023 := by
    have a : (10 : ℝ) ^ 59 ≤ 2 ^ 196 := by norm_num
    have b : (10 : ℝ) ^ 12 ≤ 2 ^ 43 := by norm_num
    calc (10 : ℝ) ^ 307 = (10 ^ 59) ^ 5 * 10 ^ 12 := by rw [← pow_mul, ← pow_add]
      _ ≤ (2 ^ 196) ^ 5 * 2 ^ 43 := mul_le_mul (pow_le_pow_left₀ (by norm_num) a 5) b (by norm_num) (by positivity)
      _ = (2 : ℝ) ^ 1023 := by rw [← pow_mul, ← pow_add]
  exact e2

/-- What the buffer stores, if no offered translation is too large. -/
theorem Machine.IEEE.stored_within {B : ℝ} (D : Duration) {ops : List (Op FPose)} (ht : TranslationsWithin B ops) :
    StoredIn (FStored B) (K.run D ops) := by
  let _ := K.rigid
  refine StoredIn.run_valid ops (WF.init D) (StoredIn.init _ D) (fun m a s hin hv => ?_)
  obtain ⟨q, e, hq⟩ := h.beyond.accepted hv.2.2.2.1 hv.2.2.2.2
  have hn : Machine.hasNaN m.xf = false := hv.2.2.2.1
  simp only [Machine.hasNaN, Bool.or_eq_false_iff] at hn
  obtain ⟨⟨⟨⟨⟨⟨n1, n2⟩, n3⟩, _⟩, _⟩, _⟩, _⟩ := hn
  have fin : ∀ {v : Fl}, v.isNaN = false → v.Within B → ∃ x, v = .fin x ∧ |x| ≤ B := by
    intro v hv hw
    rcases hw with rfl | hw
    · cases hv
    · exact hw
  obtain ⟨wx, wy, wz⟩ := ht m a s hin
  obtain ⟨x, ex, bx⟩ := fin n1 wx
  obtain ⟨y, ey, b_y⟩ := fin n2 wy
  obtain ⟨z, ez, bz⟩ := fin n3 wz
  refine ⟨⟨q, ⟨x, y, z⟩⟩, ?_, hq, bx, b_y, bz⟩
  refine Prod.ext e ?_
  show m.xf.2 = ⟨.fin x, .fin y, .fin z⟩
  rw [← ex, ← ey, ← ez]

/-- **C89, answers.** If no offered translation is infinite or larger than 1e290, every answer consists of seven numbers: no
NaN, no infinity, no overflow, for all histories, frames and times, moving transforms and opposite rotations included. -/
theorem C89_finite {B : ℝ} (hB : 0 ≤ B) (hB' : B ≤ 10 ^ 290) (D : Duration) {ops : List (Op FPose)} (ht : TranslationsWithin B ops)
    (hs : ∀ m a s, Op.set m a s ∈ ops → m.stamp ≤ TIME_MAX) {target source : Name} {t : Time} {m : Msg FPose}
    (hm : K.lookup (K.run D ops) target source t = .ok m) : m.xf.Finite := by
  let _ := K.rigid
  have hΩ := h.room hB'
  have hS := h.stored_within D ht
  have hT : StampsIn (fun t => t ≤ TIME_MAX) (K.run D ops) :=
    StampsIn.run ops (WF.init D) (StampsIn.init _ D) (fun m a s hm _ => hs m a s hm)
  exact lookup_finite h.beyond.toExtends (by positivity) hΩ (WF.run (WF.init D) ops)
    (edges_finite h.beyond.toExtends h.lib h.acosAll hB (by norm_num at *; linarith) (WF.run (WF.init D) ops) hS hT) hm

theorem Machine.IEEE.zero : K.fl 0 = .fin 0 := by
  have h0 : |(0 : ℝ)| ≤ (2 : ℝ) ^ (1023 : ℤ) := by rw [abs_zero]; exact zpow_nonneg (by norm_num) _
  have := h.nearest.fix ⟨0, 0, by norm_num, by norm_num, by norm_num, by norm_num⟩ h0
  obtain ⟨y, e, _⟩ := h.near 0 h0
  rw [e] at this ⊢
  exact congrArg _ this

theorem Machine.IEEE.one : K.fl 1 = .fin 1 := by
  have h0 : |(1 : ℝ)| ≤ (2 : ℝ) ^ (1023 : ℤ) := by rw [abs_one]; exact one_le_zpow₀ (by norm_num) (by norm_num)
  have := h.nearest.fix ⟨1, 0, by norm_num, by norm_num, by norm_num, by norm_num⟩ h0
  obtain ⟨y, e, _⟩ := h.near 1 h0
  rw [e] at this ⊢
  exact congrArg _ this

/-- **C89, finding.** The check for NaN is not enough: infinite translations pass it, and a lookup turns them into NaN. The
transform from `a` to `b` with the identity rotation and translation `(∞, 0, 0)` is accepted, and the lookup of this very
transform answers with NaN in all three coordinates - a message that `setTransform` would reject. -/
theorem C89_infinite_finding : ∃ m a : Msg FPose, m.xf = (⟨.fin 0, .fin 0, .fin 0, .fin 1⟩, ⟨.inf false, .fin 0, .fin 0⟩) ∧
    (K.setTransform (Buf.init 10) m [] true).2 = .accepted ∧
    K.lookup (K.run 10 [.set m [] true]) m.parent m.child m.stamp = .ok a ∧
    a.xf.2.x = .nan ∧ a.xf.2.y = .nan ∧ a.xf.2.z = .nan ∧
    ∀ b authority static, K.setTransform b a authority static = (b, .invalid) := by
  let _ := K.rigid
  have hn : Machine.hasNaN (⟨.fin 0, .fin 0, .fin 0, .fin 1⟩, ⟨.inf false, .fin 0, .fin 0⟩) = false := rfl
  have ho : K.normOK (⟨.fin 0, .fin 0, .fin 0, .fin 1⟩, ⟨.inf false, .fin 0, .fin 0⟩) = true :=
    h.beyond.passes (q := Quat.identity) rfl (by simp only [Quat.identity, Quat.length2, Quat.dot]; norm_num)
  have hx : (K.comp (K.inv Machine.one) (K.comp (⟨.fin 0, .fin 0, .fin 0, .fin 1⟩, ⟨.inf false, .fin 0, .fin 0⟩) Machine.one)).2 =
      ⟨.nan, .nan, .nan⟩ := by
    simp [Machine.comp, Machine.inv, Machine.one, Machine.mulQ, Machine.mulVec, Machine.rotate, Machine.addVec, Machine.inverse,
      Machine.negVec, Machine.add, Machine.sub, Machine.mul, Machine.infTimes, Fl.neg, h.zero, h.one]
  obtain ⟨l1, l2, _⟩ := oneEdge_lookups (X := FPose) hn ho
  refine ⟨edgeMsg 'a' 'b' 1 _, edgeMsg 'a' 'b' 1 _, rfl, l1, l2, congrArg Vec3.x hx, congrArg Vec3.y hx, congrArg Vec3.z hx, ?_⟩
  intro b authority static
  exact C89_reject h (.inl (.inr (.inr (.inr (.inr (.inl (congrArg Vec3.x hx))))))) b authority static

end

/-! ### The hypotheses can be met -/

/-- A machine that rounds to nearest and overflows to infinity above 2^1023, with a library without errors. -/
theorem exists_ieee : ∃ K : Machine, K.IEEE := by
  classical
  obtain ⟨rnd, hr⟩ := exists_nearest
  refine ⟨⟨fun x => if |x| ≤ (2 : ℝ) ^ (1023 : ℤ) then .fin (rnd x) else .inf (decide (x < 0)), exactLibm⟩, ?_, ?_, ?_,
    exactLibm_accurate, ?_⟩
  · intro x hx
    exact ⟨rnd x, if_pos hx, hr x hx⟩
  · intro x hx
    left
    have p : (0 : ℝ) < (2 : ℝ) ^ (1023 : ℤ) := zpow_pos (by norm_num) _
    have h0 : 0 < x := p.trans hx
    show (if |x| ≤ (2 : ℝ) ^ (1023 : ℤ) then Fl.fin (rnd x) else .inf (decide (x < 0))) = .inf false
    rw [abs_of_pos h0, if_neg (not_le.2 hx), decide_eq_false (not_lt.2 h0.le)]
  · intro x hx
    left
    have p : (0 : ℝ) < (2 : ℝ) ^ (1023 : ℤ) := zpow_pos (by norm_num) _
    have h0 : x < 0 := hx.trans (neg_lt_zero.2 p)
    show (if |x| ≤ (2 : ℝ) ^ (1023 : ℤ) then Fl.fin (rnd x) else .inf (decide (x < 0))) = .inf true
    rw [abs_of_neg h0, if_neg (not_le.2 (lt_neg.2 hx)), decide_eq_true h0]
  · intro x h0 h1
    simp only [exactLibm, sub_self, abs_zero]
    exact mul_nonneg (by norm_num) (Real.arccos_nonneg _)

/-- Two messages for a moving frame, looked up half-way; and how the frame moved before that. -/
theorem movingEdge_lookup {X : Type} [Rigid X] {x y : X} (h1 : Rigid.hasNaN x = false) (h2 : Rigid.normOK x = true)
    (h3 : Rigid.hasNaN y = false) (h4 : Rigid.normOK y = true) :
    ((Buf.init 100).run [.set (edgeMsg 'a' 'b' 10 x) [] false, .set (edgeMsg 'a' 'b' 20 y) [] false]).lookupTransform ['a'] ['b'] 15 =
      .ok (edgeMsg 'a' 'b' 15 (Rigid.comp (Rigid.inv Rigid.one) (Rigid.comp (Rigid.interp x y 5 10) Rigid.one))) ∧
    ∃ m, ((Buf.init 100).run [.set (edgeMsg 'a' 'b' 10 x) [] false, .set (edgeMsg 'a' 'b' 20 y) [] false]).lookupTransform5
      ['b'] 12 ['b'] 15 ['a'] = .ok m := by
  have hv := edge_valid h1 h2 (p := 'a') (c := 'b') (by decide) (by decide) (by decide) 10
  have hv' := edge_valid h3 h4 (p := 'a') (c := 'b') (by decide) (by decide) (by decide) 20
  have t1 : timeAdd 10 100 = some 110 := by decide
  have t2 : timeAdd 20 100 = some 120 := by decide
  have i1 : Cache.insert (.dyn 100 []) (⟨10, 2, 1, x⟩ : Sample X) = (.dyn 100 [⟨10, 2, 1, x⟩], .accepted) := by
    simp [Cache.insert, dynInsert, insertBody, pruneList, pruneRev, t1]
  have i2 : Cache.insert (.dyn 100 [⟨10, 2, 1, x⟩]) (⟨20, 2, 1, y⟩ : Sample X) =
      (.dyn 100 [⟨20, 2, 1, y⟩, ⟨10, 2, 1, x⟩], .accepted) := by
    simp [Cache.insert, dynInsert, insertBody, pruneList, pruneRev, t1, t2]
  have e1 : (Buf.init 100).setTransform (edgeMsg 'a' 'b' 10 x) [] false =
    ({ cacheTime := 100, frameIDs := fun n => if n = ['a'] then some 2 else if n = ['b'] then some 1 else if n = noParentName then some 0 else none
       frameIDsReverse := [noParentName, ['b'], ['a']]
       frames := [none, some (.dyn 100 [⟨10, 2, 1, x⟩]), none]
       authority := fun i => if i = 1 then some [] else none }, .accepted) := by
    unfold Buf.setTransform
    simp only [hv, if_true]
    simp [Buf.stripMsg, stripSlash, edgeMsg, Buf.lookupOrInsertFrameNumber, Buf.init, Buf.getFrame, Buf.newCache, noParentName, i1]
  have e2 : Buf.setTransform
    { cacheTime := 100, frameIDs := fun n => if n = ['a'] then some 2 else if n = ['b'] then some 1 else if n = noParentName then some 0 else none
      frameIDsReverse := [noParentName, ['b'], ['a']]
      frames := [none, some (.dyn 100 [⟨10, 2, 1, x⟩]), none]
      authority := fun i => if i = 1 then some [] else none } (edgeMsg 'a' 'b' 20 y) [] false =
    ({ cacheTime := 100, frameIDs := fun n => if n = ['a'] then some 2 else if n = ['b'] then some 1 else if n = noParentName then some 0 else none
       frameIDsReverse := [noParentName, ['b'], ['a']]
       frames := [none, some (.dyn 100 [⟨20, 2, 1, y⟩, ⟨10, 2, 1, x⟩]), none]
       authority := fun i => if i = 1 then some [] else if i = 1 then some [] else none }, .accepted) := by
    unfold Buf.setTransform
    simp only [hv', if_true]
    simp [Buf.stripMsg, stripSlash, edgeMsg, Buf.lookupOrInsertFrameNumber, Buf.getFrame, noParentName, i2]
  unfold Buf.run
  simp only [List.foldl, Buf.step, e1, e2]
  exact ⟨rfl, _, rfl⟩

/-- A frame that makes half a turn, with a message of NaN and one with an infinite quaternion that is thrown away. -/
noncomputable def brokenOps : List (Op FPose) :=
  [.set (edgeMsg 'a' 'b' 10 (⟨.fin 0, .fin 0, .fin 0, .fin 1⟩, ⟨.fin 1, .fin 2, .fin 3⟩)) [] false,
   .set (edgeMsg 'a' 'b' 20 (⟨.fin 1, .fin 0, .fin 0, .fin 0⟩, ⟨.fin 4, .fin 5, .fin (10 ^ 200)⟩)) [] false,
   .set (edgeMsg 'a' 'b' 25 (⟨.fin 1, .fin 0, .fin 0, .fin 0⟩, ⟨.nan, .fin 5, .fin 6⟩)) [] false,
   .set (edgeMsg 'a' 'b' 30 (⟨.inf false, .fin 0, .inf true, .fin 0⟩, ⟨.fin 4, .fin 5, .fin 6⟩)) [] false]

/-- The hypotheses of `C89_finite`, `C89_rotation` and of `C89_finite5`, `C89_rotation5`, `C89_again5` are met by a frame that
makes half a turn, with two broken messages in the history, on a machine that exists; the lookup half-way succeeds, and so
does the lookup of how it moved between two times. -/
example : ∃ K : Machine, K.IEEE ∧ TranslationsWithin (10 ^ 200) brokenOps ∧
    (∀ m a s, Op.set m a s ∈ brokenOps → m.stamp ≤ TIME_MAX) ∧ (∃ m, K.lookup (K.run 100 brokenOps) ['a'] ['b'] 15 = .ok m) ∧
    ∃ m, K.lookup5 (K.run 100 brokenOps) ['b'] 12 ['b'] 15 ['a'] = .ok m := by
  obtain ⟨K, h⟩ := exists_ieee
  have big : ∀ n : ℝ, 0 ≤ n → n ≤ 10 → |n| ≤ 10 ^ 200 := fun n h0 h1 => by
    rw [abs_of_nonneg h0]; exact h1.trans (le_self_pow₀ (by norm_num) (by norm_num))
  have b200 : |(10 : ℝ) ^ 200| ≤ 10 ^ 200 := by rw [abs_of_pos (by positivity)]
  refine ⟨K, h, ?_, ?_, ?_⟩
  · intro m a s hm
    simp only [brokenOps, List.mem_cons, List.not_mem_nil, or_false, Op.set.injEq] at hm
    rcases hm with ⟨rfl, _⟩ | ⟨rfl, _⟩ | ⟨rfl, _⟩ | ⟨rfl, _⟩
    · exact ⟨.inr ⟨_, rfl, big _ (by norm_num) (by norm_num)⟩, .inr ⟨_, rfl, big _ (by norm_num) (by norm_num)⟩,
        .inr ⟨_, rfl, big _ (by norm_num) (by norm_num)⟩⟩
    · exact ⟨.inr ⟨_, rfl, big _ (by norm_num) (by norm_num)⟩, .inr ⟨_, rfl, big _ (by norm_num) (by norm_num)⟩,
        .inr ⟨_, rfl, b200⟩⟩
    · exact ⟨.inl rfl, .inr ⟨_, rfl, big _ (by norm_num) (by norm_num)⟩, .inr ⟨_, rfl, big _ (by norm_num) (by norm_num)⟩⟩
    · exact ⟨.inr ⟨_, rfl, big _ (by norm_num) (by norm_num)⟩, .inr ⟨_, rfl, big _ (by norm_num) (by norm_num)⟩,
        .inr ⟨_, rfl, big _ (by norm_num) (by norm_num)⟩⟩
  · intro m a s hm
    simp only [brokenOps, List.mem_cons, List.not_mem_nil, or_false, Op.set.injEq] at hm
    rcases hm with ⟨rfl, _⟩ | ⟨rfl, _⟩ | ⟨rfl, _⟩ | ⟨rfl, _⟩ <;> simp [edgeMsg, TIME_MAX]
  · let _ := K.rigid
    have o1 : K.normOK (⟨.fin 0, .fin 0, .fin 0, .fin 1⟩, ⟨.fin 1, .fin 2, .fin 3⟩) = true :=
      h.beyond.passes (q := ⟨0, 0, 0, 1⟩) rfl (by simp only [Quat.length2, Quat.dot]; norm_num)
    have o2 : K.normOK (⟨.fin 1, .fin 0, .fin 0, .fin 0⟩, ⟨.fin 4, .fin 5, .fin (10 ^ 200)⟩) = true :=
      h.beyond.passes (q := ⟨1, 0, 0, 0⟩) rfl (by simp only [Quat.length2, Quat.dot]; norm_num)
    have r1 := fun b => C89_reject h (m := edgeMsg 'a' 'b' 25 (⟨.fin 1, .fin 0, .fin 0, .fin 0⟩, ⟨.nan, .fin 5, .fin 6⟩))
      (.inl (.inr (.inr (.inr (.inr (.inl rfl)))))) b [] false
    have r2 := fun b => C89_reject h (m := edgeMsg 'a' 'b' 30 (⟨.inf false, .fin 0, .inf true, .fin 0⟩, ⟨.fin 4, .fin 5, .fin 6⟩))
      (.inr (.inl (.inl ⟨_, rfl⟩))) b [] false
    have e : K.run 100 brokenOps = (Buf.init 100).run 
        [.set (edgeMsg 'a' 'b' 10 (⟨.fin 0, .fin 0, .fin 0, .fin 1⟩, ⟨.fin 1, .fin 2, .fin 3⟩)) [] false,
         .set (edgeMsg 'a' 'b' 20 (⟨.fin 1, .fin 0, .fin 0, .fin 0⟩, ⟨.fin 4, .fin 5, .fin (10 ^ 200)⟩)) [] false] := by
      unfold Machine.run brokenOps Buf.run
      simp only [List.foldl, Buf.step]
      unfold Machine.setTransform at r1 r2
      rw [r2, r1]
    rw [e]
    obtain ⟨l1, l2⟩ := movingEdge_lookup (X := FPose) rfl o1 rfl o2
    exact ⟨⟨_, l1⟩, l2⟩

end Tf2
