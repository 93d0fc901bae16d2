import Verif.Spec.PyTransform
import Verif.Props.PyWait
import Verif.Props.Transform
import Verif.Props.Convert

/-!
# Proofs about transforming and converting in Python
-/
namespace Tf2.Geo.Py

open Tf2.Py

/-! ### Registries -/

theorem after_append (ops : List RegOp) (o : RegOp) : after (ops ++ [o]) = (after ops).step o := by
  unfold after Registry.run
  rw [List.foldl_append]; rfl

theorem stands_append {ops : List RegOp} {o p : RegOp} :
    Stands (ops ++ [o]) p ↔ o = p ∨ (o.slot ≠ p.slot ∧ Stands ops p) := by
  constructor
  · rintro ⟨x, y, e, h⟩
    rcases List.eq_nil_or_concat y with rfl | ⟨y', z, rfl⟩
    · left
      have e' : ops ++ [o] = x ++ [p] := e
      have := List.append_inj_right' e' rfl
      exact List.singleton_inj.1 this
    · right
      have e' : ops ++ [o] = (x ++ p :: y') ++ [z] := by rw [e, List.append_assoc, List.concat_eq_append]; rfl
      have h1 := List.append_inj_left' e' rfl
      have h2 := List.singleton_inj.1 (List.append_inj_right' e' rfl)
      subst h2
      exact ⟨h o (by simp), x, y', h1, fun o' ho => h o' (by simp [ho])⟩
  · rintro (rfl | ⟨h0, x, y, e, h⟩)
    · exact ⟨ops, [], rfl, fun _ h => by cases h⟩
    · refine ⟨x, y ++ [o], by rw [e]; simp, fun o' ho => ?_⟩
      rcases List.mem_append.1 ho with ho | ho
      · exact h o' ho
      · rw [List.mem_singleton.1 ho]; exact h0

theorem stands_nil {p : RegOp} : ¬ Stands [] p := by
  rintro ⟨x, y, e, -⟩
  simp at e

theorem dictSet_eq {K V : Type} [DecidableEq K] {d : K → Option V} {k j : K} {v w : V} :
    dictSet d k v j = some w ↔ (k = j ∧ v = w) ∨ (k ≠ j ∧ d j = some w) := by
  unfold dictSet
  by_cases h : j = k
  · subst h; simp
  · rw [if_neg h]; simp [Ne.symm h]

theorem after_iff (ops : List RegOp) :
    (∀ k f, (after ops).transforms k = some f ↔ Stands ops (.transform k f)) ∧
    (∀ k f, (after ops).toMsg k = some f ↔ Stands ops (.toMsg k f)) ∧
    (∀ k f, (after ops).fromMsg k = some f ↔ Stands ops (.fromMsg k f)) ∧
    (∀ k f, (after ops).converts k = some f ↔ Stands ops (.convert k f)) := by
  induction ops using List.reverseRecOn with
  | nil => refine ⟨?_, ?_, ?_, ?_⟩ <;> intro k f <;> exact ⟨fun h => (by cases h), fun h => absurd h stands_nil⟩
  | append_singleton ops o ih =>
    obtain ⟨h1, h2, h3, h4⟩ := ih
    rw [after_append]
    refine ⟨?_, ?_, ?_, ?_⟩ <;> intro k f <;> rw [stands_append] <;> cases o <;>
      simp only [Registry.step, dictSet_eq, h1, h2, h3, h4, RegOp.slot, reduceCtorEq, RegOp.transform.injEq,
        RegOp.toMsg.injEq, RegOp.fromMsg.injEq, RegOp.convert.injEq, Slot.transform.injEq, Slot.toMsg.injEq,
        Slot.fromMsg.injEq, Slot.convert.injEq, ne_eq, not_false_eq_true, true_and, false_or]

theorem stands_of_mem {ops : List RegOp} {o : RegOp} (h : o ∈ ops) : ∃ p, p.slot = o.slot ∧ Stands ops p := by
  induction ops using List.reverseRecOn with
  | nil => cases h
  | append_singleton ops q ih =>
    by_cases hq : q.slot = o.slot
    · exact ⟨q, hq, stands_append.2 (.inl rfl)⟩
    · rcases List.mem_append.1 h with h | h
      · obtain ⟨p, e, hp⟩ := ih h
        exact ⟨p, e, stands_append.2 (.inr ⟨by rw [e]; exact hq, hp⟩)⟩
      · exact absurd (by rw [List.mem_singleton.1 h]) hq

theorem stands_mem {ops : List RegOp} {o : RegOp} (h : Stands ops o) : o ∈ ops := by
  obtain ⟨x, y, rfl, -⟩ := h; simp

theorem after_none (ops : List RegOp) :
    (∀ k, (after ops).transforms k = none ↔ Vacant ops (.transform k)) ∧
    (∀ k, (after ops).toMsg k = none ↔ Vacant ops (.toMsg k)) ∧
    (∀ k, (after ops).fromMsg k = none ↔ Vacant ops (.fromMsg k)) ∧
    (∀ k, (after ops).converts k = none ↔ Vacant ops (.convert k)) := by
  obtain ⟨h1, h2, h3, h4⟩ := after_iff ops
  refine ⟨fun k => ⟨fun h o ho he => ?_, fun h => ?_⟩, fun k => ⟨fun h o ho he => ?_, fun h => ?_⟩,
    fun k => ⟨fun h o ho he => ?_, fun h => ?_⟩, fun k => ⟨fun h o ho he => ?_, fun h => ?_⟩⟩
  · obtain ⟨p, e, hp⟩ := stands_of_mem ho
    rw [he] at e
    cases p <;> cases e
    rw [(h1 _ _).2 hp] at h; cases h
  · cases hc : (after ops).transforms k with
    | none => rfl
    | some f => exact absurd rfl (h _ (stands_mem ((h1 k f).1 hc)))
  · obtain ⟨p, e, hp⟩ := stands_of_mem ho
    rw [he] at e
    cases p <;> cases e
    rw [(h2 _ _).2 hp] at h; cases h
  · cases hc : (after ops).toMsg k with
    | none => rfl
    | some f => exact absurd rfl (h _ (stands_mem ((h2 k f).1 hc)))
  · obtain ⟨p, e, hp⟩ := stands_of_mem ho
    rw [he] at e
    cases p <;> cases e
    rw [(h3 _ _).2 hp] at h; cases h
  · cases hc : (after ops).fromMsg k with
    | none => rfl
    | some f => exact absurd rfl (h _ (stands_mem ((h3 k f).1 hc)))
  · obtain ⟨p, e, hp⟩ := stands_of_mem ho
    rw [he] at e
    cases p <;> cases e
    rw [(h4 _ _).2 hp] at h; cases h
  · cases hc : (after ops).converts k with
    | none => rfl
    | some f => exact absurd rfl (h _ (stands_mem ((h4 k f).1 hc)))

/-! ### The buffer -/

theorem UnitPython.unit {fl : ℚ → ℚ} {b : Buf Pose} (h : UnitPython fl b) :
    ∃ D ops, AllOffered (fun p : Pose => p.rot.Unit) ops ∧ b = (Buf.init D).run ops := by
  obtain ⟨D, ops, hU, -, hb⟩ := h
  obtain ⟨ops', hp, hb'⟩ := runCore_some hb
  refine ⟨D, ops', ?_, hb'⟩
  intro m1 a1 s1 h1
  obtain ⟨m0, h2, -, h3⟩ := hp.mem h1
  have := hU m0 a1 s1 h2
  rw [h3]
  exact this

theorem simple_reaches {fl : ℚ → ℚ} {target : Name} {timeout : Duration} {h : Header} {t : Time}
    (ht : timeIn fl h.stamp = some t) :
    Reaches fl (simpleGoal target timeout h) (simpleGoal target timeout { h with stamp := t }) :=
  ⟨t, 0, ht, rfl, rfl⟩

theorem full_reaches {fl : ℚ → ℚ} {target fixed : Name} {timeout : Duration} {h : Header} {t tt u : Time}
    (ht : timeIn fl h.stamp = some t) (hu : timeIn fl tt = some u) :
    Reaches fl (fullGoal target tt fixed timeout h) (fullGoal target u fixed timeout { h with stamp := t }) :=
  ⟨t, u, ht, hu, rfl⟩

/-- What a lookup from Python returns. -/
theorem lookPy_ok {fl : ℚ → ℚ} {D : Duration} {ops : List (Op Pose)} {b : Buf Pose}
    (hb : runCore fl ops (Buf.init D) = some b) {g g' : Goal} (h : Reaches fl g g') {l : Msg Pose} :
    Goal.lookPy fl g b = .ok l ↔ g'.lookup b = .ok l ∧ l.stamp < 2 ^ 31 * 1000000000 := by
  obtain ⟨-, h1, h2, -⟩ := C68_agree hb h
  constructor
  · intro hl
    have := h2 _ hl
    refine ⟨this, ?_⟩
    by_contra hc
    rw [lookPy_reaches h, this] at hl
    have e : outMsg l = .ok l := hl
    unfold outMsg at e
    rw [(C67_out _ (lookup_stamp_le hb h this)).2 (not_lt.1 hc)] at e
    cases e
  · rintro ⟨h3, h4⟩; exact h1 _ h3 h4

/-- With no timeout: one check and one lookup. -/
theorem pyLookup_now {fl : ℚ → ℚ} {b : Buf Pose} {g : Goal} (h0 : g.timeout = 0) {now : Time} :
    pyLookup fl g (fun _ => { buf := b, now := now }) 2 =
      match Goal.canPy fl g b with
      | .ok _ => some (Goal.lookPy fl g b)
      | _ => some .crash := by
  have e : pyWait fl g (fun _ => { buf := b, now := now }) 2 =
      match Goal.canPy fl g b with
      | .ok v => .returned v
      | _ => .crash := by
    show pystep fl g _ (pystep fl g _ .enter) = _
    have : ∀ w : PyWorld Pose, pystep fl g w .enter = .final := fun w => by unfold pystep; rw [if_neg (by simp [h0])]
    rw [this]; rfl
  unfold pyLookup
  rw [e]
  cases Goal.canPy fl g b <;> rfl

/-- Both kinds of transform, at once. -/
theorem now_ok {r : Registry} {fl : ℚ → ℚ} {b : Buf Pose} (hb : UnitPython fl b) {a : Obj} {f : DoFn} {h : Header}
    (hf : r.transforms a.cls = some f) (hh : a.header = some h) {goal : Header → Goal} {g' : Goal}
    (h0 : (goal h).timeout = 0) (hg : Reaches fl (goal h) g') {newType : Option Cls} {o : Obj} :
    transformWith r fl a goal newType (fun _ => { buf := b, now := 0 }) 2 = some (.ok o) ↔
      ∃ l, g'.lookup b = .ok l ∧ l.stamp < 2 ^ 31 * 1000000000 ∧ finish r f a newType (.ok l) = .ok o := by
  obtain ⟨D, ops, -, -, hr⟩ := hb
  obtain ⟨⟨v, hv, -⟩, -⟩ := C68_agree hr hg
  have e : transformWith r fl a goal newType (fun _ => { buf := b, now := 0 }) 2 =
      some (finish r f a newType (Goal.lookPy fl (goal h) b)) := by
    unfold transformWith
    rw [hf, hh]
    simp only [pyLookup_now h0, hv]
  rw [e, Option.some.injEq]
  cases hl : Goal.lookPy fl (goal h) b with
  | ok l =>
    have := (lookPy_ok hr hg).1 hl
    constructor
    · intro hx; exact ⟨l, this.1, this.2, hx⟩
    · rintro ⟨l', h1, h2, h3⟩
      rw [this.1] at h1
      cases h1
      exact h3
  | raised e =>
    constructor
    · intro hx; cases hx
    · rintro ⟨l', h1, h2, -⟩; rw [(lookPy_ok hr hg).2 ⟨h1, h2⟩] at hl; cases hl
  | typeError =>
    constructor
    · intro hx; cases hx
    · rintro ⟨l', h1, h2, -⟩; rw [(lookPy_ok hr hg).2 ⟨h1, h2⟩] at hl; cases hl
  | interrupted =>
    constructor
    · intro hx; cases hx
    · rintro ⟨l', h1, h2, -⟩; rw [(lookPy_ok hr hg).2 ⟨h1, h2⟩] at hl; cases hl
  | crash =>
    constructor
    · intro hx; cases hx
    · rintro ⟨l', h1, h2, -⟩; rw [(lookPy_ok hr hg).2 ⟨h1, h2⟩] at hl; cases hl

/-- A stamp that does not reach the buffer. -/
theorem now_none {r : Registry} {fl : ℚ → ℚ} {b : Buf Pose} {a : Obj} {f : DoFn} {h : Header}
    (hf : r.transforms a.cls = some f) (hh : a.header = some h) {goal : Header → Goal} (h0 : (goal h).timeout = 0)
    (hc : Goal.canPy fl (goal h) b = .crash) {newType : Option Cls} :
    transformWith r fl a goal newType (fun _ => { buf := b, now := 0 }) 2 = some (.tf .crash) := by
  unfold transformWith
  rw [hf, hh]
  simp only [pyLookup_now h0, hc]
  rfl

/-- How a registered function acts, and the laws of the action. -/
structure PyActs (r : Registry) {T : Type} (mk : Stamped T → Obj) (val : Pose → T → T) (ok : T → Prop)
    (same : T → T → Prop) : Prop where
  header : ∀ m, (mk m).header = some m.header
  get : ∀ m, ∃ f, r.transforms (mk m).cls = some f ∧ ∀ tf, f (mk m) tf = .ok (mk ⟨tf.header, val tf.transform m.data⟩)
  keeps : ∀ {a : Pose} {x : T}, a.rot.Unit → ok x → ok (val a x)
  comp : ∀ {a b : Pose} {x : T}, a.rot.Unit → b.rot.Unit → ok x → val a (val b x) = val (a.comp b) x
  mulMsg : ∀ {a b : Pose} {x : T}, a.rot.Unit → b.rot.Unit → ok x → val (Pose.mulMsg a b) x = val a (val b x)
  one : ∀ {x : T}, ok x → same (val Pose.one x) x

variable {r : Registry} {fl : ℚ → ℚ} {T : Type} {mk : Stamped T → Obj} {val : Pose → T → T} {ok : T → Prop}
  {same : T → T → Prop}

theorem pyInto_ok (h : PyActs r mk val ok same) {b : Buf Pose} (hb : UnitPython fl b) {target : Name} {m : Stamped T}
    {o : Obj} : pyInto r fl b target (mk m) = some (.ok o) ↔
      ∃ t l, timeIn fl m.header.stamp = some t ∧ b.lookupTransform target m.header.frame t = .ok l ∧
        l.stamp < 2 ^ 31 * 1000000000 ∧ o = mk ⟨⟨0, l.stamp, l.parent⟩, val l.xf m.data⟩ := by
  obtain ⟨f, hf, hv⟩ := h.get m
  cases ht : timeIn fl m.header.stamp with
  | none =>
    have hc : Goal.canPy fl (simpleGoal target 0 m.header) b = .crash := by
      simp [Goal.canPy, simpleGoal, canCore, withTime, ht]
    unfold pyInto
    rw [now_none hf (h.header m) rfl hc]
    constructor
    · intro hx; cases hx
    · rintro ⟨t, l, h1, -⟩; cases h1
  | some t =>
    unfold pyInto
    rw [now_ok hb hf (h.header m) (goal := simpleGoal target 0) rfl (simple_reaches ht)]
    constructor
    · rintro ⟨l, h1, h2, h3⟩
      refine ⟨t, l, rfl, h1, h2, ?_⟩
      unfold finish at h3
      dsimp only at h3
      rw [hv] at h3
      cases h3
      rfl
    · rintro ⟨t', l, h1, h2, h3, rfl⟩
      cases h1
      exact ⟨l, h2, h3, by unfold finish; dsimp only; rw [hv]; rfl⟩

theorem pyIntoVia_ok (h : PyActs r mk val ok same) {b : Buf Pose} (hb : UnitPython fl b) {target fixed : Name} {tt : Time}
    {m : Stamped T} {o : Obj} : pyIntoVia r fl b target tt fixed (mk m) = some (.ok o) ↔
      ∃ t u l, timeIn fl m.header.stamp = some t ∧ timeIn fl tt = some u ∧
        b.lookupTransform5 target u m.header.frame t fixed = .ok l ∧
        l.stamp < 2 ^ 31 * 1000000000 ∧ o = mk ⟨⟨0, l.stamp, l.parent⟩, val l.xf m.data⟩ := by
  obtain ⟨f, hf, hv⟩ := h.get m
  have none_case : Goal.canPy fl (fullGoal target tt fixed 0 m.header) b = .crash →
      pyIntoVia r fl b target tt fixed (mk m) ≠ some (.ok o) := by
    intro hc hx
    unfold pyIntoVia at hx
    rw [now_none hf (h.header m) rfl hc] at hx
    cases hx
  cases ht : timeIn fl m.header.stamp with
  | none =>
    constructor
    · intro hx
      refine absurd hx (none_case ?_)
      simp only [Goal.canPy, fullGoal, canFullCore, withTime, ht]
      cases timeIn fl tt <;> rfl
    · rintro ⟨t, u, l, h1, -⟩; cases h1
  | some t =>
    cases hu : timeIn fl tt with
    | none =>
      constructor
      · intro hx
        refine absurd hx (none_case ?_)
        simp [Goal.canPy, fullGoal, canFullCore, withTime, hu]
      · rintro ⟨t, u, l, -, h1, -⟩; cases h1
    | some u =>
      unfold pyIntoVia
      rw [now_ok hb hf (h.header m) (goal := fullGoal target tt fixed 0) rfl (full_reaches ht hu)]
      constructor
      · rintro ⟨l, h1, h2, h3⟩
        refine ⟨t, u, l, rfl, rfl, h1, h2, ?_⟩
        unfold finish at h3
        dsimp only at h3
        rw [hv] at h3
        cases h3
        rfl
      · rintro ⟨t', u', l, h1, h1', h2, h3, rfl⟩
        cases h1; cases h1'
        exact ⟨l, h2, h3, by unfold finish; dsimp only; rw [hv]; rfl⟩

theorem PyActs.roundTrip (hf : IsFl fl) (h : PyActs r mk val ok same) : PyRoundTrip r fl mk ok same := by
  rintro b hb m t target o hok h0 hmax ht ⟨ls, i, ri, hi, rti⟩ ⟨lt, j, rj, hj, rtj⟩ h1
  obtain ⟨t', l, ht', hl, hs, rfl⟩ := (pyInto_ok h hb).1 h1
  rw [ht] at ht'
  cases ht'
  obtain ⟨D, ops, hU, hrun⟩ := hb.unit
  have hreach : Reachable D b := ⟨ops, hrun⟩
  have ht0 : t ≠ 0 := fun he => h0 ((C67_zero hf hmax).1 (he ▸ ht))
  obtain ⟨ep, es⟩ := lookup_fields hreach ht0 hl
  obtain ⟨l2, hl2⟩ := (C16_symmetric hreach ht0 hj hi rtj rti).1 ⟨l, hl⟩
  obtain ⟨ep2, es2⟩ := lookup_fields hreach ht0 hl2
  have hback : timeIn fl t = some t := C67_idempotent hf hmax ht
  refine ⟨⟨⟨0, l.stamp, l.parent⟩, val l.xf m.data⟩, ⟨⟨0, l2.stamp, l2.parent⟩, val l2.xf (val l.xf m.data)⟩, rfl, ?_,
    (pyInto_ok h hb).2 ⟨t, l2, ?_, ?_, ?_, rfl⟩, ?_, ?_⟩
  · simp only [ep, es]
  · simp only [es]; exact hback
  · simp only [ep]; exact hl2
  · rw [es2, ← es]; exact hs
  · simp only [ep2, es2]
  · obtain ⟨n, _, he⟩ := rti
    have hc := (C16_inverse_pose hU hrun ht0 hi he hl hl2).2
    show same (val l2.xf (val l.xf m.data)) m.data
    rw [h.comp (lookup_inU pose_laws hU hrun hl2) (lookup_inU pose_laws hU hrun hl) hok, hc]
    exact h.one hok

theorem PyActs.byWayOf (hf : IsFl fl) (h : PyActs r mk val ok same) : PyByWayOf r fl mk ok := by
  rintro b hb m t mid target o1 o2 hok h0 hmax ht ⟨ls, i, ri, hi, rti⟩ ⟨lm, j, rj, hj, rtj⟩ ⟨lt, k, rk, hk, rtk⟩ h1 h2
  obtain ⟨t', l, ht', hl, hs, rfl⟩ := (pyInto_ok h hb).1 h1
  rw [ht] at ht'
  cases ht'
  obtain ⟨D, ops, hU, hrun⟩ := hb.unit
  have hreach : Reachable D b := ⟨ops, hrun⟩
  have ht0 : t ≠ 0 := fun he => h0 ((C67_zero hf hmax).1 (he ▸ ht))
  obtain ⟨ep, es⟩ := lookup_fields hreach ht0 hl
  have hback : timeIn fl t = some t := C67_idempotent hf hmax ht
  obtain ⟨t2, l2, ht2, hl2, hs2, rfl⟩ := (pyInto_ok h hb).1 h2
  simp only [es] at ht2
  rw [hback] at ht2
  cases ht2
  simp only [ep] at hl2
  obtain ⟨ep2, es2⟩ := lookup_fields hreach ht0 hl2
  obtain ⟨l3, hl3, e3⟩ := C17_compose pose_laws hU hrun ht0 hk hj hi lt lm ls rtk rtj rti hl2 hl
  obtain ⟨ep3, es3⟩ := lookup_fields hreach ht0 hl3
  refine (pyInto_ok h hb).2 ⟨t, l3, ht, hl3, ?_, ?_⟩
  · rw [es3, ← es]; exact hs
  · have e3' : l3.xf = l2.xf.comp l.xf := e3
    rw [h.comp (lookup_inU pose_laws hU hrun hl2) (lookup_inU pose_laws hU hrun hl) hok, e3', ep2, es2, ep3, es3]

/-- The two lookups of the five-argument lookup. -/
theorem lookup5_ok {b : Buf Pose} {target source fixed : Name} {tt t : Time} {l : Msg Pose}
    (h5 : b.lookupTransform5 target tt source t fixed = .ok l) :
    ∃ m1 m2, b.lookupTransform fixed source t = .ok m1 ∧ b.lookupTransform target fixed tt = .ok m2 ∧
      l.stamp = m2.stamp ∧ l.parent = m2.parent ∧ l.xf = Pose.mulMsg m2.xf m1.xf := by
  unfold Buf.lookupTransform5 at h5
  cases g1 : b.validateFrameId target with
  | ub => rw [g1] at h5; cases h5
  | throw e => rw [g1] at h5; cases h5
  | ok _ =>
  rw [g1] at h5
  cases g2 : b.validateFrameId source with
  | ub => rw [g2] at h5; cases h5
  | throw e => rw [g2] at h5; cases h5
  | ok _ =>
  rw [g2] at h5
  cases g3 : b.validateFrameId fixed with
  | ub => rw [g3] at h5; cases h5
  | throw e => rw [g3] at h5; cases h5
  | ok _ =>
  rw [g3] at h5
  cases g4 : b.lookupTransform fixed source t with
  | ub => rw [g4] at h5; cases h5
  | throw e => rw [g4] at h5; cases h5
  | ok m1 =>
  rw [g4] at h5
  cases g5 : b.lookupTransform target fixed tt with
  | ub => rw [g5] at h5; cases h5
  | throw e => rw [g5] at h5; cases h5
  | ok m2 =>
  rw [g5] at h5
  simp only [Res.ok.injEq] at h5
  subst h5
  have e2 := lookup_parent g5
  exact ⟨m1, m2, rfl, rfl, rfl, e2.symm, rfl⟩

theorem PyActs.fixedFrame (hf : IsFl fl) (h : PyActs r mk val ok same) : PyFixedFrame r fl mk ok := by
  rintro b hb m target fixed tt o hok hlate h1
  obtain ⟨t, u, l, ht, hu, h5, hs, rfl⟩ := (pyIntoVia_ok h hb).1 h1
  obtain ⟨m1, m2, g4, g5, e1, e2, e3⟩ := lookup5_ok h5
  obtain ⟨D, ops, hU, hrun⟩ := hb.unit
  have hM : TIME_MAX = 4294967295999999999 := rfl
  have early : ∀ {s s' : Time}, s + 119 < 2 ^ 31 * 1000000000 → timeIn fl s = some s' → s' < 2 ^ 31 * 1000000000 := by
    intro s s' h1 h2
    have := (C67_error hf (t := s) (by omega)).2.2.1 (by omega) s' h2
    omega
  have hm1 : m1.stamp < 2 ^ 31 * 1000000000 := by
    obtain ⟨D', ops', -, hearly, hb'⟩ := hb
    obtain ⟨ops'', hp, hb''⟩ := runCore_some hb'
    have ho := C66_stamp_origin hb'' g4
    by_cases h0 : t = 0
    · rcases ho.2 h0 with he | ⟨o, a, s, h1, -, he⟩
      · rw [he]; norm_num
      · obtain ⟨m0, h2, h3, -⟩ := hp.mem h1
        rw [he]
        exact early (hearly _ _ _ h2) h3
    · rw [ho.1 h0]; exact early hlate ht
  refine ⟨_, (pyInto_ok h hb).2 ⟨t, m1, ht, g4, hm1, rfl⟩, (pyInto_ok h hb).2 ⟨u, m2, hu, ?_, ?_, ?_⟩⟩
  · simp only [lookup_parent g4]; exact g5
  · rw [← e1]; exact hs
  · rw [e3, h.mulMsg (lookup_inU pose_laws hU hrun g5) (lookup_inU pose_laws hU hrun g4) hok, e1, e2]

end Tf2.Geo.Py
