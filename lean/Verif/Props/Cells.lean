import Verif.Spec.Cells

/-!
# C100: equality and serialisation of vectors and transforms
-/
namespace Tf2.Cells

variable {α β : Type}

/-! ### What programs do to the fourth number -/

/-- Holds after a plain program in which the variables `w` have a value as a whole. -/
structure CInv [Dbl α] [Flt α β] (w : Nat → Bool) (s : State α β) : Prop where
  fourth : ∀ r, (s.vecs r).w = none ∨ (s.vecs r).w = some Dbl.zero
  whole : ∀ r, w r = true → (s.vecs r).w = some Dbl.zero ∧ ∃ c, (s.vecs r).co = some c
  data : ∀ k d, s.data k = some d → d.2.2.2 = Dbl.zero
  fdata : ∀ k d, s.fdata k = some d → d.2.2.2 = Flt.toFloat (Dbl.zero : α)

theorem put_vecs (s : State α β) (r : Nat) (v : Vec α) (i : Nat) : (s.put r v).vecs i = if i = r then v else s.vecs i := rfl

theorem CInv.put [Dbl α] [Flt α β] {w : Nat → Bool} {s : State α β} (h : CInv w s) (r : Nat) (v : Vec α) (b : Bool)
    (h1 : v.w = none ∨ v.w = some Dbl.zero) (h2 : b = true → v.w = some Dbl.zero ∧ ∃ c, v.co = some c) :
    CInv (fun i => if i = r then b else w i) (s.put r v) := by
  refine ⟨fun i => ?_, fun i hi => ?_, h.data, h.fdata⟩
  · rw [put_vecs]; split
    · exact h1
    · exact h.fourth i
  · rw [put_vecs]
    by_cases e : i = r
    · simp only [if_pos e] at hi ⊢; exact h2 hi
    · simp only [if_neg e] at hi ⊢; exact h.whole i hi

theorem CInv.edit [Dbl α] [Flt α β] {w : Nat → Bool} {s : State α β} (h : CInv w s) (r : Nat) (v : Vec α)
    (hw : v.w = (s.vecs r).w) (hc : (∃ c, (s.vecs r).co = some c) → ∃ c, v.co = some c) : CInv w (s.put r v) := by
  have := h.put r v (w r) (by rw [hw]; exact h.fourth r) (fun k => by rw [hw]; exact ⟨(h.whole r k).1, hc (h.whole r k).2⟩)
  have e : (fun i => if i = r then w r else w i) = w := by
    funext i; split
    · rename_i e; rw [e]
    · rfl
  rwa [e] at this

theorem co_some {v : Vec α} {c : Co α} (h : v.co = some c) : v.x = some c.x ∧ v.y = some c.y ∧ v.z = some c.z := by
  obtain ⟨x, y, z, w⟩ := v
  cases x <;> cases y <;> cases z <;> simp [Vec.co] at h
  subst h; exact ⟨rfl, rfl, rfl⟩

theorem co_iff {v : Vec α} : (∃ c, v.co = some c) ↔ (∃ a, v.x = some a) ∧ (∃ a, v.y = some a) ∧ ∃ a, v.z = some a := by
  obtain ⟨x, y, z, w⟩ := v
  cases x <;> cases y <;> cases z <;> simp [Vec.co]

theorem all_some {v : Vec α} {d : α × α × α × α} (h : v.all = some d) :
    v = ⟨some d.1, some d.2.1, some d.2.2.1, some d.2.2.2⟩ := by
  obtain ⟨x, y, z, w⟩ := v
  cases x <;> cases y <;> cases z <;> cases w <;> simp [Vec.all] at h
  subst h; rfl

theorem pick_some {lt : α → α → Bool} {a b c : Option α} (h : pick lt a b = some c) :
    ∃ x y, a = some x ∧ b = some y ∧ c = some (if lt x y then y else x) := by
  cases a <;> cases b <;> simp [pick] at h
  exact ⟨_, _, rfl, rfl, h.symm⟩

theorem pick4_some {lt : α → α → Bool} {v u t : Vec α} (h : pick4 lt v u = some t) :
    pick lt v.x u.x = some t.x ∧ pick lt v.y u.y = some t.y ∧ pick lt v.z u.z = some t.z ∧ pick lt v.w u.w = some t.w := by
  unfold pick4 at h
  split at h
  · rename_i h1 h2 h3 h4
    injection h with h; subst h; exact ⟨h1, h2, h3, h4⟩
  · cases h

theorem CInv.pick [Dbl α] [Flt α β] {w : Nat → Bool} {s : State α β} (h : CInv w s) (lt : α → α → Bool) (r q : Nat) (t : Vec α)
    (ht : pick4 lt (s.vecs r) (s.vecs q) = some t) : CInv w (s.put r t) := by
  obtain ⟨h1, h2, h3, h4⟩ := pick4_some ht
  obtain ⟨x1, y1, a1, b1, c1⟩ := pick_some h1
  obtain ⟨x2, y2, a2, b2, c2⟩ := pick_some h2
  obtain ⟨x3, y3, a3, b3, c3⟩ := pick_some h3
  obtain ⟨x4, y4, a4, b4, c4⟩ := pick_some h4
  refine h.edit r t ?_ (fun _ => co_iff.2 ⟨⟨_, c1⟩, ⟨_, c2⟩, ⟨_, c3⟩⟩)
  have e1 := h.fourth r
  have e2 := h.fourth q
  rw [a4] at e1; rw [b4] at e2
  simp at e1 e2
  rw [c4, a4, e1, e2]; simp

theorem CInv.step [Dbl α] [Flt α β] (hz : Flt.toDouble (Flt.toFloat (Dbl.zero : α) : β) = (Dbl.zero : α))
    {w : Nat → Bool} {s s' : State α β} (h : CInv w s) {op : Op α β} (hp : op.plain) (he : step s op = some s') :
    CInv (wholeStep w op) s' := by
  cases op with
  | declare r => injection he with he; subst he; exact h.put r _ false (.inl rfl) (by simp)
  | make r x y z => injection he with he; subst he; exact h.put r _ true (.inr rfl) (fun _ => ⟨rfl, _, rfl⟩)
  | four _ _ _ _ _ => cases hp
  | setW _ _ => cases hp
  | copy r q => injection he with he; subst he; exact h.put r _ (w q) (h.fourth q) (h.whole q)
  | expr r args f =>
    simp only [Cells.step] at he
    split at he
    · injection he with he; subst he; exact h.put r _ true (.inr rfl) (fun _ => ⟨rfl, _, rfl⟩)
    · cases he
  | update r args f =>
    simp only [Cells.step] at he
    split at he
    · injection he with he; subst he; exact h.edit r _ rfl (fun _ => ⟨_, rfl⟩)
    · cases he
  | overwrite r args f =>
    simp only [Cells.step] at he
    split at he
    · injection he with he; subst he; exact h.edit r _ rfl (fun _ => ⟨_, rfl⟩)
    · cases he
  | setX r a =>
    injection he with he; subst he
    exact h.edit r _ rfl (fun k => co_iff.2 ⟨⟨_, rfl⟩, (co_iff.1 k).2.1, (co_iff.1 k).2.2⟩)
  | setY r a =>
    injection he with he; subst he
    exact h.edit r _ rfl (fun k => co_iff.2 ⟨(co_iff.1 k).1, ⟨_, rfl⟩, (co_iff.1 k).2.2⟩)
  | setZ r a =>
    injection he with he; subst he
    exact h.edit r _ rfl (fun k => co_iff.2 ⟨(co_iff.1 k).1, (co_iff.1 k).2.1, ⟨_, rfl⟩⟩)
  | setMax r q =>
    simp only [Cells.step, Option.map_eq_some_iff] at he
    obtain ⟨t, ht, rfl⟩ := he
    exact h.pick _ r q t ht
  | setMin r q =>
    simp only [Cells.step, Option.map_eq_some_iff] at he
    obtain ⟨t, ht, rfl⟩ := he
    exact h.pick _ r q t ht
  | store r k =>
    simp only [Cells.step] at he
    split at he
    · rename_i d hd
      injection he with he; subst he
      refine ⟨h.fourth, h.whole, fun j e hj => ?_, h.fdata⟩
      simp only at hj
      split at hj
      · injection hj with hj; subst hj
        have := h.fourth r
        rw [all_some hd] at this
        simpa using this
      · exact h.data j e hj
    · cases he
  | storeFloat r k =>
    simp only [Cells.step] at he
    split at he
    · rename_i x y z u hd
      injection he with he; subst he
      refine ⟨h.fourth, h.whole, h.data, fun j e hj => ?_⟩
      simp only at hj
      split at hj
      · injection hj with hj; subst hj
        have := h.fourth r
        rw [all_some hd] at this
        simp at this
        rw [this]
      · exact h.fdata j e hj
    · cases he
  | load r k =>
    simp only [Cells.step] at he
    split at he
    · rename_i x y z u hd
      injection he with he; subst he
      have := h.data k _ hd
      simp only at this
      subst this
      exact h.put r _ true (.inr rfl) (fun _ => ⟨rfl, _, rfl⟩)
    · cases he
  | loadFloat r k =>
    simp only [Cells.step] at he
    split at he
    · rename_i x y z u hd
      injection he with he; subst he
      have := h.fdata k _ hd
      simp only at this
      subst this
      exact h.put r _ true (.inr (by simp only [hz])) (fun _ => ⟨by simp only [hz], _, rfl⟩)
    · cases he

theorem CInv.run [Dbl α] [Flt α β] (hz : Flt.toDouble (Flt.toFloat (Dbl.zero : α) : β) = (Dbl.zero : α)) (ops : List (Op α β)) :
    ∀ {w : Nat → Bool} {s s' : State α β}, CInv w s → (∀ op ∈ ops, op.plain) → run ops s = some s' →
    CInv (ops.foldl wholeStep w) s' := by
  induction ops with
  | nil => intro w s s' h _ he; injection he with he; subst he; exact h
  | cons op r ih =>
    intro w s s' h hp he
    simp only [Cells.run] at he
    split at he
    · rename_i s1 h1
      exact ih (h.step hz (hp op (List.mem_cons_self ..)) h1) (fun o ho => hp o (List.mem_cons_of_mem _ ho)) he
    · cases he

theorem CInv.init [Dbl α] [Flt α β] : CInv (fun _ => false) (State.init : State α β) :=
  ⟨fun _ => .inl rfl, fun _ h => by simp at h, fun _ _ h => by simp [State.init] at h, fun _ _ h => by simp [State.init] at h⟩

/-! ### Equality -/

/-- C100. After any program that does not set fourth numbers on purpose, two vectors that have a value as a whole are
compared without reading anything indeterminate, and are equal just if their coordinates are. -/
theorem C100_equal [Dbl α] [Flt α β] (hz : Flt.toDouble (Flt.toFloat (Dbl.zero : α) : β) = (Dbl.zero : α))
    (h0 : Dbl.eqb (Dbl.zero : α) Dbl.zero = true) (ops : List (Op α β)) (s : State α β) (hr : run ops .init = some s)
    (hp : ∀ op ∈ ops, op.plain) (p q : Nat) (hwp : whole ops p = true) (hwq : whole ops q = true) :
    ∃ c d, (s.vecs p).co = some c ∧ (s.vecs q).co = some d ∧ equal (s.vecs p) (s.vecs q) = some (c.same d) := by
  have h := CInv.run hz ops CInv.init hp hr
  obtain ⟨a1, c, a2⟩ := h.whole p hwp
  obtain ⟨b1, d, b2⟩ := h.whole q hwq
  obtain ⟨x1, y1, z1⟩ := co_some a2
  obtain ⟨x2, y2, z2⟩ := co_some b2
  refine ⟨c, d, a2, b2, ?_⟩
  unfold equal
  rw [a1, b1, x1, x2, y1, y2, z1, z2]
  simp only [eqCell, h0, if_true, Co.same]
  cases Dbl.eqb c.x d.x <;> cases Dbl.eqb c.y d.y <;> cases Dbl.eqb c.z d.z <;> rfl

/-- C100. Likewise for transforms (rows `p`, `p+1`, `p+2`, origin `p+3`) whose rows and origins have a value as a whole. -/
theorem C100_equal_transforms [Dbl α] [Flt α β] (hz : Flt.toDouble (Flt.toFloat (Dbl.zero : α) : β) = (Dbl.zero : α))
    (h0 : Dbl.eqb (Dbl.zero : α) Dbl.zero = true) (ops : List (Op α β)) (s : State α β) (hr : run ops .init = some s)
    (hp : ∀ op ∈ ops, op.plain) (p q : Nat) (hw : ∀ i < 4, whole ops (p + i) = true ∧ whole ops (q + i) = true) :
    ∃ c d : Nat → Co α, (∀ i < 4, (s.vecs (p + i)).co = some (c i) ∧ (s.vecs (q + i)).co = some (d i)) ∧
      equalTransform s p q = some ((c 0).same (d 0) && (c 1).same (d 1) && (c 2).same (d 2) && (c 3).same (d 3)) := by
  have h := CInv.run hz ops CInv.init hp hr
  have hc : ∀ i < 4, ∃ c d, (s.vecs (p + i)).co = some c ∧ (s.vecs (q + i)).co = some d := by
    intro i hi
    obtain ⟨-, c, a⟩ := h.whole _ (hw i hi).1
    obtain ⟨-, d, b⟩ := h.whole _ (hw i hi).2
    exact ⟨c, d, a, b⟩
  obtain ⟨c0, d0, a0, b0⟩ := hc 0 (by omega)
  obtain ⟨c1, d1, a1, b1⟩ := hc 1 (by omega)
  obtain ⟨c2, d2, a2, b2⟩ := hc 2 (by omega)
  obtain ⟨c3, d3, a3, b3, e3⟩ := C100_equal hz h0 ops s hr hp (p + 3) (q + 3) (hw 3 (by omega)).1 (hw 3 (by omega)).2
  rw [Nat.add_zero] at a0 b0
  refine ⟨fun | 0 => c0 | 1 => c1 | 2 => c2 | _ => c3, fun | 0 => d0 | 1 => d1 | 2 => d2 | _ => d3, ?_, ?_⟩
  · intro i hi
    match i, hi with
    | 0, _ => exact ⟨a0, b0⟩
    | 1, _ => exact ⟨a1, b1⟩
    | 2, _ => exact ⟨a2, b2⟩
    | 3, _ => exact ⟨a3, b3⟩
  · obtain ⟨x0, y0, z0⟩ := co_some a0
    obtain ⟨x0', y0', z0'⟩ := co_some b0
    obtain ⟨x1, y1, z1⟩ := co_some a1
    obtain ⟨x1', y1', z1'⟩ := co_some b1
    obtain ⟨x2, y2, z2⟩ := co_some a2
    obtain ⟨x2', y2', z2'⟩ := co_some b2
    unfold equalTransform equalMat
    rw [e3, x0, y0, z0, x0', y0', z0', x1, y1, z1, x1', y1', z1', x2, y2, z2, x2', y2', z2']
    simp only [eqCell]
    simp only [Co.same]
    cases Dbl.eqb c0.x d0.x <;> cases Dbl.eqb c0.y d0.y <;> cases Dbl.eqb c0.z d0.z <;>
      cases Dbl.eqb c1.x d1.x <;> cases Dbl.eqb c1.y d1.y <;> cases Dbl.eqb c1.z d1.z <;>
      cases Dbl.eqb c2.x d2.x <;> cases Dbl.eqb c2.y d2.y <;> cases Dbl.eqb c2.z d2.z <;> simp

/-- C100. The comparison of matrices never reads fourth numbers: it is the same whatever they are. -/
theorem C100_matrices [Dbl α] (s s' : State α β) (p q : Nat) (rest : Option Bool)
    (h : ∀ i, (s.vecs i).x = (s'.vecs i).x ∧ (s.vecs i).y = (s'.vecs i).y ∧ (s.vecs i).z = (s'.vecs i).z) :
    equalMat s p q rest = equalMat s' p q rest := by
  unfold equalMat
  simp only [fun i => (h i).1, fun i => (h i).2.1, fun i => (h i).2.2]

/-- C100, finding. A vector that is declared and then given its coordinates one by one has them, but comparing it with
anything, itself included, or serialising it is undefined behaviour. -/
theorem C100_coordinates_finding [Dbl α] [Flt α β] (x y z : α) :
    ∃ s : State α β, run [.declare 0, .setX 0 x, .setY 0 y, .setZ 0 z] .init = some s ∧ (s.vecs 0).co = some ⟨x, y, z⟩ ∧
    (∀ u, equal (s.vecs 0) u = none ∧ equal u (s.vecs 0) = none) ∧
    (∀ k, step s (.store 0 k) = none ∧ step s (.storeFloat 0 k) = none) := by
  refine ⟨_, rfl, rfl, fun u => ⟨rfl, ?_⟩, fun k => ⟨rfl, rfl⟩⟩
  unfold equal
  show eqCell u.w none _ = none
  unfold eqCell
  cases u.w <;> rfl

/-- C100, finding. Two vectors with the same coordinates are unequal once one of them was given another fourth number. -/
theorem C100_fourth_finding [Dbl α] [Flt α β] (x y z w : α) (hw : Dbl.eqb (Dbl.zero : α) w = false) :
    ∃ s : State α β, run [.make 0 x y z, .make 1 x y z, .setW 1 w] .init = some s ∧
    (s.vecs 0).co = some ⟨x, y, z⟩ ∧ (s.vecs 1).co = some ⟨x, y, z⟩ ∧ equal (s.vecs 0) (s.vecs 1) = some false := by
  refine ⟨_, rfl, rfl, rfl, ?_⟩
  unfold equal
  show eqCell (some Dbl.zero) (some w) _ = some false
  simp only [eqCell, hw]; rfl

/-! ### Serialisation -/

theorem step_data [Dbl α] [Flt α β] {s s' : State α β} {op : Op α β} {k : Nat} (h : step s op = some s') (hs : ¬ op.stores k) :
    s'.data k = s.data k ∧ s'.fdata k = s.fdata k := by
  cases op with
  | store r j =>
    simp only [step] at h
    split at h
    · injection h with h; subst h
      exact ⟨if_neg (fun e => hs e.symm), rfl⟩
    · cases h
  | storeFloat r j =>
    simp only [step] at h
    split at h
    · injection h with h; subst h
      exact ⟨rfl, if_neg (fun e => hs e.symm)⟩
    · cases h
  | setMax r q => simp only [step, Option.map_eq_some_iff] at h; obtain ⟨t, -, rfl⟩ := h; exact ⟨rfl, rfl⟩
  | setMin r q => simp only [step, Option.map_eq_some_iff] at h; obtain ⟨t, -, rfl⟩ := h; exact ⟨rfl, rfl⟩
  | _ =>
    simp only [step] at h
    first
    | (injection h with h; subst h; exact ⟨rfl, rfl⟩)
    | (split at h
       · injection h with h; subst h; exact ⟨rfl, rfl⟩
       · cases h)

theorem step_vecs [Dbl α] [Flt α β] {s s' : State α β} {op : Op α β} {r : Nat} (h : step s op = some s') (hs : ¬ op.writes r) :
    s'.vecs r = s.vecs r := by
  cases op with
  | setMax p q =>
    simp only [step, Option.map_eq_some_iff] at h; obtain ⟨t, -, rfl⟩ := h
    exact if_neg (fun e => hs e.symm)
  | setMin p q =>
    simp only [step, Option.map_eq_some_iff] at h; obtain ⟨t, -, rfl⟩ := h
    exact if_neg (fun e => hs e.symm)
  | store p j =>
    simp only [step] at h
    split at h
    · injection h with h; subst h; rfl
    · cases h
  | storeFloat p j =>
    simp only [step] at h
    split at h
    · injection h with h; subst h; rfl
    · cases h
  | _ =>
    simp only [step] at h
    first
    | (injection h with h; subst h; exact if_neg (fun e => hs e.symm))
    | (split at h
       · injection h with h; subst h; exact if_neg (fun e => hs e.symm)
       · cases h)

theorem run_data [Dbl α] [Flt α β] (ops : List (Op α β)) (k : Nat) : ∀ {s s' : State α β}, run ops s = some s' →
    (∀ op ∈ ops, ¬ op.stores k) → s'.data k = s.data k ∧ s'.fdata k = s.fdata k := by
  induction ops with
  | nil => intro s s' h _; injection h with h; subst h; exact ⟨rfl, rfl⟩
  | cons op r ih =>
    intro s s' h hs
    simp only [run] at h
    split at h
    · rename_i s1 h1
      obtain ⟨a, b⟩ := ih h (fun o ho => hs o (List.mem_cons_of_mem _ ho))
      obtain ⟨c, d⟩ := step_data h1 (hs op (List.mem_cons_self ..))
      exact ⟨a.trans c, b.trans d⟩
    · cases h

theorem run_vecs [Dbl α] [Flt α β] (ops : List (Op α β)) (r : Nat) : ∀ {s s' : State α β}, run ops s = some s' →
    (∀ op ∈ ops, ¬ op.writes r) → s'.vecs r = s.vecs r := by
  induction ops with
  | nil => intro s s' h _; injection h with h; subst h; rfl
  | cons op l ih =>
    intro s s' h hs
    simp only [run] at h
    split at h
    · rename_i s1 h1
      exact (ih h (fun o ho => hs o (List.mem_cons_of_mem _ ho))).trans (step_vecs h1 (hs op (List.mem_cons_self ..)))
    · cases h

theorem run_split [Dbl α] [Flt α β] (o1 o2 : List (Op α β)) : ∀ {s s' : State α β}, run (o1 ++ o2) s = some s' →
    ∃ s1, run o1 s = some s1 ∧ run o2 s1 = some s' := by
  induction o1 with
  | nil => intro s s' h; exact ⟨s, rfl, h⟩
  | cons op r ih =>
    intro s s' h
    simp only [List.cons_append, run] at h ⊢
    split at h
    · rename_i s1 h1
      obtain ⟨t, a, b⟩ := ih h
      exact ⟨t, by simpa only [h1] using a, b⟩
    · cases h

theorem run_one [Dbl α] [Flt α β] {op : Op α β} {s s' : State α β} (h : run [op] s = some s') : step s op = some s' := by
  simp only [run] at h
  split at h
  · rename_i h1; injection h with h; subst h; exact h1
  · cases h

theorem stored [Dbl α] [Flt α β] {s s' : State α β} {p k : Nat} (h : step s (.store p k) = some s') :
    ∃ x y z w, s.vecs p = ⟨some x, some y, some z, some w⟩ ∧ s'.data k = some (x, y, z, w) := by
  simp only [step] at h
  split at h
  · rename_i d hd
    injection h with h; subst h
    exact ⟨_, _, _, _, all_some hd, if_pos rfl⟩
  · cases h

theorem storedFloat [Dbl α] [Flt α β] {s s' : State α β} {p k : Nat} (h : step s (.storeFloat p k) = some s') :
    ∃ x y z w, s.vecs p = ⟨some x, some y, some z, some w⟩ ∧
      s'.fdata k = some (Flt.toFloat x, Flt.toFloat y, Flt.toFloat z, Flt.toFloat w) := by
  simp only [step] at h
  split at h
  · rename_i x y z w hd
    injection h with h; subst h
    exact ⟨_, _, _, _, all_some hd, if_pos rfl⟩
  · cases h

/-- C100. What was serialised comes back, whatever happened in between, the fourth number included. -/
theorem C100_roundtrip [Dbl α] [Flt α β] (s s' : State α β) (p q k : Nat) (ops : List (Op α β))
    (hk : ∀ op ∈ ops, ¬ op.stores k) (h : run (.store p k :: (ops ++ [.load q k])) s = some s') : s'.vecs q = s.vecs p := by
  obtain ⟨s1, h1, h⟩ := run_split [.store p k] (ops ++ [.load q k]) h
  obtain ⟨s2, h2, h⟩ := run_split ops [.load q k] h
  obtain ⟨x, y, z, w, e1, e2⟩ := stored (run_one h1)
  rw [← (run_data ops k h2 hk).1] at e2
  have h3 := run_one h
  simp only [step, e2] at h3
  injection h3 with h3; subst h3
  rw [put_vecs, if_pos rfl, e1]

/-- C100. In the `float` format each number comes back rounded to `float`. -/
theorem C100_roundtrip_float [Dbl α] [Flt α β] (s s' : State α β) (p q k : Nat) (ops : List (Op α β))
    (hk : ∀ op ∈ ops, ¬ op.stores k) (h : run (.storeFloat p k :: (ops ++ [.loadFloat q k])) s = some s') :
    s'.vecs q = (s.vecs p).map (viaFloat β) := by
  obtain ⟨s1, h1, h⟩ := run_split [.storeFloat p k] (ops ++ [.loadFloat q k]) h
  obtain ⟨s2, h2, h⟩ := run_split ops [.loadFloat q k] h
  obtain ⟨x, y, z, w, e1, e2⟩ := storedFloat (run_one h1)
  rw [← (run_data ops k h2 hk).2] at e2
  have h3 := run_one h
  simp only [step, e2] at h3
  injection h3 with h3; subst h3
  rw [put_vecs, if_pos rfl, e1]; rfl

/-- C100. Serialising again what came from the `float` format loses nothing more: the data are the same. -/
theorem C100_float_again [Dbl α] [Flt α β] (hf : ∀ b : β, Flt.toFloat (Flt.toDouble b : α) = b) (s s' : State α β) (p q k j : Nat)
    (ops : List (Op α β)) (hk : ∀ op ∈ ops, ¬ op.stores k)
    (h : run (.storeFloat p k :: (ops ++ [.loadFloat q k, .storeFloat q j])) s = some s') : s'.fdata j = s'.fdata k := by
  obtain ⟨s1, h1, h⟩ := run_split [.storeFloat p k] (ops ++ [.loadFloat q k, .storeFloat q j]) h
  obtain ⟨s2, h2, h⟩ := run_split ops [.loadFloat q k, .storeFloat q j] h
  obtain ⟨x, y, z, w, e1, e2⟩ := storedFloat (run_one h1)
  rw [← (run_data ops k h2 hk).2] at e2
  obtain ⟨s3, h3, h4⟩ := run_split [.loadFloat q k] [.storeFloat q j] h
  have h3 := run_one h3
  simp only [step, e2] at h3
  injection h3 with h3; subst h3
  obtain ⟨x', y', z', w', f1, f2⟩ := storedFloat (run_one h4)
  rw [put_vecs, if_pos rfl] at f1
  injection f1 with a b c d
  injection a with a; injection b with b; injection c with c; injection d with d
  rw [f2, ← a, ← b, ← c, ← d, hf, hf, hf, hf]
  by_cases e : j = k
  · subst e
    rw [f2, ← a, ← b, ← c, ← d, hf, hf, hf, hf]
  · rw [(step_data (run_one h4) (k := k) (fun e' => e e')).2]
    exact e2.symm

theorem roundtrip_in [Dbl α] [Flt α β] (s s' : State α β) (p q k : Nat) (pre mid post : List (Op α β))
    (h1 : ∀ op ∈ pre, ¬ op.writes p) (h2 : ∀ op ∈ mid, ¬ op.stores k) (h3 : ∀ op ∈ post, ¬ op.writes q)
    (h : run (pre ++ ((.store p k :: (mid ++ [.load q k])) ++ post)) s = some s') : s'.vecs q = s.vecs p := by
  obtain ⟨s1, a, h⟩ := run_split pre _ h
  obtain ⟨s2, b, h⟩ := run_split _ post h
  rw [run_vecs post q h h3, C100_roundtrip s1 s2 p q k mid h2 b, run_vecs pre p a h1]

/-- C100. A transform that was serialised comes back, all sixteen numbers. -/
theorem C100_transform_roundtrip [Dbl α] [Flt α β] (s s' : State α β) (p q k : Nat) (ops : List (Op α β))
    (hk : ∀ i < 4, ∀ op ∈ ops, ¬ op.stores (k + i))
    (h : run (storeTransform p k ++ ops ++ loadTransform q k) s = some s') : ∀ i < 4, s'.vecs (q + i) = s.vecs (p + i) := by
  intro i hi
  have mem : ∀ {op : Op α β} {j : Nat} {l l' : List (Op α β)}, (∀ op ∈ ops, ¬ op.stores j) → (∀ op ∈ l, ¬ op.stores j) →
      (∀ op ∈ l', ¬ op.stores j) → op ∈ l ++ ops ++ l' → ¬ op.stores j := by
    intro op j l l' h1 h2 h3 hm
    rcases List.mem_append.1 hm with hm | hm
    · rcases List.mem_append.1 hm with hm | hm
      · exact h2 op hm
      · exact h1 op hm
    · exact h3 op hm
  match i, hi with
  | 0, _ =>
    refine roundtrip_in s s' p q k [] ([.store (p + 1) (k + 1), .store (p + 2) (k + 2), .store (p + 3) (k + 3)] ++ ops ++ [])
      [.load (q + 1) (k + 1), .load (q + 2) (k + 2), .load (q + 3) (k + 3)] (by simp)
      (fun op hm => mem (hk 0 (by omega)) (by simp [Op.stores]) (by simp) hm) (by simp [Op.writes]) ?_
    simpa [storeTransform, loadTransform] using h
  | 1, _ =>
    refine roundtrip_in s s' (p + 1) (q + 1) (k + 1) [.store p k]
      ([.store (p + 2) (k + 2), .store (p + 3) (k + 3)] ++ ops ++ [.load q k])
      [.load (q + 2) (k + 2), .load (q + 3) (k + 3)] (by simp [Op.writes])
      (fun op hm => mem (hk 1 (by omega)) (by simp [Op.stores]) (by simp [Op.stores]) hm) (by simp [Op.writes]) ?_
    simpa [storeTransform, loadTransform] using h
  | 2, _ =>
    refine roundtrip_in s s' (p + 2) (q + 2) (k + 2) [.store p k, .store (p + 1) (k + 1)]
      ([.store (p + 3) (k + 3)] ++ ops ++ [.load q k, .load (q + 1) (k + 1)])
      [.load (q + 3) (k + 3)] (by simp [Op.writes])
      (fun op hm => mem (hk 2 (by omega)) (by simp [Op.stores]) (by simp [Op.stores]) hm) (by simp [Op.writes]) ?_
    simpa [storeTransform, loadTransform] using h
  | 3, _ =>
    refine roundtrip_in s s' (p + 3) (q + 3) (k + 3) [.store p k, .store (p + 1) (k + 1), .store (p + 2) (k + 2)]
      ([] ++ ops ++ [.load q k, .load (q + 1) (k + 1), .load (q + 2) (k + 2)])
      [] (by simp [Op.writes])
      (fun op hm => mem (hk 3 (by omega)) (by simp) (by simp [Op.stores]) hm) (by simp) ?_
    simpa [storeTransform, loadTransform] using h

theorem eqCell_refl [Dbl α] {a : Option α} (hs : ∃ x, a = some x) (hn : ∀ x ∈ a, Dbl.eqb x x = true) (rest : Option Bool) :
    eqCell a a rest = rest := by
  obtain ⟨x, rfl⟩ := hs
  simp [eqCell, hn x rfl]

/-- C100. So a transform without NaN is equal to what comes back, if the variable was left alone. -/
theorem C100_comes_back_equal [Dbl α] [Flt α β] (s s' : State α β) (p q k : Nat) (ops : List (Op α β))
    (hk : ∀ i < 4, ∀ op ∈ ops, ¬ op.stores (k + i)) (hw : ∀ i < 4, ∀ op ∈ ops, ¬ op.writes (p + i))
    (hd : p + 4 ≤ q ∨ q + 4 ≤ p) (hn : ∀ i < 4, (s.vecs (p + i)).noNaN)
    (h : run (storeTransform p k ++ ops ++ loadTransform q k) s = some s') : equalTransform s' p q = some true := by
  have e1 := C100_transform_roundtrip s s' p q k ops hk h
  have e2 : ∀ i < 4, s'.vecs (p + i) = s.vecs (p + i) := by
    intro i hi
    refine run_vecs _ (p + i) h ?_
    intro op hm
    rcases List.mem_append.1 hm with hm | hm
    · rcases List.mem_append.1 hm with hm | hm
      · simp only [storeTransform, List.mem_cons, List.not_mem_nil, or_false] at hm
        rcases hm with rfl | rfl | rfl | rfl <;> exact fun e => e
      · exact hw i hi op hm
    · simp only [loadTransform, List.mem_cons, List.not_mem_nil, or_false] at hm
      rcases hm with rfl | rfl | rfl | rfl <;> simp only [Op.writes] <;> omega
  have hs : ∀ i < 4, ∃ x y z w, s.vecs (p + i) = ⟨some x, some y, some z, some w⟩ := by
    intro i hi
    simp only [storeTransform, List.cons_append, List.nil_append, List.append_assoc] at h
    obtain ⟨s1, h1, h⟩ := run_split [.store p k] _ h
    obtain ⟨s2, h2, h⟩ := run_split [.store (p + 1) (k + 1)] _ h
    obtain ⟨s3, h3, h⟩ := run_split [.store (p + 2) (k + 2)] _ h
    obtain ⟨s4, h4, -⟩ := run_split [.store (p + 3) (k + 3)] _ h
    have k1 := run_one h1
    have k2 := run_one h2
    have k3 := run_one h3
    have k4 := run_one h4
    have v1 : s1.vecs = s.vecs := funext fun r => step_vecs (r := r) k1 (fun e => e)
    have v2 : s2.vecs = s1.vecs := funext fun r => step_vecs (r := r) k2 (fun e => e)
    have v3 : s3.vecs = s2.vecs := funext fun r => step_vecs (r := r) k3 (fun e => e)
    obtain ⟨a1, a2, a3, a4, e1, -⟩ := stored k1
    obtain ⟨b1, b2, b3, b4, e2, -⟩ := stored k2
    obtain ⟨c1, c2, c3, c4, e3, -⟩ := stored k3
    obtain ⟨d1, d2, d3, d4, e4, -⟩ := stored k4
    rw [v1] at e2; rw [v2, v1] at e3; rw [v3, v2, v1] at e4
    match i, hi with
    | 0, _ => exact ⟨_, _, _, _, e1⟩
    | 1, _ => exact ⟨_, _, _, _, e2⟩
    | 2, _ => exact ⟨_, _, _, _, e3⟩
    | 3, _ => exact ⟨_, _, _, _, e4⟩
  have cx : ∀ i < 4, (∃ a, (s.vecs (p + i)).x = some a) ∧ (∃ a, (s.vecs (p + i)).y = some a) ∧
      (∃ a, (s.vecs (p + i)).z = some a) ∧ ∃ a, (s.vecs (p + i)).w = some a := by
    intro i hi
    obtain ⟨x, y, z, w, e⟩ := hs i hi
    rw [e]; exact ⟨⟨_, rfl⟩, ⟨_, rfl⟩, ⟨_, rfl⟩, ⟨_, rfl⟩⟩
  have p0 := e2 0 (by omega)
  have q0 := e1 0 (by omega)
  have c0 := cx 0 (by omega)
  have n0 := hn 0 (by omega)
  simp only [Nat.add_zero] at p0 q0 c0 n0
  unfold equalTransform equalMat equal
  rw [p0, q0, e1 1 (by omega), e1 2 (by omega), e1 3 (by omega), e2 1 (by omega), e2 2 (by omega), e2 3 (by omega)]
  have c1 := cx 1 (by omega)
  have c2 := cx 2 (by omega)
  have c3 := cx 3 (by omega)
  have n1 := hn 1 (by omega)
  have n2 := hn 2 (by omega)
  have n3 := hn 3 (by omega)
  rw [eqCell_refl c0.1 n0.1, eqCell_refl c1.1 n1.1, eqCell_refl c2.1 n2.1, eqCell_refl c0.2.1 n0.2.1, eqCell_refl c1.2.1 n1.2.1,
    eqCell_refl c2.2.1 n2.2.1, eqCell_refl c0.2.2.1 n0.2.2.1, eqCell_refl c1.2.2.1 n1.2.2.1, eqCell_refl c2.2.2.1 n2.2.2.1,
    eqCell_refl c3.2.2.2 n3.2.2.2, eqCell_refl c3.2.2.1 n3.2.2.1, eqCell_refl c3.2.1 n3.2.1, eqCell_refl c3.1 n3.1]

/-! ### The hypotheses are met -/

/-- Integers, with `float` those divisible by ten, and 7 a number unequal to itself. -/
instance : Dbl Int where
  zero := 0
  eqb a b := decide (a = b ∧ a ≠ 7)
  ltb a b := decide (a < b)

instance : Flt Int Nat where
  toFloat a := (a / 10).toNat
  toDouble b := 10 * (b : Int)

/-- A transform is built, its origin moved; another is built by an expression; both are stored and loaded. -/
def exProg : List (Op Int Nat) :=
  [.make 0 1 0 0, .make 1 0 1 0, .make 2 0 0 1, .declare 3, .make 3 23 40 55, .update 3 [3] (fun c l => ⟨c.x + l.length, c.y, c.z⟩),
   .expr 4 [0] (fun l => l.headD ⟨0, 0, 0⟩), .copy 5 1, .copy 6 2, .expr 7 [3] (fun l => l.headD ⟨0, 0, 0⟩), .setMax 7 3,
   .storeFloat 3 9, .loadFloat 12 9]

example : (∃ s, run exProg .init = some s ∧ equalTransform s 0 4 = some true ∧ s.vecs 12 = ⟨some 20, some 40, some 50, some 0⟩ ∧
      (∀ i < 4, (s.vecs (0 + i)).noNaN) ∧
      (run (storeTransform 0 20 ++ [.setX 4 5] ++ loadTransform 8 20) s).isSome = true) ∧
    (∀ op ∈ exProg, op.plain) ∧ (∀ i < 4, whole exProg (0 + i) = true ∧ whole exProg (4 + i) = true) ∧
    whole exProg 12 = true ∧ Flt.toDouble (Flt.toFloat (Dbl.zero : Int) : Nat) = (Dbl.zero : Int) ∧
    Dbl.eqb (Dbl.zero : Int) Dbl.zero = true ∧ (∀ b : Nat, Flt.toFloat (Flt.toDouble b : Int) = b) ∧
    Dbl.eqb (Dbl.zero : Int) 3 = false := by
  refine ⟨⟨_, rfl, by decide, by decide, ?_, by decide⟩, by simp [exProg, Op.plain], by decide, by decide, by decide, by decide, ?_,
    by decide⟩
  · intro i hi
    match i, hi with
    | 0, _ => refine ⟨?_, ?_, ?_, ?_⟩ <;> intro a ha <;> cases ha <;> decide
    | 1, _ => refine ⟨?_, ?_, ?_, ?_⟩ <;> intro a ha <;> cases ha <;> decide
    | 2, _ => refine ⟨?_, ?_, ?_, ?_⟩ <;> intro a ha <;> cases ha <;> decide
    | 3, _ => refine ⟨?_, ?_, ?_, ?_⟩ <;> intro a ha <;> cases ha <;> decide
  · intro b
    show ((10 * (b : Int)) / 10).toNat = b
    omega

end Tf2.Cells
