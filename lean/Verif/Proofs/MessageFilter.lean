import Verif.Spec.MessageFilter
import Verif.Proofs.RequestInv

/-!
# Message filter: accounting lemmas
-/
namespace Tf2

variable {X : Type}

theorem disposed_append (a b : List FEv) : disposed (a ++ b) = disposed a ++ disposed b :=
  List.filterMap_append ..

@[simp] theorem disposed_nil : disposed [] = [] := rfl
@[simp] theorem disposed_received (i : Nat) (f : Name) (t : Time) (r : List FEv) :
    disposed (.received i f t :: r) = disposed r := rfl
@[simp] theorem disposed_ignored (i : Nat) (r : List FEv) : disposed (.ignored i :: r) = i :: disposed r := rfl
@[simp] theorem disposed_decided (i : Nat) (f : Option Reason) (r : List FEv) :
    disposed (.decided i f :: r) = disposed r := rfl
@[simp] theorem disposed_signalled (i : Nat) (f : Option Reason) (r : List FEv) :
    disposed (.signalled i f :: r) = i :: disposed r := rfl
@[simp] theorem disposed_discarded (i : Nat) (r : List FEv) : disposed (.discarded i :: r) = i :: disposed r := rfl
@[simp] theorem disposed_addThrew (i : Nat) (r : List FEv) : disposed (.addThrew i :: r) = i :: disposed r := rfl
@[simp] theorem disposed_callbackThrew (r : List FEv) : disposed (.callbackThrew :: r) = disposed r := rfl
@[simp] theorem disposed_undefined (r : List FEv) : disposed (.undefined :: r) = disposed r := rfl

/-- How often a message is held. -/
def Filt.held (s : Filt X) (id : Nat) : Nat :=
  s.beingAdded.count id + s.queued.count id + s.waiting.count id

/-- A step that issues no new message. -/
structure Same (s : Filt X) (r : Filt X × List FEv) : Prop where
  next : r.1.next = s.next
  held : ∀ id, r.1.held id + (disposed r.2).count id = s.held id

theorem Same.count {s : Filt X} {r : Filt X × List FEv} (h : Same s r) (evs : List FEv) (id : Nat) :
    r.1.held id + (disposed (evs ++ r.2)).count id = s.held id + (disposed evs).count id := by
  have := h.held id
  rw [disposed_append, List.count_append]; omega

theorem Filt.register_parts (s : Filt X) :
    s.register.next = s.next ∧ s.register.adding = s.adding ∧ s.register.msgs = s.msgs ∧
      s.register.cbq = s.cbq ∧ s.register.count = s.count ∧ s.register.qsize = s.qsize := by
  unfold Filt.register
  split <;> exact ⟨rfl, rfl, rfl, rfl, rfl, rfl⟩

theorem Filt.cancelAll_parts (hs : List Nat) : ∀ (s : Filt X),
    (s.cancelAll hs).next = s.next ∧ (s.cancelAll hs).adding = s.adding ∧ (s.cancelAll hs).msgs = s.msgs ∧
      (s.cancelAll hs).cbq = s.cbq ∧ (s.cancelAll hs).count = s.count ∧ (s.cancelAll hs).qsize = s.qsize ∧
      (s.cancelAll hs).rb.buf = s.rb.buf ∧ (s.cancelAll hs).rb.inflight = s.rb.inflight ∧
      (s.cancelAll hs).rb.cbs = s.rb.cbs ∧ (s.cancelAll hs).targets = s.targets ∧
      (s.cancelAll hs).tol = s.tol ∧ (s.cancelAll hs).expected = s.expected := by
  induction hs with
  | nil => intro s; exact ⟨rfl, rfl, rfl, rfl, rfl, rfl, rfl, rfl, rfl, rfl, rfl, rfl⟩
  | cons h r ih =>
    intro s
    obtain ⟨h1, h2, h3, h4, h5, h6, h7, h8, h9, h10, h11, h12⟩ := ih (s.buf (s.rb.cancelRequest h))
    exact ⟨h1, h2, h3, h4, h5, h6, h7, h8, h9, h10, h11, h12⟩

theorem Filt.deliver_parts (s : Filt X) (o : Out) :
    (s.deliver o).1.next = s.next ∧ (s.deliver o).1.adding = s.adding ∧ (s.deliver o).1.msgs = s.msgs ∧
      (s.deliver o).1.count = s.count ∧ (s.deliver o).1.qsize = s.qsize ∧ (s.deliver o).1.rb = s.rb ∧
      (s.deliver o).1.targets = s.targets ∧ (s.deliver o).1.tol = s.tol ∧ (s.deliver o).1.expected = s.expected := by
  unfold Filt.deliver
  split <;> exact ⟨rfl, rfl, rfl, rfl, rfl, rfl, rfl, rfl, rfl⟩

theorem Filt.deliver_held (s : Filt X) (o : Out) (id : Nat) :
    (s.deliver o).1.held id + (disposed (s.deliver o).2).count id = s.held id + [o.id].count id := by
  unfold Filt.deliver Filt.held Filt.waiting Filt.beingAdded Filt.queued
  split
  · next q hq =>
    simp [hq, List.count_append]; omega
  · next hq => simp [hq]

theorem eraseIdx_count {α : Type} (f : α → Nat) {l : List α} {i : Nat} {a : α} (h : l[i]? = some a) (id : Nat) :
    ((l.eraseIdx i).map f).count id + [f a].count id = (l.map f).count id := by
  have := ((eraseIdx_perm h).map f).count_eq id
  rw [List.map_cons, List.count_cons] at this
  simp only [List.count_cons, List.count_nil]
  omega

theorem set_map {α : Type} (f : α → Nat) {l : List α} {i : Nat} {a b : α} (h : l[i]? = some a) (hf : f b = f a) :
    (l.set i b).map f = l.map f := by
  rw [List.map_set, hf]
  have h' : (l.map f)[i]? = some (f a) := by simp [h]
  obtain ⟨hi, he⟩ := List.getElem?_eq_some_iff.1 h'
  rw [← he, List.set_getElem_self]

theorem Filt.same_clear (s : Filt X) : Same s s.clear := by
  obtain ⟨h1, h2, h3, h4, h5, h6⟩ := (s.buf (s.rb.removeCallback s.cb)).register_parts
  refine ⟨h1, ?_⟩
  intro id
  have e : ∀ l : List Nat, disposed (l.map FEv.discarded) = l := by
    intro l; induction l with
    | nil => rfl
    | cons a r ih => simp [ih]
  have e1 : disposed (s.msgs.map (fun i => FEv.discarded i.msg.id)) = s.queued := by
    have := e (s.msgs.map (fun i => i.msg.id)); rw [List.map_map] at this; exact this
  have e2 : ∀ q : List Out, disposed (q.map (fun o => FEv.discarded o.id)) = q.map Out.id := by
    intro q; have := e (q.map Out.id); rw [List.map_map] at this; exact this
  unfold Filt.clear
  simp only [disposed_append, e1, List.count_append]
  unfold Filt.held Filt.waiting Filt.beingAdded
  simp only [h2]
  cases hq : s.cbq with
  | none => simp [Filt.queued, Filt.buf]
  | some q => simp [Filt.queued, Filt.buf, e2]; omega

theorem Filt.same_runQueued (s : Filt X) : Same s s.runQueued := by
  unfold Filt.runQueued
  split
  · next o r hq =>
    refine ⟨rfl, fun id => ?_⟩
    simp [Filt.held, Filt.waiting, Filt.beingAdded, Filt.queued, hq, List.count_cons]
    omega
  · exact ⟨rfl, fun id => by simp⟩

theorem Filt.same_deliver_erase {s s1 : Filt X} {o : Out} (hn : s1.next = s.next)
    (hh : ∀ id, s1.held id + [o.id].count id = s.held id) : Same s (s1.deliver o) :=
  ⟨by rw [(s1.deliver_parts o).1, hn], fun id => by rw [s1.deliver_held o id, hh id]⟩

/-- The counter agrees with the list. -/
def Counted (s : Filt X) : Prop := s.count = s.msgs.length

/-- `addFinish` disposes of its message, or queues it. -/
theorem Filt.same_addFinish {s s0 : Filt X} {a : Adding} (hn : s0.next = s.next)
    (hh : ∀ id, s0.held id + [a.msg.id].count id = s.held id) (hc : Counted s0) :
    Same s (s0.addFinish a) ∧ Counted (s0.addFinish a).1 ∧ FEv.undefined ∉ (s0.addFinish a).2 := by
  unfold Filt.addFinish
  by_cases h1 : a.success = s0.expected
  · rw [if_pos h1]
    refine ⟨Filt.same_deliver_erase hn hh, ?_, ?_⟩
    · unfold Counted; rw [(Filt.deliver_parts _ _).2.2.2.1, (Filt.deliver_parts _ _).2.2.1]; exact hc
    · unfold Filt.deliver; split <;> simp
  · rw [if_neg h1]
    by_cases h2 : s0.qsize ≠ 0 ∧ s0.count + 1 > s0.qsize
    · simp only
      rw [if_pos h2]
      cases hm : s0.msgs with
      | nil => exfalso; unfold Counted at hc; rw [hm] at hc; simp at hc; omega
      | cons f r =>
        simp only
        generalize hs1 : s0.cancelAll f.handles = s1
        obtain ⟨p1, p2, p3, p4, p5, -⟩ := Filt.cancelAll_parts f.handles s0
        rw [hs1] at p1 p2 p3 p4 p5
        have hd := s1.deliver_held ⟨f.msg.id, some .unknown⟩
        obtain ⟨q1, q2, q3, -⟩ := s1.deliver_parts ⟨f.msg.id, some .unknown⟩
        refine ⟨⟨?_, ?_⟩, ?_, ?_⟩
        · exact q1.trans (p1.trans hn)
        · intro id
          have h3 := hd id
          have h4 := hh id
          simp only [Filt.held, Filt.beingAdded, Filt.queued, Filt.waiting, q2, q3, p2, p3, p4, hm, List.map_append, List.map_cons, List.map_nil,
            List.count_append, List.count_cons, List.count_nil] at *
          omega
        · unfold Counted at hc ⊢
          simp only [List.length_append, List.length_cons, List.length_nil]
          rw [hm] at hc; simp at hc; omega
        · unfold Filt.deliver; split <;> simp
    · simp only
      rw [if_neg h2]
      refine ⟨⟨hn, ?_⟩, ?_, by simp⟩
      · intro id
        have := hh id
        simp only [Filt.held, Filt.beingAdded, Filt.queued, Filt.waiting, List.map_append, List.map_cons,
          List.map_nil, List.count_append, disposed_nil, List.count_nil] at *
        omega
      · unfold Counted at *; simp [hc]

theorem Filt.held_buf (s : Filt X) (r : RBuf X × List REv) (id : Nat) : (s.buf r).held id = s.held id := rfl

theorem Filt.same_addAnswer [Rigid X] {D : Duration} {s : Filt X} {i : Nat} {a a' : Adding} {t src : Name} {tm : Time}
    (ha : s.adding[i]? = some a) (he : a'.msg = a.msg) (hc : Counted s) {r : RBuf X × List REv}
    (ho : AddOut D s.rb s.cb t src tm r.1 r.2) :
    Same s (s.addAnswer i a a' r) ∧ Counted (s.addAnswer i a a' r).1 ∧ FEv.undefined ∉ (s.addAnswer i a a' r).2 := by
  have hcount := eraseIdx_count (fun a : Adding => a.msg.id) ha
  have hset : ∀ b : Adding, b.msg = a.msg →
      ((s.adding.set i b).map (fun a : Adding => a.msg.id)) = s.adding.map (fun a : Adding => a.msg.id) :=
    fun b hb => set_map _ ha (by rw [hb])
  obtain ⟨rb, evs⟩ := r
  cases ho
  all_goals simp only [Filt.addAnswer]
  case same | now =>
    refine ⟨⟨rfl, fun id => ?_⟩, hc, by simp⟩
    simp only [Filt.held, Filt.beingAdded, Filt.queued, Filt.waiting, Filt.buf, disposed_nil, List.count_nil]
    rw [hset { a' with success := a.success + 1 } he, Nat.add_zero]
  case never =>
    refine ⟨Filt.same_deliver_erase rfl ?_, ?_, ?_⟩
    · intro id
      have := hcount id
      simp only [Filt.held, Filt.beingAdded, Filt.queued, Filt.waiting, Filt.buf] at *
      omega
    · unfold Counted; rw [(Filt.deliver_parts _ _).2.2.2.1, (Filt.deliver_parts _ _).2.2.1]; exact hc
    · unfold Filt.deliver; split <;> simp
  case threw =>
    refine ⟨⟨rfl, fun id => ?_⟩, hc, by simp⟩
    have := hcount id
    simp only [Filt.held, Filt.beingAdded, Filt.queued, Filt.waiting, Filt.buf, disposed_addThrew, disposed_nil] at *
    omega
  case pending =>
    refine ⟨⟨rfl, fun id => ?_⟩, hc, by simp⟩
    simp only [Filt.held, Filt.beingAdded, Filt.queued, Filt.waiting, Filt.buf, disposed_nil, List.count_nil]
    rw [hset { a' with handles := a.handles ++ [_] } he, Nat.add_zero]


/-- Taking a call of `add` out of those in progress. -/
theorem Filt.held_erase {s : Filt X} {i : Nat} {a : Adding} (ha : s.adding[i]? = some a) (id : Nat) :
    ({ s with adding := s.adding.eraseIdx i } : Filt X).held id + [a.msg.id].count id = s.held id := by
  have := eraseIdx_count (fun a : Adding => a.msg.id) ha id
  simp only [Filt.held, Filt.beingAdded, Filt.queued, Filt.waiting] at *
  omega

theorem Filt.same_addNext [Rigid X] {D : Duration} {s : Filt X} (i : Nat) (hw : WF D s.rb.buf) (hc : Counted s) :
    Same s (s.addNext i) ∧ Counted (s.addNext i).1 ∧ FEv.undefined ∉ (s.addNext i).2 := by
  unfold Filt.addNext
  cases ha : s.adding[i]? with
  | none => exact ⟨⟨rfl, fun id => by simp⟩, hc, by simp⟩
  | some a =>
    simp only
    cases hr : a.rest with
    | nil => exact Filt.same_addFinish (s0 := { s with adding := s.adding.eraseIdx i }) rfl (Filt.held_erase ha) hc
    | cons t ts =>
      simp only
      split
      · split
        · refine ⟨⟨rfl, fun id => ?_⟩, hc, by simp⟩
          have := Filt.held_erase ha id
          simpa using this
        · exact Filt.same_addAnswer (a' := { a with rest := ts, second := false }) ha rfl hc (addRequest_out hw ..)
      · exact Filt.same_addAnswer ha (by split <;> rfl) hc (addRequest_out hw ..)

theorem canTransform_total [Rigid X] {D : Duration} {b : Buf X} (hw : WF D b) (t src : Name) (tm : Time) :
    ∃ v, b.canTransform t src tm = .ok v := by
  unfold Buf.canTransform
  split
  · exact ⟨true, rfl⟩
  · split
    · exact ⟨false, rfl⟩
    · split
      · exact ⟨false, rfl⟩
      · split
        · exact ⟨false, rfl⟩
        · exact canNoLock_ne_ub hw ..

/-- What the re-check says. -/
theorem recheck_facts [Rigid X] {D : Duration} {b : Buf X} (hw : WF D b) (tol : Duration) (frame : Name)
    (stamp : Time) (l : List Name) :
    Filt.recheck b tol frame stamp l ≠ .ub ∧
      (Filt.recheck b tol frame stamp l = .ok true → AllReady b l tol frame stamp) ∧
      (Filt.recheck b tol frame stamp l = .ok false → ¬ AllReady b l tol frame stamp) ∧
      (∀ e, Filt.recheck b tol frame stamp l = .throw e → tol ≠ 0 ∧ timeAdd stamp tol = none) := by
  induction l with
  | nil => simp [Filt.recheck, AllReady]
  | cons t ts ih =>
    obtain ⟨i1, i2, i3, i4⟩ := ih
    unfold Filt.recheck
    obtain ⟨v, hv⟩ := canTransform_total hw t frame stamp
    rw [hv]
    cases v with
    | false =>
      simp only
      refine ⟨by simp, by simp, fun _ h => ?_, by simp⟩
      have := (h t (List.mem_cons_self ..)).1
      rw [hv] at this; cases this
    | true =>
      simp only
      by_cases ht : tol = 0
      · rw [if_pos ht]
        refine ⟨i1, fun h x hx => ?_, fun h h' => i3 h (fun x hx => h' x (List.mem_cons_of_mem _ hx)), i4⟩
        rcases List.mem_cons.1 hx with rfl | hx
        · exact ⟨hv, fun h => absurd ht h⟩
        · exact i2 h x hx
      · rw [if_neg ht]
        cases ha : timeAdd stamp tol with
        | none => simp [ht]
        | some t2 =>
          simp only
          obtain ⟨w, hw2⟩ := canTransform_total hw t frame t2
          rw [hw2]
          cases w with
          | false =>
            simp only
            refine ⟨by simp, by simp, fun _ h => ?_, by simp⟩
            obtain ⟨t3, e, h3⟩ := (h t (List.mem_cons_self ..)).2 ht
            rw [ha] at e; cases e
            rw [hw2] at h3; cases h3
          | true =>
            simp only
            refine ⟨i1, fun h x hx => ?_, fun h h' => i3 h (fun x hx => h' x (List.mem_cons_of_mem _ hx)), ?_⟩
            · rcases List.mem_cons.1 hx with rfl | hx
              · exact ⟨hv, fun _ => ⟨t2, ha, hw2⟩⟩
              · exact i2 h x hx
            · intro e he; have := i4 e he; rw [ha] at this; cases this.2

/-- What `transformable` can do. -/
inductive TOut (s : Filt X) (h : Nat) (av : Bool) : Filt X × List FEv → Prop
  | notFound (hn : ∀ m ∈ s.msgs, h ∉ m.handles) : TOut s h av (s, [])
  | wait (i : Nat) (m : MInfo) (hm : s.msgs[i]? = some m) (hh : h ∈ m.handles) (hlt : m.success + 1 < s.expected) :
      TOut s h av ({ s with msgs := s.msgs.set i { m with success := m.success + 1 } }, [])
  | threw (i : Nat) (m : MInfo) (hm : s.msgs[i]? = some m) (hh : h ∈ m.handles) (hlt : ¬ m.success + 1 < s.expected)
      (ht : s.tol ≠ 0 ∧ timeAdd m.msg.stamp s.tol = none) :
      TOut s h av ({ s with msgs := s.msgs.set i { m with success := m.success + 1 } }, [.callbackThrew])
  | decided (i : Nat) (m : MInfo) (hm : s.msgs[i]? = some m) (hh : h ∈ m.handles)
      (hlt : ¬ m.success + 1 < s.expected) (v : Bool)
      (hv : v = true ↔ av = true ∧ AllReady s.rb.buf s.targets s.tol m.msg.frame m.msg.stamp) :
      TOut s h av (({ s with msgs := s.msgs.eraseIdx i, count := s.count - 1 } : Filt X).deliver
        ⟨m.msg.id, if v then none else some .unknown⟩)

theorem Filt.transformable_out [Rigid X] {D : Duration} (s : Filt X) (h : Nat) (av : Bool) (hw : WF D s.rb.buf) :
    TOut s h av (s.transformable h av) := by
  unfold Filt.transformable
  cases hi : s.msgs.findIdx? (fun m => decide (h ∈ m.handles)) with
  | none =>
    refine .notFound ?_
    have := List.findIdx?_eq_none_iff.1 hi
    intro m hm; simpa using this m hm
  | some i =>
    simp only
    obtain ⟨hlt, hp, -⟩ := List.findIdx?_eq_some_iff_getElem.1 hi
    have hm : s.msgs[i]? = some s.msgs[i] := List.getElem?_eq_getElem hlt
    generalize s.msgs[i] = m0 at hp hm
    have hh : h ∈ m0.handles := by simpa using hp
    rw [hm]
    simp only
    split
    · next h1 => exact .wait i m0 hm hh h1
    · next h1 =>
      obtain ⟨f1, f2, f3, f4⟩ := recheck_facts hw s.tol m0.msg.frame m0.msg.stamp s.targets
      cases av with
      | false =>
        simp only [Bool.false_eq_true, if_false]
        exact .decided i m0 hm hh h1 false (by simp)
      | true =>
        simp only [if_true]
        cases hcan : Filt.recheck s.rb.buf s.tol m0.msg.frame m0.msg.stamp s.targets with
        | throw e => exact .threw i m0 hm hh h1 (f4 e hcan)
        | ub => exact absurd hcan f1
        | ok v =>
          refine .decided i m0 hm hh h1 v ?_
          cases v with
          | true => simpa using f2 hcan
          | false => simpa using f3 hcan

theorem Filt.same_transformable [Rigid X] {D : Duration} {s : Filt X} (h : Nat) (av : Bool) (hw : WF D s.rb.buf)
    (hc : Counted s) : Same s (s.transformable h av) ∧ Counted (s.transformable h av).1 ∧
      FEv.undefined ∉ (s.transformable h av).2 ∧ (s.transformable h av).1.rb = s.rb := by
  have ho := s.transformable_out h av hw
  generalize s.transformable h av = r at ho ⊢
  have hs1 : ∀ (i : Nat) (m0 : MInfo) (e : List FEv), s.msgs[i]? = some m0 → disposed e = [] → FEv.undefined ∉ e →
      Same s (({ s with msgs := s.msgs.set i { m0 with success := m0.success + 1 } } : Filt X), e) ∧
      Counted ({ s with msgs := s.msgs.set i { m0 with success := m0.success + 1 } } : Filt X) ∧
      FEv.undefined ∉ e := by
    intro i m0 e hm he hu
    have hset : (s.msgs.set i { m0 with success := m0.success + 1 }).map (fun m => m.msg.id) =
        s.msgs.map (fun m => m.msg.id) := set_map _ hm rfl
    refine ⟨⟨rfl, fun id => ?_⟩, ?_, hu⟩
    · simp only [he, List.count_nil, Nat.add_zero, Filt.held, Filt.beingAdded, Filt.queued, Filt.waiting, hset]
    · unfold Counted at *; simpa using hc
  cases ho with
  | notFound _ => exact ⟨⟨rfl, fun id => by simp⟩, hc, by simp, rfl⟩
  | wait i m0 hm _ _ => obtain ⟨a, b, c⟩ := hs1 i m0 [] hm rfl (by simp); exact ⟨a, b, c, rfl⟩
  | threw i m0 hm _ _ _ => obtain ⟨a, b, c⟩ := hs1 i m0 [.callbackThrew] hm rfl (by simp); exact ⟨a, b, c, rfl⟩
  | decided i m0 hm _ _ v hv =>
    obtain ⟨hlt, -⟩ := List.getElem?_eq_some_iff.1 hm
    have hlen : (s.msgs.eraseIdx i).length = s.msgs.length - 1 := List.length_eraseIdx_of_lt hlt
    refine ⟨Filt.same_deliver_erase rfl ?_, ?_, ?_, ?_⟩
    · intro id
      have := eraseIdx_count (fun m : MInfo => m.msg.id) hm id
      simp only [Filt.held, Filt.beingAdded, Filt.queued, Filt.waiting] at *
      omega
    · unfold Counted; rw [(Filt.deliver_parts _ _).2.2.2.1, (Filt.deliver_parts _ _).2.2.1]
      simp only [hlen]; unfold Counted at hc; omega
    · unfold Filt.deliver; split <;> simp
    · rw [(Filt.deliver_parts _ _).2.2.2.2.2.1]

/-! ### Steps of the buffer -/

theorem test_buf (s : RBuf X) : s.test.1.buf = s.buf ∧ s.test.1.cbs = s.cbs ∧ s.test.1.cbCounter = s.cbCounter := by
  unfold RBuf.test
  split <;> exact ⟨rfl, rfl, rfl⟩

theorem rstep_reach [Rigid X] {D : Duration} {s : RBuf X} (hr : Reachable D s.buf) (op : ROp X) :
    Reachable D (s.step op).1.buf := by
  cases op with
  | set m a st =>
    have h := hr.step (.set m a st)
    unfold RBuf.step RBuf.setTransform
    unfold Buf.step at h
    simp only at h ⊢
    generalize s.buf.setTransform m a st = r at h
    obtain ⟨b, r⟩ := r
    cases r <;> simp only <;> first | exact h | (rw [(test_buf _).1]; exact h)
  | clear => exact hr.step .clear
  | addCallback => unfold RBuf.step RBuf.addCallback; simp only; split <;> exact hr
  | removeCallback cb => exact hr
  | addRequest cb t src time =>
    have h := addRequest_out hr.wf cb t src time
    unfold RBuf.step
    simp only
    generalize s.addRequest cb t src time = r at h ⊢
    obtain ⟨rb, evs⟩ := r
    cases h <;> exact hr
  | cancelRequest h => exact hr
  | invoke k => unfold RBuf.step RBuf.invoke; simp only; split <;> exact hr

theorem rrun_reach [Rigid X] {D : Duration} (ops : List (ROp X)) : ∀ {s : RBuf X} {evs : List REv},
    Reachable D s.buf → Reachable D (RBuf.run ops s evs).1.buf := by
  induction ops with
  | nil => intro s evs h; exact h
  | cons op r ih => intro s evs h; exact ih (rstep_reach h op)

/-- Every scheduled call goes to a registered callback. -/
def CallsOK (s : RBuf X) : Prop := ∀ c ∈ s.inflight, c.cb ∈ s.cbs

theorem testIter_calls (b : Buf X) (cbs : List Nat) {s t : TestState} (h : testIter b cbs s = .done t)
    (hs : ∀ c ∈ s.calls, c.cb ∈ cbs) : ∀ c ∈ t.calls, c.cb ∈ cbs := by
  unfold testIter at h
  cases h0 : s.mem[s.i]? with
  | none => rw [h0] at h; cases h
  | some r0 =>
    rw [h0] at h
    simp only at h
    generalize r0.resolve b = r at h
    have key : ∀ w : Bool, (match (s.mem.set s.i r)[s.size - 1]? with
        | none => TestRes.ub
        | some back =>
          let mem' := if s.size > 1 then (s.mem.set s.i r).set s.i back else (s.mem.set s.i r)
          if r.cb ∈ cbs then
            match b.lookupFrameString r.tid, b.lookupFrameString r.sid with
            | .ok tn, .ok sn =>
              let call : Call := { cb := r.cb, handle := r.handle, target := tn, source := sn,
                                   timeSlot := s.i, resultVar := s.locals.length }
              .done { mem := mem', size := s.size - 1, i := s.i, calls := s.calls ++ [call]
                      locals := s.locals ++ [none]
                      evs := s.evs ++ [REv.extracted r.handle w] }
            | .throw e, _ => .threw { s with mem := s.mem.set s.i r } e
            | _, .throw e => .threw { s with mem := s.mem.set s.i r } e
            | _, _ => .ub
          else
            .done { mem := mem', size := s.size - 1, i := s.i, calls := s.calls
                    locals := s.locals ++ [none], evs := s.evs ++ [REv.dropped r.handle] }) = .done t →
        ∀ c ∈ t.calls, c.cb ∈ cbs := by
      intro w hk
      cases hb : (s.mem.set s.i r)[s.size - 1]? with
      | none => rw [hb] at hk; cases hk
      | some back =>
        rw [hb] at hk
        simp only at hk
        by_cases hc : r.cb ∈ cbs
        · rw [if_pos hc] at hk
          cases h1 : b.lookupFrameString r.tid <;> cases h2 : b.lookupFrameString r.sid <;> rw [h1, h2] at hk <;>
            simp only at hk <;> first | cases hk | skip
          intro c hm
          rcases List.mem_append.1 hm with hm | hm
          · exact hs c hm
          · have : c = _ := List.mem_singleton.1 hm
            subst this; exact hc
        · rw [if_neg hc] at hk
          injection hk with hk; subst hk; exact hs
    cases hv : b.verdict r.tid r.sid r.time <;> rw [hv] at h <;> simp only at h
    · injection h with h; subst h; exact hs
    · exact key _ h
    · exact key _ h
    · cases h
    · cases h

theorem testLoop_calls (b : Buf X) (cbs : List Nat) : ∀ (k : Nat) (s t : TestState), testLoop b cbs k s = .done t →
    (∀ c ∈ s.calls, c.cb ∈ cbs) → ∀ c ∈ t.calls, c.cb ∈ cbs := by
  intro k
  induction k with
  | zero => intro s t h hs; simp only [testLoop] at h; injection h with h; subst h; exact hs
  | succ k ih =>
    intro s t h hs
    simp only [testLoop] at h
    split at h
    · cases hr : testIter b cbs s <;> rw [hr] at h <;> simp only at h
      · exact ih _ t h (testIter_calls b cbs hr hs)
      · cases h
      · cases h
    · injection h with h; subst h; exact hs

theorem test_callsOK {s : RBuf X} (h : CallsOK s) : CallsOK s.test.1 := by
  unfold RBuf.test
  split
  · next t ht =>
    intro c hc
    rcases List.mem_append.1 hc with hc | hc
    · exact h c hc
    · exact testLoop_calls s.buf s.cbs _ _ _ ht (by simp) c hc
  · exact h
  · exact h

theorem rstep_callsOK [Rigid X] {s : RBuf X} (h : CallsOK s) (op : ROp X) (hop : ∀ c, op ≠ .removeCallback c) :
    CallsOK (s.step op).1 := by
  cases op with
  | set m a st =>
    unfold RBuf.step RBuf.setTransform
    simp only
    split
    · next b _ => exact test_callsOK (s := { s with buf := b }) h
    · exact h
    · exact h
  | clear => exact h
  | addCallback =>
    unfold RBuf.step RBuf.addCallback; simp only; split
    · exact h
    · intro c hc; exact List.mem_append_left _ (h c hc)
  | removeCallback cb => exact absurd rfl (hop cb)
  | addRequest cb t src time =>
    unfold RBuf.step RBuf.addRequest
    simp only
    repeat' split
    all_goals exact h
  | cancelRequest _ => exact h
  | invoke k =>
    unfold RBuf.step RBuf.invoke; simp only; split
    · exact h
    · intro c hc; exact h c (List.mem_of_mem_eraseIdx hc)

end Tf2

namespace Tf2

variable {X : Type}

/-! ### The invariant -/

/-- The invariant of a program with a filter. -/
structure FInv [Rigid X] (D : Duration) (s : Filt X) (evs : List FEv) : Prop where
  reach : Reachable D s.rb.buf
  counted : Counted s
  acct : ∀ id, s.held id + (disposed evs).count id = (List.range s.next).count id

theorem Filt.addFinish_rb (s : Filt X) (a : Adding) : (s.addFinish a).1.rb.buf = s.rb.buf ∧
    (s.addFinish a).1.rb.inflight = s.rb.inflight ∧ (s.addFinish a).1.rb.cbs = s.rb.cbs := by
  unfold Filt.addFinish
  split
  · rw [(Filt.deliver_parts _ _).2.2.2.2.2.1]; exact ⟨rfl, rfl, rfl⟩
  · simp only
    split
    · split
      · exact ⟨rfl, rfl, rfl⟩
      · next f r _ =>
        simp only [(Filt.deliver_parts _ _).2.2.2.2.2.1]
        obtain ⟨_, _, _, _, _, _, h7, h8, h9, _⟩ := Filt.cancelAll_parts f.handles s
        exact ⟨h7, h8, h9⟩
    · exact ⟨rfl, rfl, rfl⟩

theorem Filt.addAnswer_rb (s : Filt X) (i : Nat) (a a' : Adding) (r : RBuf X × List REv) :
    (s.addAnswer i a a' r).1.rb = r.1 := by
  unfold Filt.addAnswer
  simp only
  split
  · rw [(Filt.deliver_parts _ _).2.2.2.2.2.1]; rfl
  all_goals rfl

theorem Filt.addNext_rb [Rigid X] {D : Duration} (s : Filt X) (i : Nat) (hw : WF D s.rb.buf) :
    (s.addNext i).1.rb.buf = s.rb.buf ∧ (s.addNext i).1.rb.inflight = s.rb.inflight ∧
      (s.addNext i).1.rb.cbs = s.rb.cbs := by
  have hadd : ∀ t src tm, (s.rb.addRequest s.cb t src tm).1.buf = s.rb.buf ∧
      (s.rb.addRequest s.cb t src tm).1.inflight = s.rb.inflight ∧
      (s.rb.addRequest s.cb t src tm).1.cbs = s.rb.cbs := by
    intro t src tm
    have h := addRequest_out hw s.cb t src tm
    generalize s.rb.addRequest s.cb t src tm = r at h ⊢
    obtain ⟨rb, evs⟩ := r
    cases h <;> exact ⟨rfl, rfl, rfl⟩
  unfold Filt.addNext
  split
  · exact ⟨rfl, rfl, rfl⟩
  · split
    · exact Filt.addFinish_rb ..
    · split
      · split
        · exact ⟨rfl, rfl, rfl⟩
        · rw [Filt.addAnswer_rb]; exact hadd ..
      · simp only [Filt.addAnswer_rb]; exact hadd ..

theorem Filt.register_rb (s : Filt X) : s.register.rb.buf = s.rb.buf := by
  unfold Filt.register RBuf.addCallback
  cases RBuf.nextCb s.rb.cbs (s.rb.cbs.length + 1) s.rb.cbCounter <;> rfl

theorem FInv.of_same [Rigid X] {D : Duration} {s : Filt X} {evs : List FEv} (h : FInv D s evs) {r : Filt X × List FEv}
    (hs : Same s r) (hc : Counted r.1) (hr : Reachable D r.1.rb.buf) : FInv D r.1 (evs ++ r.2) :=
  ⟨hr, hc, fun id => by rw [hs.count, h.acct, hs.next]⟩

theorem rinvoke_buf (s : RBuf X) (k : Nat) : (s.invoke k).1.buf = s.buf := by
  unfold RBuf.invoke; split <;> rfl

theorem FInv.step [Rigid X] {D : Duration} {s : Filt X} {evs : List FEv} (h : FInv D s evs) (op : FOp X) :
    FInv D (s.step op).1 (evs ++ (s.step op).2) ∧
      (FEv.undefined ∈ (s.step op).2 → ∃ k av, op = .invoke k av ∧ ∃ c hd, (s.rb.invoke k).2 = [.danglingInvoke c hd]) := by
  have same0 : ∀ s' : Filt X, s'.next = s.next → s'.adding = s.adding → s'.msgs = s.msgs → s'.cbq = s.cbq →
      s'.count = s.count → Reachable D s'.rb.buf → FInv D s' (evs ++ []) := by
    intro s' h1 h2 h3 h4 h5 h6
    refine h.of_same (r := (s', [])) ⟨h1, fun id => ?_⟩ ?_ h6
    · simp [Filt.held, Filt.beingAdded, Filt.queued, Filt.waiting, h2, h3, h4]
    · unfold Counted; rw [h5, h3]; exact h.counted
  cases op with
  | setTargets ts => exact ⟨same0 _ rfl rfl rfl rfl rfl h.reach, by simp [Filt.step]⟩
  | setTolerance tol => exact ⟨same0 _ rfl rfl rfl rfl rfl h.reach, by simp [Filt.step]⟩
  | setQueueSize n => exact ⟨same0 _ rfl rfl rfl rfl rfl h.reach, by simp [Filt.step]⟩
  | clear =>
    refine ⟨h.of_same (Filt.same_clear s) rfl ?_, ?_⟩
    · show Reachable D (s.buf (s.rb.removeCallback s.cb)).register.rb.buf
      rw [Filt.register_rb]; exact h.reach
    · intro hu
      simp only [Filt.step, Filt.clear] at hu
      rcases List.mem_append.1 hu with hu | hu
      · obtain ⟨_, _, e⟩ := List.mem_map.1 hu; cases e
      · split at hu
        · obtain ⟨_, _, e⟩ := List.mem_map.1 hu; cases e
        · cases hu
  | addStart f t =>
    have base : ∀ (s' : Filt X) (e : List FEv), s'.next = s.next + 1 → Counted s' → s'.rb = s.rb →
        (∀ id, s'.held id + (disposed e).count id = s.held id + [s.next].count id) → FInv D s' (evs ++ e) := by
      intro s' e h1 h2 h3 h4
      refine ⟨by rw [h3]; exact h.reach, h2, fun id => ?_⟩
      have a := h.acct id
      have b := h4 id
      rw [disposed_append, List.count_append, h1, List.range_succ, List.count_append]
      omega
    simp only [Filt.step, Filt.addStart]
    split
    · refine ⟨base _ _ rfl h.counted rfl (fun id => ?_), by simp⟩
      simp [Filt.held, Filt.beingAdded, Filt.queued, Filt.waiting]
    · split
      · refine ⟨base _ _ ?_ ?_ ?_ (fun id => ?_), ?_⟩
        · rw [(Filt.deliver_parts _ _).1]
        · unfold Counted; rw [(Filt.deliver_parts _ _).2.2.2.1, (Filt.deliver_parts _ _).2.2.1]; exact h.counted
        · rw [(Filt.deliver_parts _ _).2.2.2.2.2.1]
        · rw [disposed_received, Filt.deliver_held]; rfl
        · intro hu; unfold Filt.deliver at hu; split at hu <;> simp at hu
      · refine ⟨base _ _ rfl h.counted rfl (fun id => ?_), by simp⟩
        simp [Filt.held, Filt.beingAdded, Filt.queued, Filt.waiting, List.count_append]
        omega
  | addNext i =>
    obtain ⟨h1, h2, h3⟩ := Filt.same_addNext i h.reach.wf h.counted
    exact ⟨h.of_same h1 h2 (by rw [show (s.step (.addNext i)).1 = (s.addNext i).1 from rfl, (Filt.addNext_rb s i h.reach.wf).1]; exact h.reach), fun hu => absurd hu h3⟩
  | invoke k av =>
    have hb : ∀ r, Same s ((s.buf r), []) := fun r => ⟨rfl, fun id => by simp [Filt.held_buf]⟩
    have hc : ∀ r, Counted (s.buf r) := fun r => h.counted
    have hrb : Reachable D (s.buf (s.rb.invoke k)).rb.buf := by
      show Reachable D (s.rb.invoke k).1.buf
      rw [rinvoke_buf]; exact h.reach
    simp only [Filt.step, Filt.invoke]
    split
    · split
      · obtain ⟨h1, h2, h3, h4⟩ := Filt.same_transformable (s := s.buf (s.rb.invoke k)) (D := D) _ av hrb.wf (hc _)
        exact ⟨h.of_same ⟨h1.next, fun id => by rw [h1.held, Filt.held_buf]⟩ h2
          (by rw [h4]; exact hrb), fun hu => absurd hu h3⟩
      · exact ⟨h.of_same (hb _) (hc _) hrb, by simp⟩
    · next c hd heq =>
      exact ⟨h.of_same (r := (_, [.undefined])) ⟨rfl, fun id => by simp [Filt.held_buf]⟩ (hc _) hrb,
        fun _ => ⟨k, av, rfl, c, hd, heq⟩⟩
    · exact ⟨h.of_same (hb _) (hc _) hrb, by simp⟩
  | runQueued =>
    refine ⟨h.of_same (Filt.same_runQueued s) ?_ ?_, ?_⟩
    · unfold Filt.step Filt.runQueued; simp only; split <;> exact h.counted
    · unfold Filt.step Filt.runQueued; simp only; split <;> exact h.reach
    · intro hu; simp only [Filt.step, Filt.runQueued] at hu; split at hu <;> simp at hu
  | buffer op =>
    cases op with
    | invoke k => exact ⟨same0 _ rfl rfl rfl rfl rfl h.reach, by simp [Filt.step]⟩
    | _ => exact ⟨same0 _ rfl rfl rfl rfl rfl (rstep_reach h.reach _), by simp [Filt.step]⟩

theorem FInv.run [Rigid X] {D : Duration} (ops : List (FOp X)) : ∀ {s : Filt X} {evs : List FEv}, FInv D s evs →
    FInv D (Filt.run ops s evs).1 (Filt.run ops s evs).2 := by
  induction ops with
  | nil => intro s evs h; exact h
  | cons op r ih => intro s evs h; exact ih (h.step op).1

theorem FInv.start [Rigid X] (D : Duration) (pre : List (ROp X)) (target : Name) (qsize : Nat) (queued : Bool) :
    FInv D (Filt.init (RBuf.history D pre).1 (RBuf.history D pre).2 target qsize queued) [] := by
  have key : ∀ s0 : Filt X, FInv D s0 [] → FInv D (s0.register.setTargets [target]) [] := by
    intro s0 h
    obtain ⟨h1, h2, h3, h4, h5, h6⟩ := s0.register_parts
    refine ⟨?_, ?_, fun id => ?_⟩
    · show Reachable D s0.register.rb.buf
      rw [Filt.register_rb]
      exact h.reach
    · show s0.register.count = s0.register.msgs.length
      rw [h5, h3]; exact h.counted
    · have := h.acct id
      simp only [Filt.held, Filt.beingAdded, Filt.queued, Filt.waiting, Filt.setTargets, h1, h2, h3, h4] at *
      exact this
  refine key _ ⟨rrun_reach pre (Reachable.init D), rfl, fun id => ?_⟩
  cases queued <;> rfl

theorem FInv.history [Rigid X] (D : Duration) (pre : List (ROp X)) (target : Name) (qsize : Nat) (queued : Bool)
    (ops : List (FOp X)) : FInv D (Filt.history D pre target qsize queued ops).1
      (Filt.history D pre target qsize queued ops).2 :=
  FInv.run ops (FInv.start D pre target qsize queued)

end Tf2

namespace Tf2

variable {X : Type}

/-! ### Outcomes of the steps of `add` -/

/-- How `add` ends. -/
inductive FinishOut (s : Filt X) (a : Adding) : Filt X × List FEv → Prop
  | pass (h : a.success = s.expected) : FinishOut s a (s.deliver ⟨a.msg.id, none⟩)
  | push (h : a.success ≠ s.expected) (hq : s.qsize ≠ 0) (hf : s.qsize ≤ s.msgs.length) (f : MInfo) (r : List MInfo)
      (hm : s.msgs = f :: r) :
      FinishOut s a ({ ((s.cancelAll f.handles).deliver ⟨f.msg.id, some .unknown⟩).1 with
          msgs := r ++ [{ msg := a.msg, handles := a.handles, success := a.success }], count := s.count - 1 + 1 },
        ((s.cancelAll f.handles).deliver ⟨f.msg.id, some .unknown⟩).2)
  | queue (h : a.success ≠ s.expected) (hq : s.qsize = 0 ∨ s.msgs.length < s.qsize) :
      FinishOut s a ({ s with msgs := s.msgs ++ [{ msg := a.msg, handles := a.handles, success := a.success }]
                              count := s.count + 1 }, [])

theorem Filt.addFinish_out {s : Filt X} (hc : Counted s) (a : Adding) : FinishOut s a (s.addFinish a) := by
  unfold Counted at hc
  unfold Filt.addFinish
  by_cases h1 : a.success = s.expected
  · rw [if_pos h1]; exact .pass h1
  · rw [if_neg h1]
    simp only
    by_cases h2 : s.qsize ≠ 0 ∧ s.count + 1 > s.qsize
    · rw [if_pos h2]
      cases hm : s.msgs with
      | nil => rw [hm] at hc; simp at hc; omega
      | cons f r => exact .push h1 h2.1 (by rw [hm, ← hm, ← hc]; omega) f r hm
    · rw [if_neg h2]; exact .queue h1 (by omega)

/-- One step of a call of `add`. -/
inductive NextOut (D : Duration) (s : Filt X) (i : Nat) : Filt X × List FEv → Prop
  | idle (hi : s.adding[i]? = none) : NextOut D s i (s, [])
  | finish (a : Adding) (ha : s.adding[i]? = some a) (hr : a.rest = []) (r : Filt X × List FEv)
      (ho : FinishOut { s with adding := s.adding.eraseIdx i } a r) : NextOut D s i r
  | overflow (a : Adding) (ha : s.adding[i]? = some a) (t : Name) (ts : List Name) (hr : a.rest = t :: ts)
      (hs : a.second = true) (h : timeAdd a.msg.stamp s.tol = none) :
      NextOut D s i ({ s with adding := s.adding.eraseIdx i }, [.addThrew a.msg.id])
  | ask1 (a : Adding) (ha : s.adding[i]? = some a) (t : Name) (ts : List Name) (hr : a.rest = t :: ts)
      (hs : a.second = false) (ro : RBuf X × List REv)
      (ho : AddOut D s.rb s.cb t a.msg.frame a.msg.stamp ro.1 ro.2) :
      NextOut D s i (s.addAnswer i a (if s.tol = 0 then { a with rest := ts, second := false } else { a with rest := t :: ts, second := true }) ro)
  | ask2 (a : Adding) (ha : s.adding[i]? = some a) (t : Name) (ts : List Name) (hr : a.rest = t :: ts)
      (hs : a.second = true) (t2 : Time) (h2 : timeAdd a.msg.stamp s.tol = some t2) (ro : RBuf X × List REv)
      (ho : AddOut D s.rb s.cb t a.msg.frame t2 ro.1 ro.2) :
      NextOut D s i (s.addAnswer i a { a with rest := ts, second := false } ro)

theorem Filt.addNext_out [Rigid X] {D : Duration} {s : Filt X} (hw : WF D s.rb.buf) (hc : Counted s) (i : Nat) :
    NextOut D s i (s.addNext i) := by
  unfold Filt.addNext
  cases ha : s.adding[i]? with
  | none => exact .idle ha
  | some a =>
    simp only
    cases hr : a.rest with
    | nil => exact .finish a ha hr _ (Filt.addFinish_out (s := { s with adding := s.adding.eraseIdx i }) hc a)
    | cons t ts =>
      simp only
      cases hs : a.second with
      | true =>
        rw [if_pos rfl]
        cases h2 : timeAdd a.msg.stamp s.tol with
        | none => exact .overflow a ha t ts hr hs h2
        | some t2 => exact .ask2 a ha t ts hr hs t2 h2 _ (addRequest_out hw ..)
      | false =>
        rw [if_neg (by simp)]
        exact .ask1 a ha t ts hr hs _ (addRequest_out hw ..)

/-! ### Signals are decisions -/

/-- The decisions waiting in the callback queue. -/
def Filt.outs (s : Filt X) : List Out := s.cbq.getD []

/-- What is waiting or signalled was decided. -/
structure Told (s : Filt X) (r : Filt X × List FEv) : Prop where
  outs : ∀ o ∈ r.1.outs, o ∈ s.outs ∨ FEv.decided o.id o.fail ∈ r.2
  sigs : ∀ id f, FEv.signalled id f ∈ r.2 → FEv.decided id f ∈ r.2 ∨ ⟨id, f⟩ ∈ s.outs

theorem Told.quiet {s s' : Filt X} {e : List FEv} (h : s'.cbq = s.cbq) (he : ∀ id f, FEv.signalled id f ∉ e) :
    Told s (s', e) := ⟨fun o ho => by left; unfold Filt.outs at *; rw [← h]; exact ho, fun id f hm => absurd hm (he id f)⟩

theorem Told.deliver {s s1 : Filt X} (h : s1.cbq = s.cbq) (o : Out) : Told s (s1.deliver o) := by
  unfold Filt.deliver
  split
  · next q hq =>
    refine ⟨fun x hx => ?_, fun id f hm => by simp at hm⟩
    have hx : x ∈ q ++ [o] := hx
    rcases List.mem_append.1 hx with hx | hx
    · left; unfold Filt.outs; rw [← h, hq]; exact hx
    · right; rw [List.mem_singleton.1 hx]; simp
  · next hq =>
    refine ⟨fun x hx => ?_, fun id f hm => ?_⟩
    · unfold Filt.outs at hx; simp only [hq, Option.getD_none] at hx; cases hx
    · simp only [List.mem_cons, reduceCtorEq, FEv.signalled.injEq, List.not_mem_nil, or_false, false_or] at hm
      left; rw [hm.1, hm.2]; simp

theorem Told.with {s : Filt X} {r : Filt X × List FEv} (h : Told s r) {s' : Filt X} (hs : s'.cbq = r.1.cbq) :
    Told s (s', r.2) := ⟨fun o ho => h.outs o (by unfold Filt.outs at *; rw [← hs]; exact ho), h.sigs⟩

theorem FinishOut.told {s s0 : Filt X} {a : Adding} {r : Filt X × List FEv} (h : FinishOut s a r) (hs : s.cbq = s0.cbq) :
    Told s0 r := by
  cases h with
  | pass _ => exact Told.deliver hs _
  | push _ _ _ f r hm =>
    exact (Told.deliver ((Filt.cancelAll_parts f.handles s).2.2.2.1.trans hs) _).with rfl
  | queue _ _ => exact Told.quiet hs (by simp)

theorem addAnswer_told {D : Duration} {s : Filt X} {i : Nat} {a a' : Adding} {t src : Name} {tm : Time}
    {r : RBuf X × List REv} (ho : AddOut D s.rb s.cb t src tm r.1 r.2) : Told s (s.addAnswer i a a' r) := by
  obtain ⟨rb, evs⟩ := r
  cases ho
  all_goals simp only [Filt.addAnswer]
  case never => refine Told.deliver ?_ _; rfl
  all_goals exact Told.quiet rfl (by simp)

theorem NextOut.told {D : Duration} {s : Filt X} {i : Nat} {r : Filt X × List FEv} (h : NextOut D s i r) : Told s r := by
  cases h with
  | idle => exact Told.quiet rfl (by simp)
  | finish a _ _ _ ho => exact ho.told rfl
  | overflow => exact Told.quiet rfl (by simp)
  | ask1 _ _ _ _ _ _ _ ho => exact addAnswer_told ho
  | ask2 _ _ _ _ _ _ _ _ _ ho => exact addAnswer_told ho

theorem TOut.told {s s0 : Filt X} {h : Nat} {av : Bool} {r : Filt X × List FEv} (ho : TOut s h av r) (hs : s.cbq = s0.cbq) :
    Told s0 r := by
  cases ho with
  | notFound _ => exact Told.quiet hs (by simp)
  | wait => exact Told.quiet hs (by simp)
  | threw => exact Told.quiet hs (by simp)
  | decided => refine Told.deliver ?_ _; exact hs

theorem told_step [Rigid X] {D : Duration} {s : Filt X} {evs : List FEv} (h : FInv D s evs) (op : FOp X) :
    Told s (s.step op) := by
  cases op with
  | setTargets ts => exact Told.quiet rfl (by simp)
  | setTolerance tol => exact Told.quiet rfl (by simp)
  | setQueueSize n => exact Told.quiet rfl (by simp)
  | clear =>
    refine ⟨fun o ho => ?_, fun id f hm => ?_⟩
    · unfold Filt.outs Filt.step Filt.clear at ho
      simp only at ho
      cases hq : s.cbq <;> rw [hq] at ho <;> simp at ho
    · simp only [Filt.step, Filt.clear] at hm
      rcases List.mem_append.1 hm with hm | hm
      · obtain ⟨_, _, e⟩ := List.mem_map.1 hm; cases e
      · split at hm
        · obtain ⟨_, _, e⟩ := List.mem_map.1 hm; cases e
        · cases hm
  | addStart f t =>
    simp only [Filt.step, Filt.addStart]
    split
    · exact Told.quiet rfl (by simp)
    · split
      · have := Told.deliver (s := s) (s1 := { s with next := s.next + 1 }) rfl ⟨s.next, some .emptyFrameID⟩
        refine ⟨fun o ho => ?_, fun id g hm => ?_⟩
        · rcases this.outs o ho with h1 | h1
          · exact .inl h1
          · exact .inr (List.mem_cons_of_mem _ h1)
        · have hm' := (List.mem_cons.1 hm).resolve_left (by simp)
          rcases this.sigs id g hm' with h1 | h1
          · exact .inl (List.mem_cons_of_mem _ h1)
          · exact .inr h1
      · exact Told.quiet rfl (by simp)
  | addNext i => exact (Filt.addNext_out h.reach.wf h.counted i).told
  | invoke k av =>
    have hrb : WF D (s.buf (s.rb.invoke k)).rb.buf := by
      show WF D (s.rb.invoke k).1.buf
      rw [rinvoke_buf]; exact h.reach.wf
    simp only [Filt.step, Filt.invoke]
    split
    · split
      · exact (Filt.transformable_out (s.buf (s.rb.invoke k)) _ av hrb).told rfl
      · exact Told.quiet rfl (by simp)
    · exact Told.quiet rfl (by simp)
    · exact Told.quiet rfl (by simp)
  | runQueued =>
    simp only [Filt.step, Filt.runQueued]
    split
    · next o r hq =>
      refine ⟨fun x hx => ?_, fun id f hm => ?_⟩
      · left; unfold Filt.outs at *; rw [hq]; exact List.mem_cons_of_mem _ hx
      · right
        simp only [List.mem_cons, FEv.signalled.injEq, List.not_mem_nil, or_false] at hm
        unfold Filt.outs; rw [hq, hm.1, hm.2]; exact List.mem_cons_self ..
    · exact Told.quiet rfl (by simp)
  | buffer op => cases op <;> exact Told.quiet rfl (by simp)

theorem told_run [Rigid X] {D : Duration} (ops : List (FOp X)) : ∀ {s : Filt X} {evs : List FEv}, FInv D s evs →
    (∀ o ∈ s.outs, FEv.decided o.id o.fail ∈ evs) → (∀ id f, FEv.signalled id f ∈ evs → FEv.decided id f ∈ evs) →
    ∀ id f, FEv.signalled id f ∈ (Filt.run ops s evs).2 → FEv.decided id f ∈ (Filt.run ops s evs).2 := by
  induction ops with
  | nil => intro s evs _ _ h; exact h
  | cons op r ih =>
    intro s evs hi h1 h2
    have ht := told_step hi op
    refine ih (hi.step op).1 ?_ ?_
    · intro o ho
      rcases ht.outs o ho with h3 | h3
      · exact List.mem_append_left _ (h1 o h3)
      · exact List.mem_append_right _ h3
    · intro id f hm
      rcases List.mem_append.1 hm with hm | hm
      · exact List.mem_append_left _ (h2 id f hm)
      · rcases ht.sigs id f hm with h3 | h3
        · exact List.mem_append_right _ h3
        · exact List.mem_append_left _ (h1 _ h3)

end Tf2

namespace Tf2

variable {X : Type}

/-! ### The queue -/

/-- What a step may do to the queue and the settings. -/
structure QueueStep (s : Filt X) (r : Filt X) : Prop where
  qsize : r.qsize = s.qsize
  bound : s.qsize ≠ 0 → s.msgs.length ≤ s.qsize → r.msgs.length ≤ s.qsize
  order : ∃ new, r.queued.Sublist (s.queued ++ new) ∧ new.length ≤ 1

theorem QueueStep.same {s r : Filt X} (h1 : r.qsize = s.qsize) (h2 : r.msgs = s.msgs) : QueueStep s r :=
  ⟨h1, fun _ h => by rw [h2]; exact h, [], by simp [Filt.queued, h2], by simp⟩

theorem QueueStep.sub {s r : Filt X} (h1 : r.qsize = s.qsize) (h2 : r.queued.Sublist s.queued) : QueueStep s r :=
  ⟨h1, fun _ h => by
    have := h2.length_le
    simp only [Filt.queued, List.length_map] at this
    omega, [], by simpa using h2, by simp⟩

theorem FinishOut.queueStep {s s0 : Filt X} {a : Adding} {r : Filt X × List FEv} (h : FinishOut s a r)
    (h1 : s.qsize = s0.qsize) (h2 : s.msgs = s0.msgs) : QueueStep s0 r.1 := by
  cases h with
  | pass _ =>
    refine QueueStep.same ?_ ?_
    · rw [(Filt.deliver_parts _ _).2.2.2.2.1, h1]
    · rw [(Filt.deliver_parts _ _).2.2.1, h2]
  | push _ hq hf f r hm =>
    refine ⟨?_, ?_, [a.msg.id], ?_, by simp⟩
    · simp only [(Filt.deliver_parts _ _).2.2.2.2.1, (Filt.cancelAll_parts _ _).2.2.2.2.2.1, h1]
    · intro _ h; rw [← h2, hm] at h; simp at h ⊢; exact h
    · simp only [Filt.queued, ← h2, hm, List.map_append, List.map_cons, List.map_nil]
      exact List.sublist_cons_self ..
  | queue _ hq =>
    refine ⟨h1, ?_, [a.msg.id], ?_, by simp⟩
    · intro h3 h4; simp; rcases hq with hq | hq
      · rw [← h1] at h3; exact absurd hq h3
      · rw [← h1]; omega
    · simp [Filt.queued, h2]

theorem addAnswer_queueStep {D : Duration} {s : Filt X} {i : Nat} {a a' : Adding} {t src : Name} {tm : Time}
    {r : RBuf X × List REv} (ho : AddOut D s.rb s.cb t src tm r.1 r.2) : QueueStep s (s.addAnswer i a a' r).1 := by
  obtain ⟨rb, evs⟩ := r
  cases ho
  all_goals simp only [Filt.addAnswer]
  case never =>
    refine QueueStep.same ?_ ?_
    · rw [(Filt.deliver_parts _ _).2.2.2.2.1]; rfl
    · rw [(Filt.deliver_parts _ _).2.2.1]; rfl
  all_goals exact QueueStep.same rfl rfl

theorem TOut.queueStep {s s0 : Filt X} {h : Nat} {av : Bool} {r : Filt X × List FEv} (ho : TOut s h av r)
    (h1 : s.qsize = s0.qsize) (h2 : s.msgs = s0.msgs) : QueueStep s0 r.1 := by
  cases ho with
  | notFound _ => exact QueueStep.same h1 h2
  | wait i m hm =>
    refine QueueStep.sub h1 ?_
    simp only [Filt.queued]
    rw [set_map (b := { m with success := m.success + 1 }) _ hm rfl, h2]; exact List.Sublist.refl _
  | threw i m hm =>
    refine QueueStep.sub h1 ?_
    simp only [Filt.queued]
    rw [set_map (b := { m with success := m.success + 1 }) _ hm rfl, h2]; exact List.Sublist.refl _
  | decided i m hm =>
    refine QueueStep.sub ?_ ?_
    · rw [(Filt.deliver_parts _ _).2.2.2.2.1]; exact h1
    · unfold Filt.queued; rw [(Filt.deliver_parts _ _).2.2.1, ← h2]
      exact (List.eraseIdx_sublist _ _).map _

theorem queueStep [Rigid X] {D : Duration} {s : Filt X} {evs : List FEv} (h : FInv D s evs) (op : FOp X)
    (hop : ∀ n, op ≠ .setQueueSize n) : QueueStep s (s.step op).1 := by
  cases op with
  | setTargets ts => exact QueueStep.same rfl rfl
  | setTolerance tol => exact QueueStep.same rfl rfl
  | setQueueSize n => exact absurd rfl (hop n)
  | clear =>
    refine QueueStep.sub ?_ ?_
    · simp only [Filt.step, Filt.clear, (Filt.register_parts _).2.2.2.2.2]; rfl
    · simp [Filt.step, Filt.clear, Filt.queued]
  | addStart f t =>
    simp only [Filt.step, Filt.addStart]
    split
    · exact QueueStep.same rfl rfl
    · split
      · refine QueueStep.same ?_ ?_
        · simp only [(Filt.deliver_parts _ _).2.2.2.2.1]
        · simp only [(Filt.deliver_parts _ _).2.2.1]
      · exact QueueStep.same rfl rfl
  | addNext i =>
    have ho := Filt.addNext_out h.reach.wf h.counted i
    simp only [Filt.step]
    generalize s.addNext i = r at ho ⊢
    cases ho with
    | idle => exact QueueStep.same rfl rfl
    | finish a _ _ _ ho => exact ho.queueStep rfl rfl
    | overflow => exact QueueStep.same rfl rfl
    | ask1 _ _ _ _ _ _ _ ho => exact addAnswer_queueStep ho
    | ask2 _ _ _ _ _ _ _ _ _ ho => exact addAnswer_queueStep ho
  | invoke k av =>
    have hrb : WF D (s.buf (s.rb.invoke k)).rb.buf := by
      show WF D (s.rb.invoke k).1.buf
      rw [rinvoke_buf]; exact h.reach.wf
    simp only [Filt.step, Filt.invoke]
    split
    · split
      · exact (Filt.transformable_out (s.buf (s.rb.invoke k)) _ av hrb).queueStep rfl rfl
      · exact QueueStep.same rfl rfl
    · exact QueueStep.same rfl rfl
    · exact QueueStep.same rfl rfl
  | runQueued => unfold Filt.step Filt.runQueued; simp only; split <;> exact QueueStep.same rfl rfl
  | buffer op => cases op <;> exact QueueStep.same rfl rfl

theorem queue_run [Rigid X] {D : Duration} {q : Nat} (hq : q ≠ 0) (ops : List (FOp X)) :
    ∀ {s : Filt X} {evs : List FEv}, FInv D s evs → s.qsize = q → s.msgs.length ≤ q → ConstantQueue ops →
    (Filt.run ops s evs).1.qsize = q ∧ (Filt.run ops s evs).1.msgs.length ≤ q := by
  induction ops with
  | nil => intro s evs _ h1 h2 _; exact ⟨h1, h2⟩
  | cons op r ih =>
    intro s evs h h1 h2 hc
    have hs := queueStep h op (fun n e => hc n (by rw [e]; exact List.mem_cons_self ..))
    exact ih (h.step op).1 (hs.qsize.trans h1) (by rw [← h1]; exact hs.bound (by rw [h1]; exact hq) (by rw [h1]; exact h2))
      (fun n hn => hc n (List.mem_cons_of_mem _ hn))

theorem init_parts [Rigid X] (D : Duration) (pre : List (ROp X)) (target : Name) (qsize : Nat) (queued : Bool) :
    let s := Filt.init (RBuf.history D pre).1 (RBuf.history D pre).2 target qsize queued
    s.qsize = qsize ∧ s.msgs = [] ∧ s.adding = [] ∧ s.outs = [] ∧ s.next = 0 := by
  have key : ∀ s0 : Filt X, s0.qsize = qsize → s0.msgs = [] → s0.adding = [] → s0.outs = [] → s0.next = 0 →
      let s := s0.register.setTargets [target]
      s.qsize = qsize ∧ s.msgs = [] ∧ s.adding = [] ∧ s.outs = [] ∧ s.next = 0 := by
    intro s0 a b c d e
    obtain ⟨h1, h2, h3, h4, h5, h6⟩ := s0.register_parts
    unfold Filt.outs at *
    exact ⟨h6.trans a, h3.trans b, h2.trans c, by simp only [Filt.setTargets, h4]; exact d, h1.trans e⟩
  exact key _ rfl rfl rfl (by cases queued <;> rfl) rfl

/-! ### Scheduled calls go to registered callbacks unless one is removed -/

theorem callsOK_step [Rigid X] {D : Duration} {s : Filt X} {evs : List FEv} (h : FInv D s evs) (op : FOp X)
    (hc : CallsOK s.rb) (h1 : op ≠ .clear) (h2 : ∀ c, op ≠ .buffer (.removeCallback c)) :
    CallsOK (s.step op).1.rb := by
  cases op with
  | setTargets ts => exact hc
  | setTolerance tol => exact hc
  | setQueueSize n => exact hc
  | clear => exact absurd rfl h1
  | addStart f t =>
    simp only [Filt.step, Filt.addStart]
    split
    · exact hc
    · split
      · simp only [(Filt.deliver_parts _ _).2.2.2.2.2.1]; exact hc
      · exact hc
  | addNext i =>
    obtain ⟨a, b, c⟩ := Filt.addNext_rb s i h.reach.wf
    unfold CallsOK
    simp only [Filt.step, b, c]
    exact hc
  | invoke k av =>
    have hi : CallsOK (s.buf (s.rb.invoke k)).rb := rstep_callsOK (op := .invoke k) hc (by simp)
    have hrb : WF D (s.buf (s.rb.invoke k)).rb.buf := by
      show WF D (s.rb.invoke k).1.buf
      rw [rinvoke_buf]; exact h.reach.wf
    simp only [Filt.step, Filt.invoke]
    split
    · split
      · rw [(Filt.same_transformable (s := s.buf (s.rb.invoke k)) (D := D) _ av hrb h.counted).2.2.2]; exact hi
      · exact hi
    · exact hi
    · exact hi
  | runQueued => unfold Filt.step Filt.runQueued; simp only; split <;> exact hc
  | buffer op =>
    cases op with
    | invoke k => exact hc
    | removeCallback c => exact absurd rfl (h2 c)
    | _ => exact rstep_callsOK hc _ (by simp)

theorem undefined_run [Rigid X] {D : Duration} (ops : List (FOp X)) : ∀ {s : Filt X} {evs : List FEv}, FInv D s evs →
    CallsOK s.rb → FEv.undefined ∉ evs → KeepsCallbacks ops → FEv.undefined ∉ (Filt.run ops s evs).2 := by
  induction ops with
  | nil => intro s evs _ _ h _; exact h
  | cons op r ih =>
    intro s evs h hc hu hk
    have h1 : op ≠ .clear := fun e => hk.1 (by rw [e]; exact List.mem_cons_self ..)
    have h2 : ∀ c, op ≠ .buffer (.removeCallback c) := fun c e => hk.2 c (by rw [e]; exact List.mem_cons_self ..)
    refine ih (h.step op).1 (callsOK_step h op hc h1 h2) ?_ ⟨fun hm => hk.1 (List.mem_cons_of_mem _ hm),
      fun c hm => hk.2 c (List.mem_cons_of_mem _ hm)⟩
    intro hm
    rcases List.mem_append.1 hm with hm | hm
    · exact hu hm
    · obtain ⟨k, av, rfl, c, hd, he⟩ := (h.step op).2 hm
      unfold RBuf.invoke at he
      cases hi : s.rb.inflight[k]? with
      | none => rw [hi] at he; cases he
      | some cl =>
        rw [hi] at he
        simp only at he
        rw [if_pos (hc cl (List.mem_of_getElem? hi))] at he
        cases he

end Tf2

namespace Tf2

variable {X : Type}

/-! ### Headers and settings -/

/-- The headers of the messages held. -/
def Filt.heads (s : Filt X) : List FMsg := s.adding.map Adding.msg ++ s.msgs.map MInfo.msg

theorem received_append (a b : List FEv) : received (a ++ b) = received a ++ received b := by
  induction a with
  | nil => rfl
  | cons x r ih => cases x <;> simp [received, ih]

theorem mem_received {evs : List FEv} {id : Nat} {f : Name} {t : Time} :
    (id, f, t) ∈ received evs ↔ FEv.received id f t ∈ evs := by
  induction evs with
  | nil => simp [received]
  | cons x r ih => cases x <;> simp [received, ih]

/-- A step that issues no new message keeps headers; settings stay. -/
structure KeepsHeads (s : Filt X) (r : Filt X × List FEv) : Prop where
  heads : ∀ m ∈ r.1.heads, m ∈ s.heads
  rcv : received r.2 = []
  next : r.1.next = s.next
  targets : r.1.targets = s.targets
  tol : r.1.tol = s.tol
  expected : r.1.expected = s.expected

theorem KeepsHeads.trans_eq {s s0 : Filt X} {r : Filt X × List FEv} (h : KeepsHeads s r) (hh : ∀ m ∈ s.heads, m ∈ s0.heads)
    (hn : s.next = s0.next) (h1 : s.targets = s0.targets) (h2 : s.tol = s0.tol) (h3 : s.expected = s0.expected) :
    KeepsHeads s0 r :=
  ⟨fun m hm => hh m (h.heads m hm), h.rcv, h.next.trans hn, h.targets.trans h1, h.tol.trans h2, h.expected.trans h3⟩

theorem deliver_received (s : Filt X) (o : Out) : received (s.deliver o).2 = [] := by
  unfold Filt.deliver; split <;> rfl

theorem KeepsHeads.deliver (s : Filt X) (o : Out) : KeepsHeads s (s.deliver o) := by
  obtain ⟨h1, h2, h3, h4, h5, h6, h7, h8, h9⟩ := s.deliver_parts o
  exact ⟨fun m hm => by unfold Filt.heads at *; rw [h2, h3] at hm; exact hm, deliver_received s o, h1, h7, h8, h9⟩

theorem mem_heads {s : Filt X} {m : FMsg} : m ∈ s.heads ↔ (∃ a ∈ s.adding, a.msg = m) ∨ ∃ i ∈ s.msgs, i.msg = m := by
  simp [Filt.heads]

theorem erase_heads {s : Filt X} (i : Nat) : ∀ m ∈ ({ s with adding := s.adding.eraseIdx i } : Filt X).heads, m ∈ s.heads := by
  intro m hm
  rw [mem_heads] at *
  rcases hm with ⟨a, ha, e⟩ | h
  · exact .inl ⟨a, List.mem_of_mem_eraseIdx ha, e⟩
  · exact .inr h

theorem set_heads {s : Filt X} {i : Nat} {a b : Adding} (ha : s.adding[i]? = some a) (hb : b.msg = a.msg) :
    ∀ m ∈ ({ s with adding := s.adding.set i b } : Filt X).heads, m ∈ s.heads := by
  intro m hm
  rw [mem_heads] at *
  rcases hm with ⟨x, hx, e⟩ | h
  · rcases List.mem_or_eq_of_mem_set hx with hx | hx
    · exact .inl ⟨x, hx, e⟩
    · exact .inl ⟨a, List.mem_of_getElem? ha, by rw [← e, hx, hb]⟩
  · exact .inr h

theorem FinishOut.keeps {s s0 : Filt X} {i : Nat} {a : Adding} {r : Filt X × List FEv}
    (hs : s = { s0 with adding := s0.adding.eraseIdx i }) (ha : s0.adding[i]? = some a) (h : FinishOut s a r) :
    KeepsHeads s0 r := by
  have hh : ∀ m ∈ s.heads, m ∈ s0.heads := by rw [hs]; exact erase_heads i
  have hma : a.msg ∈ s0.heads := mem_heads.2 (.inl ⟨a, List.mem_of_getElem? ha, rfl⟩)
  have e : s.next = s0.next ∧ s.targets = s0.targets ∧ s.tol = s0.tol ∧ s.expected = s0.expected := by
    rw [hs]; exact ⟨rfl, rfl, rfl, rfl⟩
  obtain ⟨e1, e2, e3, e4⟩ := e
  cases h with
  | pass _ => exact (KeepsHeads.deliver s _).trans_eq hh e1 e2 e3 e4
  | push _ _ _ f r hm =>
    obtain ⟨p1, p2, p3, -, -, -, -, -, -, p10, p11, p12⟩ := Filt.cancelAll_parts f.handles s
    obtain ⟨q1, q2, q3, -, -, -, q7, q8, q9⟩ := (s.cancelAll f.handles).deliver_parts ⟨f.msg.id, some .unknown⟩
    refine ⟨fun m hmm => ?_, deliver_received _ _, q1.trans (p1.trans e1), q7.trans (p10.trans e2),
      q8.trans (p11.trans e3), q9.trans (p12.trans e4)⟩
    simp only [Filt.heads, q2, p2, List.map_append, List.map_cons, List.map_nil, List.mem_append, List.mem_singleton] at hmm
    rcases hmm with h1 | h1 | h1
    · exact hh m (by simp only [Filt.heads, List.mem_append]; exact .inl h1)
    · exact hh m (by simp only [Filt.heads, List.mem_append, hm, List.map_cons]; exact .inr (List.mem_cons_of_mem _ h1))
    · rw [h1]; exact hma
  | queue _ _ =>
    refine ⟨fun m hmm => ?_, rfl, e1, e2, e3, e4⟩
    simp only [Filt.heads, List.map_append, List.map_cons, List.map_nil, List.mem_append, List.mem_singleton] at hmm
    rcases hmm with h1 | h1 | h1
    · exact hh m (by simp only [Filt.heads, List.mem_append]; exact .inl h1)
    · exact hh m (by simp only [Filt.heads, List.mem_append]; exact .inr h1)
    · rw [h1]; exact hma

theorem addAnswer_keeps {D : Duration} {s : Filt X} {i : Nat} {a a' : Adding} {t src : Name} {tm : Time}
    (ha : s.adding[i]? = some a) (he : a'.msg = a.msg)
    {r : RBuf X × List REv} (ho : AddOut D s.rb s.cb t src tm r.1 r.2) : KeepsHeads s (s.addAnswer i a a' r) := by
  obtain ⟨rb, evs⟩ := r
  cases ho
  all_goals simp only [Filt.addAnswer]
  case never => exact (KeepsHeads.deliver _ _).trans_eq (erase_heads i) rfl rfl rfl rfl
  case threw => exact ⟨erase_heads i, rfl, rfl, rfl, rfl, rfl⟩
  case same | now => exact ⟨set_heads (b := { a' with success := a.success + 1 }) ha he, rfl, rfl, rfl, rfl, rfl⟩
  case pending => exact ⟨set_heads (b := { a' with handles := a.handles ++ [_] }) ha he, rfl, rfl, rfl, rfl, rfl⟩

theorem NextOut.keeps {D : Duration} {s : Filt X} {i : Nat} {r : Filt X × List FEv} (h : NextOut D s i r) :
    KeepsHeads s r := by
  cases h with
  | idle => exact ⟨fun _ h => h, rfl, rfl, rfl, rfl, rfl⟩
  | finish a ha _ _ ho => exact ho.keeps rfl ha
  | overflow => exact ⟨erase_heads i, rfl, rfl, rfl, rfl, rfl⟩
  | ask1 _ ha _ _ _ _ _ ho => exact addAnswer_keeps ha (by split <;> rfl) ho
  | ask2 _ ha _ _ _ _ _ _ _ ho => exact addAnswer_keeps ha (by rfl) ho

theorem TOut.keeps {s s0 : Filt X} {h : Nat} {av : Bool} {r : Filt X × List FEv} (ho : TOut s h av r)
    (hh : ∀ m ∈ s.heads, m ∈ s0.heads)
    (hn : s.next = s0.next) (h1 : s.targets = s0.targets) (h2 : s.tol = s0.tol) (h3 : s.expected = s0.expected) :
    KeepsHeads s0 r := by
  have hset : ∀ i (m : MInfo), s.msgs[i]? = some m →
      ∀ x ∈ ({ s with msgs := s.msgs.set i { m with success := m.success + 1 } } : Filt X).heads, x ∈ s0.heads := by
    intro i m hm x hx
    refine hh x ?_
    rw [mem_heads] at *
    rcases hx with hx | ⟨y, hy, e⟩
    · exact .inl hx
    · rcases List.mem_or_eq_of_mem_set hy with hy | hy
      · exact .inr ⟨y, hy, e⟩
      · exact .inr ⟨m, List.mem_of_getElem? hm, by rw [← e, hy]⟩
  cases ho with
  | notFound _ => exact ⟨hh, rfl, hn, h1, h2, h3⟩
  | wait i m hm => exact ⟨hset i m hm, rfl, hn, h1, h2, h3⟩
  | threw i m hm => exact ⟨hset i m hm, rfl, hn, h1, h2, h3⟩
  | decided i m hm =>
    refine (KeepsHeads.deliver _ _).trans_eq (fun x hx => hh x ?_) hn h1 h2 h3
    rw [mem_heads] at *
    rcases hx with hx | ⟨y, hy, e⟩
    · exact .inl hx
    · exact .inr ⟨y, List.mem_of_mem_eraseIdx hy, e⟩

theorem register_settings (s : Filt X) : s.register.targets = s.targets ∧ s.register.tol = s.tol ∧
    s.register.expected = s.expected := by
  unfold Filt.register; split <;> exact ⟨rfl, rfl, rfl⟩

/-- All steps except `add` and the setters. -/
theorem keeps_step [Rigid X] {D : Duration} {s : Filt X} {evs : List FEv} (h : FInv D s evs) (op : FOp X)
    (h1 : ∀ ts, op ≠ .setTargets ts) (h2 : ∀ t, op ≠ .setTolerance t) (h3 : ∀ f t, op ≠ .addStart f t) :
    KeepsHeads s (s.step op) := by
  cases op with
  | setTargets ts => exact absurd rfl (h1 ts)
  | setTolerance tol => exact absurd rfl (h2 tol)
  | addStart f t => exact absurd rfl (h3 f t)
  | setQueueSize n => exact ⟨fun _ h => h, rfl, rfl, rfl, rfl, rfl⟩
  | clear =>
    obtain ⟨a1, a2, a3⟩ := register_settings (s.buf (s.rb.removeCallback s.cb))
    obtain ⟨b1, b2, b3, -⟩ := (s.buf (s.rb.removeCallback s.cb)).register_parts
    refine ⟨fun m hm => ?_, ?_, b1, a1, a2, a3⟩
    · simp only [Filt.step, Filt.clear] at hm
      rw [mem_heads] at hm ⊢
      rcases hm with ⟨a, ha, e⟩ | ⟨a, ha, e⟩
      · simp only [b2] at ha; exact .inl ⟨a, ha, e⟩
      · cases ha
    · have e : ∀ l : List Nat, received (l.map FEv.discarded) = [] := by
        intro l; induction l with
        | nil => rfl
        | cons a r ih => simp [received, ih]
      simp only [Filt.step, Filt.clear, received_append]
      have e1 := e (s.msgs.map (fun i => i.msg.id)); rw [List.map_map] at e1
      have e2 : ∀ q : List Out, received (q.map (fun o => FEv.discarded o.id)) = [] := by
        intro q; have := e (q.map Out.id); rw [List.map_map] at this; exact this
      have e1' : received (s.msgs.map (fun i => FEv.discarded i.msg.id)) = [] := e1
      rw [e1']
      cases s.cbq with
      | none => rfl
      | some q => simp [e2]
  | addNext i => exact (Filt.addNext_out h.reach.wf h.counted i).keeps
  | invoke k av =>
    have hrb : WF D (s.buf (s.rb.invoke k)).rb.buf := by
      show WF D (s.rb.invoke k).1.buf
      rw [rinvoke_buf]; exact h.reach.wf
    simp only [Filt.step, Filt.invoke]
    split
    · split
      · exact (Filt.transformable_out (s.buf (s.rb.invoke k)) _ av hrb).keeps (fun _ h => h) rfl rfl rfl rfl
      · exact ⟨fun _ h => h, rfl, rfl, rfl, rfl, rfl⟩
    · exact ⟨fun _ h => h, rfl, rfl, rfl, rfl, rfl⟩
    · exact ⟨fun _ h => h, rfl, rfl, rfl, rfl, rfl⟩
  | runQueued => unfold Filt.step Filt.runQueued; simp only; split <;> exact ⟨fun _ h => h, rfl, rfl, rfl, rfl, rfl⟩
  | buffer op => cases op <;> exact ⟨fun _ h => h, rfl, rfl, rfl, rfl, rfl⟩

/-- Headers held were received; messages are numbered in order of arrival; the number of expected answers. -/
structure HInv (s : Filt X) (evs : List FEv) : Prop where
  heads : ∀ m ∈ s.heads, ∃ f, FEv.received m.id f m.stamp ∈ evs ∧ m.frame = stripSlash f
  ids : (received evs).map Prod.fst = List.range s.next
  expected : s.expected = s.targets.length * Filt.perTarget s.tol

theorem HInv.step [Rigid X] {D : Duration} {s : Filt X} {evs : List FEv} (hf : FInv D s evs) (h : HInv s evs) (op : FOp X) :
    HInv (s.step op).1 (evs ++ (s.step op).2) := by
  have gen : (∀ ts, op ≠ .setTargets ts) → (∀ t, op ≠ .setTolerance t) → (∀ f t, op ≠ .addStart f t) →
      HInv (s.step op).1 (evs ++ (s.step op).2) := by
    intro h1 h2 h3
    have k := keeps_step hf op h1 h2 h3
    refine ⟨fun m hm => ?_, ?_, ?_⟩
    · obtain ⟨f, e1, e2⟩ := h.heads m (k.heads m hm)
      exact ⟨f, List.mem_append_left _ e1, e2⟩
    · rw [received_append, k.rcv, List.append_nil, k.next]; exact h.ids
    · rw [k.expected, k.targets, k.tol]; exact h.expected
  cases op with
  | setTargets ts =>
    refine ⟨fun m hm => ?_, ?_, ?_⟩
    · obtain ⟨f, e1, e2⟩ := h.heads m hm
      exact ⟨f, List.mem_append_left _ e1, e2⟩
    · rw [received_append]; simp only [Filt.step, received, List.append_nil]; exact h.ids
    · simp [Filt.step, Filt.setTargets]
  | setTolerance tol =>
    refine ⟨fun m hm => ?_, ?_, rfl⟩
    · obtain ⟨f, e1, e2⟩ := h.heads m hm
      exact ⟨f, List.mem_append_left _ e1, e2⟩
    · rw [received_append]; simp only [Filt.step, received, List.append_nil]; exact h.ids
  | addStart f t =>
    have base : ∀ (s' : Filt X) (e : List FEv), s'.next = s.next + 1 → s'.targets = s.targets → s'.tol = s.tol →
        s'.expected = s.expected → received e = [(s.next, f, t)] →
        (∀ m ∈ s'.heads, m ∈ s.heads ∨ m = ⟨s.next, stripSlash f, t⟩) → HInv s' (evs ++ e) := by
      intro s' e h1 h2 h3 h4 h5 h6
      refine ⟨fun m hm => ?_, ?_, by rw [h2, h3, h4]; exact h.expected⟩
      · rcases h6 m hm with h7 | h7
        · obtain ⟨f', e1, e2⟩ := h.heads m h7
          exact ⟨f', List.mem_append_left _ e1, e2⟩
        · refine ⟨f, ?_, by rw [h7]⟩
          rw [h7]
          exact List.mem_append_right _ (mem_received.1 (by rw [h5]; simp))
      · rw [received_append, h5, List.map_append, h.ids, h1, List.range_succ]; rfl
    simp only [Filt.step, Filt.addStart]
    split
    · exact base _ _ rfl rfl rfl rfl rfl (fun m hm => .inl hm)
    · split
      · obtain ⟨q1, q2, q3, -, -, -, q7, q8, q9⟩ := ({ s with next := s.next + 1 } : Filt X).deliver_parts
          ⟨s.next, some .emptyFrameID⟩
        refine base _ _ q1 q7 q8 q9 ?_ (fun m hm => .inl ?_)
        · simp only [received, deliver_received]
        · unfold Filt.heads at *; rw [q2, q3] at hm; exact hm
      · refine base _ _ rfl rfl rfl rfl rfl (fun m hm => ?_)
        simp only [Filt.heads, List.map_append, List.map_cons, List.map_nil, List.mem_append, List.mem_singleton] at hm ⊢
        rcases hm with (h1 | h1) | h1
        · exact .inl (.inl h1)
        · exact .inr h1
        · exact .inl (.inr h1)
  | _ => exact gen (by simp) (by simp) (by simp)

theorem HInv.run [Rigid X] {D : Duration} (ops : List (FOp X)) : ∀ {s : Filt X} {evs : List FEv}, FInv D s evs →
    HInv s evs → HInv (Filt.run ops s evs).1 (Filt.run ops s evs).2 := by
  induction ops with
  | nil => intro s evs _ h; exact h
  | cons op r ih => intro s evs hf h; exact ih (hf.step op).1 (h.step hf op)

theorem HInv.history [Rigid X] (D : Duration) (pre : List (ROp X)) (target : Name) (qsize : Nat) (queued : Bool)
    (ops : List (FOp X)) : HInv (Filt.history D pre target qsize queued ops).1
      (Filt.history D pre target qsize queued ops).2 := by
  refine HInv.run ops (FInv.start D pre target qsize queued) ?_
  obtain ⟨-, h2, h3, -, h5⟩ := init_parts D pre target qsize queued
  refine ⟨?_, ?_, ?_⟩
  · intro m hm; unfold Filt.heads at hm; rw [h2, h3] at hm; cases hm
  · rw [h5]; rfl
  · simp only [Filt.init, Filt.setTargets, List.length_map]

end Tf2
