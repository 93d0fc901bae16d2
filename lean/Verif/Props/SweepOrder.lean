import Verif.Props.Requests
import Verif.Proofs.SweepOrder

/-!
# C101: the order in which waiting requests are answered
-/
namespace Tf2

variable {X : Type}

/-! ### Helpers local to this file -/

theorem pending_nodup {D : Duration} {s : RBuf X} {evs : List REv} (hi : RInv D s evs) : s.pending.Nodup := by
  rw [List.nodup_iff_count]
  intro h
  have := hi.count_le_one h
  unfold cnt at this
  omega

theorem nodup_map_inj {α β : Type} {f : α → β} : ∀ {l : List α}, (l.map f).Nodup → ∀ {x y : α}, x ∈ l → y ∈ l →
    f x = f y → x = y := by
  intro l
  induction l with
  | nil => intro _ x y hx; cases hx
  | cons a l ih =>
    intro hn x y hx hy hxy
    rw [List.map_cons, List.nodup_cons] at hn
    cases List.mem_cons.1 hx with
    | inl h1 =>
      cases List.mem_cons.1 hy with
      | inl h2 => rw [h1, h2]
      | inr h2 => exact absurd (List.mem_map.2 ⟨y, h2, by rw [← hxy, h1]⟩) hn.1
    | inr h1 =>
      cases List.mem_cons.1 hy with
      | inl h2 => exact absurd (List.mem_map.2 ⟨x, h1, by rw [hxy, h2]⟩) hn.1
      | inr h2 => exact ih hn.2 h1 h2 hxy

/-- What the sweep of a reachable state does, in order. -/
theorem test_order [Rigid X] {D : Duration} {s : RBuf X} {evs : List REv} (hi : RInv D s evs)
    (hnt : ∀ e, REv.testThrew e ∉ s.test.2) :
    answeredHandles s.test.2 = takenOut (fun h => decide (h ∈ answeredHandles s.test.2)) s.pending ∧
    s.test.1.pending = leftWaiting (fun h => decide (h ∈ answeredHandles s.test.2)) s.pending ∧
    s.test.1.scheduled = s.scheduled ++ extractedHandles s.test.2 := by
  have hn : ∀ r ∈ s.reqs, r.verdictIn s.buf = .failure ∨ r.verdictIn s.buf = .available → NamesFound s.buf r := by
    intro r h hv
    obtain ⟨t, src, _, _, hf⟩ := hi.reqs r h
    have := hf.names hi.wf (by rcases hv with hv | hv <;> rw [hv] <;> simp)
    exact ⟨⟨_, this.1⟩, ⟨_, this.2⟩⟩
  have hub : ∀ r ∈ s.reqs, r.verdictIn s.buf ≠ .ub := by
    intro r _ h
    have := verdict_facts hi.wf (r.resolve s.buf).tid (r.resolve s.buf).sid r.time
    unfold Request.verdictIn at h
    rw [h] at this; exact this
  obtain ⟨kept, fired, left, new, t, p1, p2, p3, p4, p5, p6, p7⟩ := testRun_spec s.buf s.cbs s.reqs hub hn
  simp only [List.nil_append] at p4 p5 p7
  rcases p7 with ⟨rfl, h2, h3⟩ | ⟨r, l, e, rfl, _, h3, _⟩
  · obtain ⟨o1, o2⟩ := testRun_order hn h2
    have ht : s.test = ({ s with reqs := t.mem.take t.size, inflight := s.inflight ++ t.calls }, t.evs) := by
      unfold RBuf.test; rw [h2]
    rw [ht]
    have hans : answeredHandles t.evs = (takenOut (Request.due s.buf) s.reqs).map Request.handle := by
      rw [o1, answered_fired]
    have hsame : ∀ r ∈ s.reqs, Request.due s.buf r = decide (r.handle ∈ answeredHandles t.evs) := by
      intro r hr
      rw [hans]
      have hiff : r ∈ takenOut (Request.due s.buf) s.reqs ↔ Request.due s.buf r = true := by
        rw [(takenOut_perm _ _).mem_iff, List.mem_filter]
        exact ⟨fun h => h.2, fun h => ⟨hr, h⟩⟩
      cases hd : Request.due s.buf r with
      | true => exact (decide_eq_true (List.mem_map.2 ⟨r, hiff.2 hd, rfl⟩)).symm
      | false =>
        refine (decide_eq_false ?_).symm
        intro h
        obtain ⟨r', hr', he⟩ := List.mem_map.1 h
        have hr'' : r' ∈ s.reqs := by
          rw [(takenOut_perm _ _).mem_iff, List.mem_filter] at hr'; exact hr'.1
        have := nodup_map_inj (pending_nodup hi) hr'' hr he
        subst this
        rw [hiff.1 hr'] at hd; cases hd
    refine ⟨?_, ?_, ?_⟩
    · simp only [RBuf.pending]
      rw [takenOut_map, ← takenOut_congr s.reqs hsame, hans]
    · simp only [RBuf.pending]
      rw [o2, map_resolve_handle, leftWaiting_map, ← leftWaiting_congr s.reqs hsame]
    · simp only [RBuf.scheduled, p5, List.map_append, p6.1, p4, extracted_fired]
  · exfalso
    refine hnt e ?_
    unfold RBuf.test
    rw [h3]
    simp

theorem answered_set [Rigid X] {D : Duration} {s : RBuf X} {evs : List REv} (hi : RInv D s evs) {m : Msg X}
    {a : Name} {st : Bool} (hacc : REv.setDone .accepted ∈ (s.step (.set m a st)).2)
    (hnt : ∀ e, REv.testThrew e ∉ (s.step (.set m a st)).2) :
    answeredHandles (s.step (.set m a st)).2 =
        takenOut (fun h => decide (h ∈ answeredHandles (s.step (.set m a st)).2)) s.pending ∧
    (s.step (.set m a st)).1.pending =
        leftWaiting (fun h => decide (h ∈ answeredHandles (s.step (.set m a st)).2)) s.pending ∧
    (s.step (.set m a st)).1.scheduled = s.scheduled ++ extractedHandles (s.step (.set m a st)).2 := by
  obtain ⟨b, _, hi', e1, e2⟩ := accepted_sweep hi hacc
  rw [e1, e2]
  rw [e2] at hnt
  exact test_order hi' (fun e he => hnt e (List.mem_cons_of_mem _ he))

/-! ### The property -/

/-- **C101.** An accepted `setTransform` that does not throw answers requests in the order of the waiting list,
except that the last one waiting takes the place of each one answered; so are those left ordered, and the
callbacks scheduled are queued in the order of the answers. -/
theorem C101_order [Rigid X] (D : Duration) (ops : List (ROp X)) (m : Msg X) (a : Name) (st : Bool)
    (hlim : (addedHandles (RBuf.history D ops).2).length < 2 ^ 64 - 1)
    (hacc : REv.setDone .accepted ∈ ((RBuf.history D ops).1.step (.set m a st)).2)
    (hnt : ∀ e, REv.testThrew e ∉ ((RBuf.history D ops).1.step (.set m a st)).2) :
    let s := (RBuf.history D ops).1
    let answered := answeredHandles (s.step (.set m a st)).2
    answered = takenOut (fun h => decide (h ∈ answered)) s.pending ∧
    (s.step (.set m a st)).1.pending = leftWaiting (fun h => decide (h ∈ answered)) s.pending ∧
    (s.step (.set m a st)).1.scheduled = s.scheduled ++ extractedHandles (s.step (.set m a st)).2 :=
  answered_set (history_inv hlim) hacc hnt

/-- **C101.** The first one answered is the first in the waiting list of those answered; and when at most two are
answered, the order of the waiting list is kept. -/
theorem C101_first_and_two [Rigid X] (D : Duration) (ops : List (ROp X)) (m : Msg X) (a : Name) (st : Bool)
    (hlim : (addedHandles (RBuf.history D ops).2).length < 2 ^ 64 - 1)
    (hacc : REv.setDone .accepted ∈ ((RBuf.history D ops).1.step (.set m a st)).2)
    (hnt : ∀ e, REv.testThrew e ∉ ((RBuf.history D ops).1.step (.set m a st)).2) :
    let s := (RBuf.history D ops).1
    let answered := answeredHandles (s.step (.set m a st)).2
    answered.head? = (s.pending.filter (fun h => decide (h ∈ answered))).head? ∧
    (answered.length ≤ 2 → answered = s.pending.filter (fun h => decide (h ∈ answered))) := by
  intro s answered
  have h := (answered_set (history_inv hlim) hacc hnt).1
  have hp := takenOut_perm (fun h => decide (h ∈ answered)) s.pending
  refine ⟨?_, ?_⟩
  · rw [← takenOut_head]
    exact congrArg List.head? h
  · intro hl
    have hlen := hp.length_eq
    rw [← h] at hlen
    exact h.trans (takenOut_two _ _ (by show _ ≤ 2; rw [← hlen]; exact hl))

/-- **C101.** When everything waiting is answered, the first is answered first and then the others from the last to
the second: all but the first in reverse. -/
theorem C101_all_reversed [Rigid X] (D : Duration) (ops : List (ROp X)) (m : Msg X) (a : Name) (st : Bool)
    (hlim : (addedHandles (RBuf.history D ops).2).length < 2 ^ 64 - 1)
    (hacc : REv.setDone .accepted ∈ ((RBuf.history D ops).1.step (.set m a st)).2)
    (hnt : ∀ e, REv.testThrew e ∉ ((RBuf.history D ops).1.step (.set m a st)).2)
    {first : Nat} {rest : List Nat} (hp : (RBuf.history D ops).1.pending = first :: rest)
    (hall : ((RBuf.history D ops).1.step (.set m a st)).1.pending = []) :
    answeredHandles ((RBuf.history D ops).1.step (.set m a st)).2 = first :: rest.reverse := by
  obtain ⟨h1, h2, _⟩ := answered_set (history_inv hlim) hacc hnt
  rw [hall] at h2
  have hperm := leftWaiting_perm (fun h => decide (h ∈ answeredHandles ((RBuf.history D ops).1.step (.set m a st)).2))
    (RBuf.history D ops).1.pending
  rw [← h2] at hperm
  have hemp := hperm.symm.eq_nil
  rw [List.filter_eq_nil_iff] at hemp
  rw [hp] at h1 hemp
  rw [h1]
  refine takenOut_all rest.length first rest (Nat.le_refl _) (fun y hy => ?_)
  have := hemp y hy
  simpa using this

/-- One step keeps the waiting list in the order asked unless something is answered. -/
theorem asked_step [Rigid X] {D : Duration} {s : RBuf X} {evs : List REv} (hi : RInv D s evs) (op : ROp X)
    (hsub : s.pending.Sublist (addedHandles evs)) (hna : answeredHandles (s.step op).2 = [])
    (hnt : ∀ e, REv.testThrew e ∉ (s.step op).2) :
    (s.step op).1.pending.Sublist (addedHandles (evs ++ (s.step op).2)) := by
  have wide : ∀ {l : List Nat} {new : List REv}, l.Sublist s.pending → l.Sublist (addedHandles (evs ++ new)) := by
    intro l new hl
    rw [addedHandles_append]
    exact (hl.trans hsub).trans (List.sublist_append_left _ _)
  cases op with
  | set m a st =>
    by_cases hacc : REv.setDone .accepted ∈ (s.step (.set m a st)).2
    · obtain ⟨_, h2, _⟩ := answered_set hi hacc hnt
      refine wide ?_
      rw [h2, hna]
      have : ∀ l : List Nat, leftWaiting (fun h => decide (h ∈ ([] : List Nat))) l = l := by
        intro l
        induction l with
        | nil => rw [leftWaiting_nil]
        | cons x l ih => rw [leftWaiting_cons, if_neg (by simp), ih]
      rw [this]
      exact List.Sublist.refl _
    · refine wide ?_
      simp only [RBuf.step, RBuf.setTransform] at hacc ⊢
      generalize s.buf.setTransform m a st = r at *
      obtain ⟨b, r⟩ := r
      cases r with
      | accepted => simp at hacc
      | _ => exact List.Sublist.refl _
  | clear => exact wide (List.Sublist.refl _)
  | addCallback =>
    refine wide ?_
    simp only [RBuf.step, RBuf.addCallback]
    cases RBuf.nextCb s.cbs (s.cbs.length + 1) s.cbCounter <;> exact List.Sublist.refl _
  | removeCallback cb => exact wide ((List.filter_sublist).map _)
  | cancelRequest h => exact wide ((List.filter_sublist).map _)
  | invoke k =>
    refine wide ?_
    simp only [RBuf.step, RBuf.invoke]
    cases s.inflight[k]? <;> exact List.Sublist.refl _
  | addRequest cb t src time =>
    have o := addRequest_out hi.wf cb t src time
    simp only [RBuf.step]
    generalize (s.addRequest cb t src time).1 = s' at *
    generalize (s.addRequest cb t src time).2 = new at *
    cases o with
    | pending hne hc ho r hr =>
      rw [addedHandles_append]
      have : ({ s with reqs := s.reqs ++ [r], reqCounter := (RBuf.nextHandle s.reqCounter).1 } : RBuf X).pending =
          s.pending ++ [(RBuf.nextHandle s.reqCounter).2] := by
        unfold RBuf.pending
        rw [List.map_append, hr]; rfl
      rw [this]
      exact hsub.append (List.Sublist.refl _)
    | _ => exact wide (List.Sublist.refl _)

theorem asked_run [Rigid X] {D : Duration} (ops : List (ROp X)) : ∀ {s : RBuf X} {evs : List REv}, RInv D s evs →
    s.pending.Sublist (addedHandles evs) → (addedHandles (RBuf.run ops s evs).2).length < 2 ^ 64 - 1 →
    answeredHandles (RBuf.run ops s evs).2 = [] → (∀ e, REv.testThrew e ∉ (RBuf.run ops s evs).2) →
    (RBuf.run ops s evs).1.pending.Sublist (addedHandles (RBuf.run ops s evs).2) := by
  induction ops with
  | nil => intro s evs _ h _ _ _; exact h
  | cons op r ih =>
    intro s evs hi hs hl ha hnt
    simp only [RBuf.run] at hl ha hnt ⊢
    have hl' := hl
    rw [run_eq_append, addedHandles_append, List.length_append] at hl'
    have ha' := ha
    rw [run_eq_append, answeredHandles_append, answeredHandles_append] at ha'
    simp only [List.append_eq_nil_iff] at ha'
    refine ih (hi.step op (by omega)) (asked_step hi op hs ha'.1.2 ?_) hl ha hnt
    intro e he
    refine hnt e ?_
    rw [run_eq_append]
    exact List.mem_append_left _ (List.mem_append_right _ he)

/-- **C101.** Until the first answer is given, the waiting list is in the order in which the requests were made
(handles ascend). -/
theorem C101_in_order_asked [Rigid X] (D : Duration) (ops : List (ROp X))
    (hlim : (addedHandles (RBuf.history D ops).2).length < 2 ^ 64 - 1)
    (hna : answeredHandles (RBuf.history D ops).2 = [])
    (hnt : ∀ e, REv.testThrew e ∉ (RBuf.history D ops).2) :
    (RBuf.history D ops).1.pending.Sublist (addedHandles (RBuf.history D ops).2) ∧
    (RBuf.history D ops).1.pending.Pairwise (· < ·) := by
  have h := asked_run ops (RInv.init D) (List.Sublist.refl _) hlim hna hnt
  refine ⟨h, ?_⟩
  refine List.Pairwise.sublist h ?_
  have := (history_inv hlim).added
  unfold RBuf.history at this
  rw [this]
  exact List.pairwise_lt_range'
/-! ### Every list of waiting requests can be answered that way -/

/-- A callback, and `n` requests for the same two frames with times 5, 6, 7, …. -/
def queueOf (n : Nat) : List (ROp Int) :=
  .addCallback :: (List.range n).map (fun i => .addRequest 1 ['w'] ['a'] (5 + i))

/-- The static transform between the two frames. -/
def unlock : ROp Int := .set (tmsg ['w'] ['a'] 0 1) ['u'] true

theorem queueOf_spec (n : Nat) (hn : n < 2 ^ 64 - 1) :
    (RBuf.history 100 (queueOf n)).1.pending = List.range' 1 n ∧
      (RBuf.history 100 (queueOf n)).1.reqCounter = n ∧
      (RBuf.history 100 (queueOf n)).1.buf = Buf.init 100 ∧
      (RBuf.history 100 (queueOf n)).1.cbs = [1] ∧ (RBuf.history 100 (queueOf n)).1.inflight = [] ∧
      (RBuf.history 100 (queueOf n)).2 =
        .registered 1 :: (List.range n).map (fun i => .added (i + 1) 1 ['w'] ['a'] (5 + i)) := by
  induction n with
  | zero => exact ⟨rfl, rfl, rfl, rfl, rfl, rfl⟩
  | succ n ih =>
    obtain ⟨h1, h2, h3, h4, h5, h6⟩ := ih (by omega)
    have hq : queueOf (n + 1) = queueOf n ++ [.addRequest 1 ['w'] ['a'] (5 + n)] := by
      unfold queueOf
      rw [List.range_succ, List.map_append]; rfl
    unfold RBuf.history at *
    rw [hq, rrun_append]
    generalize RBuf.run (queueOf n) (RBuf.init 100) [] = r at *
    obtain ⟨s, evs⟩ := r
    simp only at h1 h2 h3 h4 h5 h6
    have hnext : RBuf.nextHandle n = (n + 1, n + 1) := by
      unfold RBuf.nextHandle
      have : (n + 1) % 2 ^ 64 = n + 1 := Nat.mod_eq_of_lt (by omega)
      simp only [this]
      rw [if_neg (by omega)]
    have hl1 : (Buf.init 100 : Buf Int).lookupFrameNumber ['w'] = 0 := by decide
    have hl2 : (Buf.init 100 : Buf Int).lookupFrameNumber ['a'] = 0 := by decide
    have hst : s.addRequest 1 ['w'] ['a'] (5 + n) = ({ s with
        reqs := s.reqs ++ [⟨5 + n, n + 1, 1, 0, 0, ['w'], ['a']⟩], reqCounter := n + 1 },
        [.added (n + 1) 1 ['w'] ['a'] (5 + n)]) := by
      unfold RBuf.addRequest
      rw [if_neg (by decide), h3]
      simp only [hl1, hl2, canNoLock_zero, true_or, h2, hnext]
      rfl
    simp only [RBuf.run, RBuf.step, hst]
    refine ⟨?_, trivial, h3, h4, h5, ?_⟩
    · unfold RBuf.pending at h1 ⊢
      rw [List.map_append, h1, List.range'_concat]
      simp [Nat.add_comm]
    · rw [h6, List.range_succ, List.map_append]; rfl

theorem unlocked (tm : Time) : (((Buf.init 100 : Buf Int).setTransform (tmsg ['w'] ['a'] 0 1) ['u'] true).1).canTransform
    ['w'] ['a'] tm = .ok true := by
  cases tm with
  | zero => decide
  | succ n => rfl

theorem unlock_accepted : ((Buf.init 100 : Buf Int).setTransform (tmsg ['w'] ['a'] 0 1) ['u'] true).2 = .accepted := by
  decide

theorem calls_in_turn [Rigid X] : ∀ (l : List Call) (s : RBuf X) (evs : List REv), s.inflight = l →
    (∀ c ∈ l, c.cb ∈ s.cbs) →
    (RBuf.run (List.replicate l.length (.invoke 0)) s evs).2 =
      evs ++ l.map (fun c => .invoked c.cb c.handle c.target c.source) := by
  intro l
  induction l with
  | nil => intro s evs _ _; simp [RBuf.run]
  | cons c l ih =>
    intro s evs hl hc
    rw [List.length_cons, List.replicate_succ]
    simp only [RBuf.run, RBuf.step, RBuf.invoke, hl, List.getElem?_cons_zero, List.eraseIdx_cons_zero,
      hc c (List.mem_cons_self ..), if_true]
    rw [ih { s with inflight := l } _ rfl (fun x hx => hc x (List.mem_cons_of_mem _ hx))]
    simp

theorem calls_handles (l : List Call) :
    calledHandles (l.map (fun c => .invoked c.cb c.handle c.target c.source)) = l.map Call.handle ∧
    addedHandles (l.map (fun c => .invoked c.cb c.handle c.target c.source)) = [] := by
  induction l with
  | nil => exact ⟨rfl, rfl⟩
  | cons c l ih => simp [calledHandles, addedHandles, ih.1, ih.2]

theorem calledHandles_queue (f : Nat → REv) (hf : ∀ i, ∃ h cb t s tm, f i = .added h cb t s tm) (l : List Nat) :
    calledHandles (l.map f) = [] := by
  induction l with
  | nil => rfl
  | cons i l ih =>
    obtain ⟨h, cb, t, s, tm, e⟩ := hf i
    rw [List.map_cons, e]
    exact ih

theorem added_queue (n : Nat) : addedHandles ((List.range n).map (fun i => REv.added (i + 1) 1 ['w'] ['a'] (5 + i))) =
    List.range' 1 n := by
  induction n with
  | zero => rfl
  | succ n ih =>
    rw [List.range_succ, List.map_append, addedHandles_append, ih, List.range'_concat]
    simp [addedHandles, Nat.add_comm]

/-- A sweep that answers everything, when every waiting request's callback is registered. -/
theorem test_all_told [Rigid X] {D : Duration} {s : RBuf X} {evs : List REv} (hi : RInv D s evs)
    (hnt : ∀ e, REv.testThrew e ∉ s.test.2) (hcb : ∀ r ∈ s.reqs, r.cb ∈ s.cbs) :
    extractedHandles s.test.2 = answeredHandles s.test.2 ∧ addedHandles s.test.2 = [] ∧ calledHandles s.test.2 = [] ∧
      s.test.1.cbs = s.cbs ∧ s.test.1.reqCounter = s.reqCounter := by
  have o := test_out hi.wf hi.reqs
  generalize s.test = tr at *
  obtain ⟨s', new⟩ := tr
  simp only at *
  cases o with
  | threw _ _ _ => exact absurd (show REv.testThrew .runtime ∈ _ by simp) (hnt .runtime)
  | @done kept fired calls perm keptV firedV cf =>
    refine ⟨?_, (fired_added _ _ _).1, (fired_added _ _ _).2.1, rfl, rfl⟩
    rw [extracted_fired, answered_fired]
    congr 1
    rw [List.filter_eq_self]
    intro r hr
    exact decide_eq_true (hcb r (perm.mem_iff.1 (List.mem_append_right _ hr)))

/-- The state after the transform that makes `n + 1` waiting requests answerable. -/
theorem unlock_spec (n : Nat) (hn : n < 2 ^ 61) :
    let r := (RBuf.history 100 (queueOf (n + 1))).1.step unlock
    r.1.scheduled = 1 :: (List.range' 2 n).reverse ∧ (∀ c ∈ r.1.inflight, c.cb = 1) ∧ r.1.cbs = [1] ∧
      r.1.buf = ((Buf.init 100 : Buf Int).setTransform (tmsg ['w'] ['a'] 0 1) ['u'] true).1 ∧
      addedHandles r.2 = [] ∧ calledHandles r.2 = [] := by
  intro r
  have hr : r = (RBuf.history 100 (queueOf (n + 1))).1.step (.set (tmsg ['w'] ['a'] 0 1) ['u'] true) := rfl
  rw [hr]
  obtain ⟨h1, h2, h3, h4, h5, h6⟩ := queueOf_spec (n + 1) (by omega)
  have hadd : addedHandles (RBuf.history 100 (queueOf (n + 1))).2 = List.range' 1 (n + 1) := by
    rw [h6]; exact added_queue (n + 1)
  have hlim : (addedHandles (RBuf.history 100 (queueOf (n + 1))).2).length < 2 ^ 64 - 1 := by
    rw [hadd, List.length_range']; omega
  have hmem : ∀ {h cb : Nat} {t src : Name} {tm : Time},
      REv.added h cb t src tm ∈ (RBuf.history 100 (queueOf (n + 1))).2 →
      cb = 1 ∧ t = ['w'] ∧ src = ['a'] ∧ tm < 5 + (n + 1) := by
    intro h cb t src tm hm
    rw [h6] at hm
    simp only [List.mem_cons, List.mem_map, List.mem_range, reduceCtorEq, false_or, REv.added.injEq] at hm
    obtain ⟨i, hi, _, rfl, rfl, rfl, rfl⟩ := hm
    exact ⟨rfl, rfl, rfl, by omega⟩
  have hnt := C33_no_throw 100 (queueOf (n + 1)) (tmsg ['w'] ['a'] 0 1) ['u'] true hlim (fun h cb t src tm hm _ => by
    have := (hmem hm).2.2.2
    unfold timeAdd
    rw [if_pos ⟨by omega, by unfold TIME_MAX; omega⟩]
    simp)
  have hinv := history_inv hlim
  have hacc : REv.setDone .accepted ∈
      ((RBuf.history 100 (queueOf (n + 1))).1.step (.set (tmsg ['w'] ['a'] 0 1) ['u'] true)).2 := by
    simp only [RBuf.step, RBuf.setTransform, h3]
    have := unlock_accepted
    generalize (Buf.init 100 : Buf Int).setTransform (tmsg ['w'] ['a'] 0 1) ['u'] true = r at *
    obtain ⟨b, r⟩ := r
    simp only at this
    subst this
    simp
  have hall : ((RBuf.history 100 (queueOf (n + 1))).1.step (.set (tmsg ['w'] ['a'] 0 1) ['u'] true)).1.pending = [] := by
    refine List.eq_nil_iff_forall_not_mem.2 (fun h hh => ?_)
    have hp : h ∈ (RBuf.history 100 (queueOf (n + 1))).1.pending := by
      rw [(C101_order 100 _ _ _ _ hlim hacc hnt).2.1, (leftWaiting_perm _ _).mem_iff] at hh
      exact (List.mem_filter.1 hh).1
    obtain ⟨r, hr, rfl⟩ := List.mem_map.1 hp
    obtain ⟨t, src, _, k2, _⟩ := hinv.reqs r hr
    have hno := (C33_answerable_answered 100 _ _ _ _ hlim hacc hnt k2 hh).1
    obtain ⟨_, rfl, rfl, _⟩ := hmem k2
    obtain ⟨b, hb, _, e1, _⟩ := accepted_sweep hinv hacc
    have hb' : ((RBuf.history 100 (queueOf (n + 1))).1.step (.set (tmsg ['w'] ['a'] 0 1) ['u'] true)).1.buf = b := by
      rw [e1]; unfold RBuf.test; split <;> rfl
    rw [hb', hb, h3, unlocked] at hno
    cases hno
  have hord := C101_all_reversed 100 _ _ _ _ hlim hacc hnt (first := 1) (rest := List.range' 2 n)
    (by rw [h1]; rfl) hall
  have hsch := (C101_order 100 _ _ _ _ hlim hacc hnt).2.2
  -- everybody is told
  have hcb : ∀ r ∈ (RBuf.history 100 (queueOf (n + 1))).1.reqs, r.cb ∈ [1] := by
    intro r hr
    obtain ⟨t, src, _, k2, _⟩ := hinv.reqs r hr
    rw [(hmem k2).1]; exact List.mem_cons_self ..
  obtain ⟨b, _, hi', e1, e2⟩ := accepted_sweep hinv hacc
  obtain ⟨q1, q2, q3, q4, q5⟩ := test_all_told hi' (fun e he => hnt e (by rw [e2]; exact List.mem_cons_of_mem _ he))
    (by simp only [h4]; exact hcb)
  replace q4 := q4.trans h4
  have hq2 : addedHandles ((RBuf.history 100 (queueOf (n + 1))).1.step (.set (tmsg ['w'] ['a'] 0 1) ['u'] true)).2 = [] := by
    rw [e2]; exact q2
  have hq3 : calledHandles ((RBuf.history 100 (queueOf (n + 1))).1.step (.set (tmsg ['w'] ['a'] 0 1) ['u'] true)).2 = [] := by
    rw [e2]; exact q3
  have hq1 : extractedHandles ((RBuf.history 100 (queueOf (n + 1))).1.step (.set (tmsg ['w'] ['a'] 0 1) ['u'] true)).2 =
      1 :: (List.range' 2 n).reverse := by
    rw [← hord, e2]; exact q1
  have hq4 : ((RBuf.history 100 (queueOf (n + 1))).1.step (.set (tmsg ['w'] ['a'] 0 1) ['u'] true)).1.cbs = [1] := by
    rw [e1]; exact q4
  have hi1 := hinv.step (.set (tmsg ['w'] ['a'] 0 1) ['u'] true) (by
    rw [addedHandles_append, hq2, List.append_nil]; exact hlim)
  rw [hq1] at hsch
  have hs0 : (RBuf.history 100 (queueOf (n + 1))).1.scheduled = [] := by unfold RBuf.scheduled; rw [h5]; rfl
  rw [hs0, List.nil_append] at hsch
  refine ⟨hsch, ?_, hq4, ?_, hq2, hq3⟩
  · intro c hc
    obtain ⟨tm, hm⟩ := (hi1.infl c hc).1
    have hm' : REv.added c.handle c.cb c.target c.source tm ∈ (RBuf.history 100 (queueOf (n + 1))).2 := by
      rcases List.mem_append.1 hm with hm | hm
      · exact hm
      · have : c.handle ∈ addedHandles _ := mem_addedHandles.2 ⟨_, _, _, _, hm⟩
        rw [hq2] at this; cases this
    exact (hmem hm').1
  · obtain ⟨b', hb', _, e1', _⟩ := accepted_sweep hinv hacc
    rw [e1', ← h3, ← hb']
    unfold RBuf.test; split <;> rfl

/-- **C101, finding.** For every `n`: of `n + 1` requests made one after the other for ever later times, that one
transform makes answerable, the callback is called for the first, then for the last, and so on back to the second:
1, n+1, n, …, 2. -/
theorem C101_reversed_finding (n : Nat) (hn : n < 2 ^ 61) :
    let evs := (RBuf.history 100 (queueOf (n + 1) ++ unlock :: List.replicate (n + 1) (.invoke 0))).2
    (∀ i, i < n + 1 → REv.added (i + 1) 1 ['w'] ['a'] (5 + i) ∈ evs) ∧
    addedHandles evs = List.range' 1 (n + 1) ∧
    calledHandles evs = 1 :: (List.range' 2 n).reverse := by
  obtain ⟨h1, h2, h3, h4, h5, h6⟩ := queueOf_spec (n + 1) (by omega)
  obtain ⟨u1, u2, u3, _, u5, u6⟩ := unlock_spec n hn
  have hadd : addedHandles (RBuf.history 100 (queueOf (n + 1))).2 = List.range' 1 (n + 1) := by
    rw [h6]; exact added_queue (n + 1)
  have hcalled0 : calledHandles (RBuf.history 100 (queueOf (n + 1))).2 = [] := by
    rw [h6]
    exact calledHandles_queue _ (fun i => ⟨_, _, _, _, _, rfl⟩) _
  have hrun : RBuf.history 100 (queueOf (n + 1) ++ unlock :: List.replicate (n + 1) (.invoke 0)) =
      RBuf.run (List.replicate (n + 1) (.invoke 0)) ((RBuf.history 100 (queueOf (n + 1))).1.step unlock).1
        ((RBuf.history 100 (queueOf (n + 1))).2 ++ ((RBuf.history 100 (queueOf (n + 1))).1.step unlock).2) := by
    unfold RBuf.history
    rw [rrun_append]; rfl
  rw [hrun]
  generalize (RBuf.history 100 (queueOf (n + 1))).1.step unlock = st at *
  obtain ⟨s1, new⟩ := st
  simp only at u1 u2 u3 u5 u6 ⊢
  have hlen : s1.inflight.length = n + 1 := by
    have := congrArg List.length u1
    unfold RBuf.scheduled at this
    simpa using this
  have hcalls := calls_in_turn s1.inflight s1 ((RBuf.history 100 (queueOf (n + 1))).2 ++ new) rfl
    (fun c hc => by rw [u3, u2 c hc]; exact List.mem_cons_self ..)
  rw [hlen] at hcalls
  rw [hcalls]
  obtain ⟨c1, c2⟩ := calls_handles s1.inflight
  refine ⟨?_, ?_, ?_⟩
  · intro i hi
    refine List.mem_append_left _ (List.mem_append_left _ ?_)
    rw [h6]
    exact List.mem_cons_of_mem _ (List.mem_map.2 ⟨i, List.mem_range.2 hi, rfl⟩)
  · rw [addedHandles_append, addedHandles_append, hadd, u5, c2]; simp
  · rw [calledHandles_append, calledHandles_append, hcalled0, u6, c1]
    simpa [RBuf.scheduled] using u1

/-- The hypotheses are met: four requests waiting, all answered by one transform, in the order 1, 4, 3, 2; and five
of which only the second, third and fifth can be answered, in the order 2, 5, 3, leaving 1 and 4. -/
example : let s := (RBuf.history 100 (queueOf 4)).1
    answeredHandles (RBuf.history 100 (queueOf 4)).2 = [] ∧ s.pending = [1, 2, 3, 4] ∧
    (s.step unlock).2 = [.setDone .accepted, .extracted 1 true, .extracted 4 true, .extracted 3 true,
      .extracted 2 true] ∧ (s.step unlock).1.pending = [] := by decide

def mixedQueue : List (ROp Int) :=
  [.addCallback, .addRequest 1 ['w'] ['x'] 5, .addRequest 1 ['w'] ['a'] 6, .addRequest 1 ['w'] ['a'] 7,
   .addRequest 1 ['w'] ['x'] 8, .addRequest 1 ['w'] ['a'] 9]

example : let s := (RBuf.history 100 mixedQueue).1
    s.pending = [1, 2, 3, 4, 5] ∧
    (s.step unlock).2 = [.setDone .accepted, .extracted 2 true, .extracted 5 true, .extracted 3 true] ∧
    (s.step unlock).1.pending = [1, 4] := by decide

end Tf2
