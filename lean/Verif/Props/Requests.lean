import Verif.Proofs.RequestInv
import Verif.Proofs.Examples

/-!
# C32, C33, C34: transformable requests
-/
namespace Tf2

variable {X : Type}

/-! ### Helpers local to this file -/

theorem history_inv [Rigid X] {D : Duration} {ops : List (ROp X)}
    (hlim : (addedHandles (RBuf.history D ops).2).length < 2 ^ 64 - 1) :
    RInv D (RBuf.history D ops).1 (RBuf.history D ops).2 := RInv.run ops (RInv.init D) hlim

theorem RInv.count_le_one {D : Duration} {s : RBuf X} {evs : List REv} (h : RInv D s evs) (k : Nat) :
    cnt s evs k ≤ 1 := by
  refine Nat.le_trans (h.count k) ?_
  rw [h.added]
  exact List.nodup_iff_count.1 List.nodup_range' k

/-- A handle that has been given out and is neither pending nor scheduled. -/
def DeadHandle (s : RBuf X) (h : Nat) : Prop := h ≤ s.reqCounter ∧ h ∉ s.pending ∧ h ∉ s.scheduled

theorem TestOut.dead {D : Duration} {s s' : RBuf X} {new : List REv} (o : TestOut D s s' new) {h : Nat}
    (hd : DeadHandle s h) : DeadHandle s' h ∧ h ∉ calledHandles new := by
  obtain ⟨d1, d2, d3⟩ := hd
  cases o with
  | @done kept fired calls perm keptV firedV cf =>
    refine ⟨⟨d1, ?_, ?_⟩, by rw [(fired_added s.buf s.cbs fired).2.1]; simp⟩
    · unfold RBuf.pending
      rw [map_resolve_handle]
      intro hm
      obtain ⟨r, hr, rfl⟩ := List.mem_map.1 hm
      exact d2 (List.mem_map.2 ⟨r, perm.mem_iff.1 (List.mem_append_left _ hr), rfl⟩)
    · unfold RBuf.scheduled
      rw [List.map_append, cf.1]
      intro hm
      rcases List.mem_append.1 hm with hm | hm
      · exact d3 hm
      · obtain ⟨r, hr, rfl⟩ := List.mem_map.1 hm
        exact d2 (List.mem_map.2 ⟨r, perm.mem_iff.1 (List.mem_append_right _ (List.mem_filter.1 hr).1), rfl⟩)
  | @threw kept fired l r perm rV firedV =>
    refine ⟨⟨d1, ?_, d3⟩, ?_⟩
    · unfold RBuf.pending
      rw [List.map_append, map_resolve_handle]
      intro hm
      rcases List.mem_append.1 hm with hm | hm
      · obtain ⟨r', hr, rfl⟩ := List.mem_map.1 hm
        exact d2 (List.mem_map.2 ⟨r', perm.mem_iff.1 (List.mem_append_left _ (List.mem_append_left _ hr)), rfl⟩)
      · rw [List.map_cons, Request.resolve_handle, ← List.map_cons] at hm
        obtain ⟨r', hr, rfl⟩ := List.mem_map.1 hm
        exact d2 (List.mem_map.2 ⟨r', perm.mem_iff.1 (List.mem_append_right _ hr), rfl⟩)
    · rw [calledHandles_append, (dropped_added fired).2.1]
      simp [calledHandles]

theorem DeadHandle.step [Rigid X] {D : Duration} {s : RBuf X} {evs : List REv} (hi : RInv D s evs) (op : ROp X)
    (hlim : (addedHandles (evs ++ (s.step op).2)).length < 2 ^ 64 - 1) {h : Nat} (hd : DeadHandle s h) :
    DeadHandle (s.step op).1 h ∧ h ∉ calledHandles (s.step op).2 := by
  cases op with
  | clear => exact ⟨hd, by simp [RBuf.step, calledHandles]⟩
  | addCallback =>
    simp only [RBuf.step, RBuf.addCallback]
    cases RBuf.nextCb s.cbs (s.cbs.length + 1) s.cbCounter with
    | none => exact ⟨hd, by simp [calledHandles]⟩
    | some c => exact ⟨hd, by simp [calledHandles]⟩
  | removeCallback cb =>
    refine ⟨⟨hd.1, ?_, hd.2.2⟩, by simp [RBuf.step, RBuf.removeCallback, calledHandles]⟩
    intro hm
    obtain ⟨r, hr, rfl⟩ := List.mem_map.1 hm
    exact hd.2.1 (List.mem_map.2 ⟨r, (List.mem_filter.1 hr).1, rfl⟩)
  | cancelRequest k =>
    refine ⟨⟨hd.1, ?_, hd.2.2⟩, by simp [RBuf.step, RBuf.cancelRequest, calledHandles]⟩
    intro hm
    obtain ⟨r, hr, rfl⟩ := List.mem_map.1 hm
    exact hd.2.1 (List.mem_map.2 ⟨r, (List.mem_filter.1 hr).1, rfl⟩)
  | invoke k =>
    simp only [RBuf.step, RBuf.invoke]
    cases hc : s.inflight[k]? with
    | none => exact ⟨hd, by simp [calledHandles]⟩
    | some c =>
      have hne : c.handle ≠ h := by
        rintro rfl
        exact hd.2.2 (List.mem_map.2 ⟨c, List.mem_of_getElem? hc, rfl⟩)
      refine ⟨⟨hd.1, hd.2.1, ?_⟩, ?_⟩
      · intro hm
        obtain ⟨r, hr, rfl⟩ := List.mem_map.1 hm
        exact hd.2.2 (List.mem_map.2 ⟨r, List.mem_of_mem_eraseIdx hr, rfl⟩)
      · simp only
        split <;> simp [calledHandles, Ne.symm hne]
  | addRequest cb t src time =>
    have hinv := hi.step (.addRequest cb t src time) hlim
    simp only [RBuf.step] at hlim hinv ⊢
    have o := addRequest_out hi.wf cb t src time
    generalize (s.addRequest cb t src time).1 = s' at *
    generalize (s.addRequest cb t src time).2 = new at *
    cases o with
    | pending hne hc ho r hr =>
      refine ⟨⟨?_, ?_, hd.2.2⟩, by simp [calledHandles]⟩
      · rw [addedHandles_append, hi.added] at hlim
        simp only [addedHandles, List.length_append, List.length_range', List.length_cons, List.length_nil] at hlim
        simp only [RBuf.nextHandle]
        rw [Nat.mod_eq_of_lt (by omega)]
        have := hd.1; omega
      · rw [addedHandles_append, hi.added] at hlim
        simp only [addedHandles, List.length_append, List.length_range', List.length_cons, List.length_nil] at hlim
        intro hm
        unfold RBuf.pending at hm
        simp only [List.map_append, List.map_cons, List.map_nil, List.mem_append, List.mem_singleton] at hm
        rcases hm with hm | hm
        · exact hd.2.1 hm
        · rw [hr] at hm
          simp only [RBuf.nextHandle] at hm
          rw [Nat.mod_eq_of_lt (by omega), if_neg (by omega)] at hm
          have := hd.1; omega
    | _ => exact ⟨hd, by simp [calledHandles]⟩
  | set m a st =>
    simp only [RBuf.step, RBuf.setTransform]
    have hw : WF D (s.buf.setTransform m a st).1 := hi.wf.setTransform m a st
    have hb : ∀ n i, s.buf.frameIDs n = some i → (s.buf.setTransform m a st).1.frameIDs n = some i :=
      fun n i hn => frameIDs_step hi.wf (.set m a st) hn
    generalize s.buf.setTransform m a st = r at *
    obtain ⟨b, r⟩ := r
    have hd' : DeadHandle { s with buf := b } h := hd
    cases r with
    | accepted =>
      have h1 := (hi.rebuf hw hb)
      obtain ⟨k1, k2⟩ := (test_out h1.wf h1.reqs).dead hd'
      exact ⟨k1, by simpa [calledHandles] using k2⟩
    | _ => exact ⟨hd', by simp [calledHandles]⟩

theorem DeadHandle.run [Rigid X] {D : Duration} (ops : List (ROp X)) : ∀ {s : RBuf X} {evs : List REv},
    RInv D s evs → (addedHandles (evs ++ (RBuf.run ops s []).2)).length < 2 ^ 64 - 1 →
    ∀ {h : Nat}, DeadHandle s h → h ∉ calledHandles (RBuf.run ops s []).2 := by
  induction ops with
  | nil => intro s evs _ _ h _; simp [RBuf.run, calledHandles]
  | cons op r ih =>
    intro s evs hi hlim h hd
    have hrun : (RBuf.run (op :: r) s []).2 = (s.step op).2 ++ (RBuf.run r (s.step op).1 []).2 := by
      simp only [RBuf.run]; rw [run_eq_append]; simp
    rw [hrun, ← List.append_assoc] at hlim
    have hl1 : (addedHandles (evs ++ (s.step op).2)).length < 2 ^ 64 - 1 := by
      rw [addedHandles_append, List.length_append] at hlim; omega
    obtain ⟨k1, k2⟩ := DeadHandle.step hi op hl1 hd
    have := ih (hi.step op hl1) hlim k1
    rw [hrun, calledHandles_append]
    simp only [List.mem_append, not_or]
    exact ⟨k2, this⟩

/-- An invocation is emitted only by the step that makes it. -/
theorem invoked_mem_step [Rigid X] {D : Duration} {s : RBuf X} {evs : List REv} (hi : RInv D s evs) {op : ROp X}
    {cb h : Nat} {t src : Name} (hm : REv.invoked cb h t src ∈ (s.step op).2) :
    (s.step op).2 = [REv.invoked cb h t src] ∧ ∃ tm, REv.added h cb t src tm ∈ evs := by
  cases op with
  | clear => simp [RBuf.step] at hm
  | addCallback =>
    simp only [RBuf.step, RBuf.addCallback] at hm
    split at hm <;> simp at hm
  | removeCallback cb => simp [RBuf.step, RBuf.removeCallback] at hm
  | cancelRequest k => simp [RBuf.step, RBuf.cancelRequest] at hm
  | invoke k =>
    simp only [RBuf.step, RBuf.invoke] at hm ⊢
    cases hc : s.inflight[k]? with
    | none => rw [hc] at hm; simp at hm
    | some c =>
      rw [hc] at hm
      simp only [List.mem_singleton] at hm ⊢
      split at hm
      · injection hm with a b c' d
        subst a; subst b; subst c'; subst d
        rename_i hin
        exact ⟨by rw [if_pos hin], (hi.infl c (List.mem_of_getElem? hc)).1⟩
      · cases hm
  | addRequest cb' t' src' time =>
    simp only [RBuf.step] at hm
    have o := addRequest_out hi.wf cb' t' src' time
    generalize (s.addRequest cb' t' src' time).1 = s' at *
    generalize (s.addRequest cb' t' src' time).2 = new at *
    cases o <;> simp at hm
  | set m a st =>
    simp only [RBuf.step, RBuf.setTransform] at hm
    have hw : WF D (s.buf.setTransform m a st).1 := hi.wf.setTransform m a st
    have hb : ∀ n i, s.buf.frameIDs n = some i → (s.buf.setTransform m a st).1.frameIDs n = some i :=
      fun n i hn => frameIDs_step hi.wf (.set m a st) hn
    generalize s.buf.setTransform m a st = r at *
    obtain ⟨b, r⟩ := r
    cases r with
    | accepted =>
      exfalso
      have h1 := (hi.rebuf hw hb)
      have o := test_out h1.wf h1.reqs
      simp only [List.mem_cons, reduceCtorEq, false_or] at hm
      generalize RBuf.test _ = tr at *
      obtain ⟨s', new⟩ := tr
      cases o with
      | done _ _ _ _ => exact (fired_no_undefined _ _ _).2 _ _ _ _ hm
      | threw _ _ _ => simp at hm
    | _ => simp at hm

theorem split_append {α : Type} {e1 e2 a b : List α} {x : α} (h : e1 ++ x :: e2 = a ++ b) :
    (∃ r, a = e1 ++ x :: r) ∨ ∃ r, b = r ++ x :: e2 ∧ e1 = a ++ r := by
  rcases List.append_eq_append_iff.1 h with ⟨r, h1, h2⟩ | ⟨r, h1, h2⟩
  · cases r with
    | nil => exact Or.inr ⟨[], by simpa using h2.symm, by simpa using h1.symm⟩
    | cons y r =>
      injection h2 with h2 h3
      subst h2
      exact Or.inl ⟨r, h1⟩
  · exact Or.inr ⟨r, h2, h1⟩

theorem call_order [Rigid X] {D : Duration} (ops : List (ROp X)) : ∀ {s : RBuf X} {evs : List REv}, RInv D s evs →
    (addedHandles (RBuf.run ops s evs).2).length < 2 ^ 64 - 1 →
    (∀ e1 e2 cb h t src, evs = e1 ++ REv.invoked cb h t src :: e2 → ∃ tm, REv.added h cb t src tm ∈ e1) →
    ∀ e1 e2 cb h t src, (RBuf.run ops s evs).2 = e1 ++ REv.invoked cb h t src :: e2 →
      ∃ tm, REv.added h cb t src tm ∈ e1 := by
  induction ops with
  | nil => intro s evs _ _ h; exact h
  | cons op r ih =>
    intro s evs hi hlim h
    simp only [RBuf.run] at hlim ⊢
    have hl1 : (addedHandles (evs ++ (s.step op).2)).length < 2 ^ 64 - 1 := by
      rw [run_eq_append, addedHandles_append, List.length_append] at hlim
      omega
    refine ih (hi.step op hl1) hlim ?_
    intro e1 e2 cb hh t src he
    rcases split_append he.symm with ⟨r, hr⟩ | ⟨r, hr, he1⟩
    · exact h e1 r cb hh t src hr
    · obtain ⟨k1, tm, k2⟩ := invoked_mem_step hi (op := op) (cb := cb) (h := hh) (t := t) (src := src)
        (by rw [hr]; simp)
      exact ⟨tm, by rw [he1]; exact List.mem_append_left _ k2⟩

/-! ### C32 -/

/-- **C32.** In every history in which fewer than 2^64-1 requests were created, no handle is passed to a
callback twice. -/
theorem C32_at_most_once [Rigid X] (D : Duration) (ops : List (ROp X))
    (hlim : (addedHandles (RBuf.history D ops).2).length < 2 ^ 64 - 1) :
    (calledHandles (RBuf.history D ops).2).Nodup := by
  have h := history_inv hlim
  rw [List.nodup_iff_count]
  intro k
  have := h.count_le_one k
  unfold cnt at this
  omega

/-- **C32.** When a callback is called, with a handle and two frame names, then a request with that handle,
that callback and those names was made before. -/
theorem C32_right_arguments [Rigid X] (D : Duration) (ops : List (ROp X))
    (hlim : (addedHandles (RBuf.history D ops).2).length < 2 ^ 64 - 1)
    {e1 e2 : List REv} {cb h : Nat} {t src : Name}
    (he : (RBuf.history D ops).2 = e1 ++ REv.invoked cb h t src :: e2) :
    ∃ tm, REv.added h cb t src tm ∈ e1 :=
  call_order ops (RInv.init D) hlim (by intro e1 e2 _ _ _ _ h; simp at h) e1 e2 cb h t src he

/-- **C32.** Handles are distinct and never 0 or 2^64-1. -/
theorem C32_handles [Rigid X] (D : Duration) (ops : List (ROp X))
    (hlim : (addedHandles (RBuf.history D ops).2).length < 2 ^ 64 - 1) :
    (addedHandles (RBuf.history D ops).2).Nodup ∧
      ∀ h ∈ addedHandles (RBuf.history D ops).2, h ≠ 0 ∧ h ≠ 2 ^ 64 - 1 := by
  have h := history_inv hlim
  rw [h.added]
  refine ⟨List.nodup_range', ?_⟩
  intro k hk
  have hl : (RBuf.history D ops).1.reqCounter < 2 ^ 64 - 1 := by
    rw [h.added, List.length_range'] at hlim; exact hlim
  have := List.mem_range'_1.1 hk
  omega

/-- **C32.** After `cancelTransformableRequest(h)` of a request that is still pending or already settled
(not one whose answer is on its way), the callback is never called for `h` — for handles below 2^32. -/
theorem C32_cancelled [Rigid X] (D : Duration) (ops later : List (ROp X)) {h : Nat} (hh : h < 2 ^ 32)
    (hlim : (addedHandles (RBuf.history D (ops ++ ROp.cancelRequest h :: later)).2).length < 2 ^ 64 - 1)
    (hmade : h ∈ addedHandles (RBuf.history D ops).2) (hfl : h ∉ (RBuf.history D ops).1.scheduled) :
    h ∉ calledHandles (RBuf.run later (((RBuf.history D ops).1).step (.cancelRequest h)).1 []).2 := by
  unfold RBuf.history at *
  rw [rrun_append] at hlim
  simp only [RBuf.run] at hlim
  rw [run_eq_append] at hlim
  have hl0 : (addedHandles (RBuf.run ops (RBuf.init D) []).2).length < 2 ^ 64 - 1 := by
    simp only [addedHandles_append, List.length_append] at hlim; omega
  have hi := RInv.run ops (RInv.init D) hl0
  have hl1 : (addedHandles ((RBuf.run ops (RBuf.init D) []).2 ++
      ((RBuf.run ops (RBuf.init D) []).1.step (.cancelRequest h)).2)).length < 2 ^ 64 - 1 := by
    simp only [addedHandles_append, List.length_append] at hlim ⊢; omega
  refine DeadHandle.run later (hi.step (.cancelRequest h) hl1) hlim ⟨?_, ?_, hfl⟩
  · rw [hi.added] at hmade
    have := List.mem_range'_1.1 hmade
    show h ≤ (RBuf.run ops (RBuf.init D) []).1.reqCounter
    omega
  · intro hm
    obtain ⟨r, hr, he⟩ := List.mem_map.1 hm
    have := (List.mem_filter.1 hr).2
    rw [Nat.mod_eq_of_lt hh, he] at this
    simp at this

/-- **C32.** After `removeTransformableCallback(cb)` no request made for `cb` is answered any more (unless
its answer was already on its way). -/
theorem C32_callback_removed [Rigid X] (D : Duration) (ops later : List (ROp X)) {h cb : Nat} {t src : Name}
    {tm : Time}
    (hlim : (addedHandles (RBuf.history D (ops ++ ROp.removeCallback cb :: later)).2).length < 2 ^ 64 - 1)
    (hmade : REv.added h cb t src tm ∈ (RBuf.history D ops).2)
    (hfl : h ∉ (RBuf.history D ops).1.scheduled) :
    h ∉ calledHandles (RBuf.run later (((RBuf.history D ops).1).step (.removeCallback cb)).1 []).2 := by
  unfold RBuf.history at *
  rw [rrun_append] at hlim
  simp only [RBuf.run] at hlim
  rw [run_eq_append] at hlim
  have hl0 : (addedHandles (RBuf.run ops (RBuf.init D) []).2).length < 2 ^ 64 - 1 := by
    simp only [addedHandles_append, List.length_append] at hlim; omega
  have hi := RInv.run ops (RInv.init D) hl0
  have hl1 : (addedHandles ((RBuf.run ops (RBuf.init D) []).2 ++
      ((RBuf.run ops (RBuf.init D) []).1.step (.removeCallback cb)).2)).length < 2 ^ 64 - 1 := by
    simp only [addedHandles_append, List.length_append] at hlim ⊢; omega
  refine DeadHandle.run later (hi.step (.removeCallback cb) hl1) hlim ⟨?_, ?_, hfl⟩
  · have hmade' := mem_addedHandles.2 ⟨_, _, _, _, hmade⟩
    rw [hi.added] at hmade'
    have := List.mem_range'_1.1 hmade'
    show h ≤ (RBuf.run ops (RBuf.init D) []).1.reqCounter
    omega
  · intro hm
    obtain ⟨r, hr, rfl⟩ := List.mem_map.1 hm
    obtain ⟨hr1, hr2⟩ := List.mem_filter.1 hr
    obtain ⟨t', s', _, hadd, _⟩ := hi.reqs r hr1
    have hnd : (addedHandles (RBuf.run ops (RBuf.init D) []).2).Nodup := by
      rw [hi.added]; exact List.nodup_range'
    have := (added_unique hnd hmade hadd).1
    rw [this] at hr2
    simp at hr2

/-- **C32.** No history has undefined behaviour in the bookkeeping of requests (out-of-range slots, `back()` of
an empty vector, unknown frame numbers). -/
theorem C32_no_undefined [Rigid X] (D : Duration) (ops : List (ROp X))
    (hlim : (addedHandles (RBuf.history D ops).2).length < 2 ^ 64 - 1) :
    REv.undefined ∉ (RBuf.history D ops).2 := (history_inv hlim).fine


/-- A history with three requests: one answered, one cancelled, one still waiting. -/
def reqOps : List (ROp Int) :=
  [.addCallback, .addRequest 1 ['w'] ['a'] 15, .addRequest 1 ['a'] ['b'] 15, .addRequest 1 ['x'] ['b'] 15,
   .set (tmsg ['w'] ['a'] 10 1) ['u'] false, .cancelRequest 2, .set (tmsg ['w'] ['a'] 20 3) ['u'] false,
   .set (tmsg ['a'] ['b'] 10 1) ['u'] false, .set (tmsg ['a'] ['b'] 20 1) ['u'] false, .invoke 0]

/-- The hypotheses of the C32 theorems are met by it, and it calls one callback. -/
example : (RBuf.history 100 reqOps).2 =
    [.registered 1, .added 1 1 ['w'] ['a'] 15, .added 2 1 ['a'] ['b'] 15, .added 3 1 ['x'] ['b'] 15,
     .setDone .accepted, .cancelled 2, .setDone .accepted, .extracted 1 true, .setDone .accepted,
     .setDone .accepted, .invoked 1 1 ['w'] ['a']] := by decide

example : (2 ∈ addedHandles (RBuf.history 100 (reqOps.take 5)).2) ∧
    2 ∉ (RBuf.history 100 (reqOps.take 5)).1.scheduled ∧ (RBuf.history 100 (reqOps.take 5)).1.pending = [1, 2, 3] := by
  decide

/-- **C32, finding.** Cancelling a request, or removing its callback, after its answer has been collected and
before the callback has been called (the mutex is not held in between) does not stop the call; in the second
case the function object that is called no longer exists. -/
theorem C32_cancel_in_flight_finding :
    (∃ (ops : List (ROp Int)), REv.invoked 1 1 ['w'] ['a'] ∈
        (RBuf.history 100 (ops ++ [.cancelRequest 1, .invoke 0])).2 ∧
        REv.cancelled 1 ∈ (RBuf.history 100 (ops ++ [.cancelRequest 1])).2 ∧
        REv.invoked 1 1 ['w'] ['a'] ∉ (RBuf.history 100 (ops ++ [.cancelRequest 1])).2) ∧
    ∃ (ops : List (ROp Int)), REv.danglingInvoke 1 1 ∈
        (RBuf.history 100 (ops ++ [.removeCallback 1, .invoke 0])).2 := by
  refine ⟨⟨[.addCallback, .addRequest 1 ['w'] ['a'] 10, .set (tmsg ['w'] ['a'] 10 1) ['u'] false], ?_⟩,
    ⟨[.addCallback, .addRequest 1 ['w'] ['a'] 10, .set (tmsg ['w'] ['a'] 10 1) ['u'] false], ?_⟩⟩ <;> decide

/-- `n` requests for frames nobody has heard of. -/
def manyRequests (n : Nat) : List (ROp Int) := List.replicate n (.addRequest 1 ['a'] ['b'] 5)

theorem manyRequests_spec (n : Nat) (hn : n < 2 ^ 64 - 1) :
    (RBuf.history 100 (manyRequests n)).1.pending = List.range' 1 n ∧
      (RBuf.history 100 (manyRequests n)).1.reqCounter = n ∧
      (RBuf.history 100 (manyRequests n)).1.buf = Buf.init 100 := by
  induction n with
  | zero => exact ⟨rfl, rfl, rfl⟩
  | succ n ih =>
    obtain ⟨h1, h2, h3⟩ := ih (by omega)
    unfold RBuf.history manyRequests at *
    rw [List.replicate_succ', rrun_append]
    generalize RBuf.run (List.replicate n (ROp.addRequest (X := Int) 1 ['a'] ['b'] 5)) (RBuf.init 100) [] = r at *
    obtain ⟨s, evs⟩ := r
    simp only at h1 h2 h3
    have hnext : RBuf.nextHandle n = (n + 1, n + 1) := by
      unfold RBuf.nextHandle
      have : (n + 1) % 2 ^ 64 = n + 1 := Nat.mod_eq_of_lt (by omega)
      simp only [this]
      rw [if_neg (by omega)]
    have hl1 : (Buf.init 100 : Buf Int).lookupFrameNumber ['a'] = 0 := by decide
    have hl2 : (Buf.init 100 : Buf Int).lookupFrameNumber ['b'] = 0 := by decide
    have hst : (s.addRequest 1 ['a'] ['b'] 5).1 = { s with
        reqs := s.reqs ++ [⟨5, n + 1, 1, 0, 0, ['a'], ['b']⟩], reqCounter := n + 1 } := by
      unfold RBuf.addRequest
      rw [if_neg (by decide), h3]
      simp only [hl1, hl2, canNoLock_zero, true_or, h2, hnext]
      rfl
    simp only [RBuf.run, RBuf.step, hst]
    refine ⟨?_, trivial, h3⟩
    unfold RBuf.pending at h1 ⊢
    rw [List.map_append, h1, List.range'_concat]
    simp [Nat.add_comm]

theorem cancel_pending [Rigid X] (s : RBuf X) (h k : Nat) :
    k ∈ (s.step (.cancelRequest h)).1.pending ↔ k ∈ s.pending ∧ k ≠ h % 2 ^ 32 := by
  simp only [RBuf.step, RBuf.cancelRequest, RBuf.pending, List.mem_map, List.mem_filter, decide_eq_true_eq]
  constructor
  · rintro ⟨r, ⟨h1, h2⟩, rfl⟩; exact ⟨⟨r, h1, rfl⟩, h2⟩
  · rintro ⟨⟨r, h1, rfl⟩, h2⟩; exact ⟨r, ⟨h1, h2⟩, rfl⟩

/-- **C32, finding.** `cancelTransformableRequest` compares only the low 32 bits of the handle: after enough
requests, cancelling a live handle leaves that request pending and cancels another one. (A history without
any other cancellation.) -/
theorem C32_cancel_truncates_finding : ∃ (ops : List (ROp Int)) (h : Nat),
    h ∈ (RBuf.history 100 ops).1.pending ∧ 1 ∈ (RBuf.history 100 ops).1.pending ∧ h ≠ 1 ∧
    h ∈ (((RBuf.history 100 ops).1).step (.cancelRequest h)).1.pending ∧
    1 ∉ (((RBuf.history 100 ops).1).step (.cancelRequest h)).1.pending := by
  have hs := manyRequests_spec (2 ^ 32 + 1) (by decide)
  refine ⟨manyRequests (2 ^ 32 + 1), 2 ^ 32 + 1, ?_⟩
  simp only [cancel_pending, hs.1, List.mem_range'_1]
  omega

/-! ### Callback handles -/

theorem nextCb_fresh : ∀ (k : Nat) (cbs : List Nat) (c c' : Nat), RBuf.nextCb cbs k c = some c' →
    c' ∉ cbs ∧ c' < 2 ^ 32
  | 0, _, _, _, h => by simp [RBuf.nextCb] at h
  | k + 1, cbs, c, c', h => by
    unfold RBuf.nextCb at h
    dsimp only at h
    split at h
    · exact nextCb_fresh k cbs _ c' h
    · rename_i hn
      injection h with h
      subst h
      exact ⟨hn, Nat.mod_lt _ (by decide)⟩

theorem pigeon : ∀ (l m : List Nat), l.Nodup → (∀ x ∈ l, x ∈ m) → l.length ≤ m.length
  | [], m, _, _ => by simp
  | x :: r, m, hn, hs => by
    have hx := hs x (List.mem_cons_self ..)
    have := pigeon r (m.erase x) (List.nodup_cons.1 hn).2 (by
      intro y hy
      have hne : y ≠ x := by rintro rfl; exact (List.nodup_cons.1 hn).1 hy
      exact (List.mem_erase_of_ne hne).2 (hs y (List.mem_cons_of_mem _ hy)))
    rw [List.length_erase_of_mem hx] at this
    have : 0 < m.length := List.length_pos_of_mem hx
    simp only [List.length_cons]; omega

theorem nextCb_none : ∀ (k : Nat) (cbs : List Nat) (c : Nat), RBuf.nextCb cbs k c = none →
    ∀ j, j < k → (c + 1 + j) % 2 ^ 32 ∈ cbs
  | 0, _, _, _, j, hj => by omega
  | k + 1, cbs, c, h, j, hj => by
    unfold RBuf.nextCb at h
    dsimp only at h
    split at h
    · rename_i hin
      cases j with
      | zero => exact hin
      | succ j =>
        have := nextCb_none k cbs _ h j (by omega)
        have e : ((c + 1) % 2 ^ 32 + 1 + j) % 2 ^ 32 = (c + 1 + (j + 1)) % 2 ^ 32 := by omega
        rw [e] at this; exact this
    · cases h

/-- **C32.** `addTransformableCallback` returns a handle no registered callback has, as long as fewer than 2^32
are registered (with all in use it does not return). -/
theorem C32_callback_handles_fresh (s : RBuf X) :
    (∃ c, s.addCallback.2 = [REv.registered c] ∧ c ∉ s.cbs ∧ s.addCallback.1.cbs = s.cbs ++ [c]) ∨
      (s.addCallback.2 = [REv.registerHangs] ∧ 2 ^ 32 ≤ s.cbs.length) := by
  unfold RBuf.addCallback
  cases h : RBuf.nextCb s.cbs (s.cbs.length + 1) s.cbCounter with
  | some c => exact Or.inl ⟨c, rfl, (nextCb_fresh _ _ _ _ h).1, rfl⟩
  | none =>
    right
    refine ⟨rfl, ?_⟩
    rcases Nat.lt_or_ge s.cbs.length (2 ^ 32) with hlt | hge
    · exfalso
      have hn := nextCb_none _ _ _ h
      have := pigeon ((List.range (s.cbs.length + 1)).map (fun j => (s.cbCounter + 1 + j) % 2 ^ 32)) s.cbs
        (by
          rw [List.nodup_iff_pairwise_ne, List.pairwise_map]
          refine List.Pairwise.imp_of_mem ?_ List.nodup_range
          intro a b ha hb hab
          have := List.mem_range.1 ha
          have := List.mem_range.1 hb
          omega)
        (by
          intro x hx
          obtain ⟨j, hj, rfl⟩ := List.mem_map.1 hx
          exact hn j (List.mem_range.1 hj))
      rw [List.length_map, List.length_range] at this
      omega
    · exact hge

/-! ### C33 -/

theorem canTransform_noLock {b : Buf X} {t src : Name} (hne : t ≠ src) (lt : LegalName t) (ls : LegalName src)
    (tm : Time) : b.canTransform t src tm =
      b.canTransformNoLock (b.lookupFrameNumber t) (b.lookupFrameNumber src) tm := by
  unfold Buf.canTransform
  rw [if_neg hne, warn_legal lt, warn_legal ls]
  simp only [Bool.false_eq_true, if_false]
  split
  · rename_i h; rw [canNoLock_zero h]
  · rfl

theorem canTransform_false_of_noLock {b : Buf X} {t src : Name} (hne : t ≠ src) {tm : Time}
    (h : b.canTransformNoLock (b.lookupFrameNumber t) (b.lookupFrameNumber src) tm = .ok false) :
    b.canTransform t src tm = .ok false := by
  unfold Buf.canTransform
  rw [if_neg hne]
  split
  · rfl
  · split
    · rfl
    · split
      · rfl
      · exact h

theorem tooOld_ids {b : Buf X} {t src : Name} {tm : Time} (h : TooOld b t src tm) :
    ∃ l e, b.latestCommonTime (b.lookupFrameNumber t) (b.lookupFrameNumber src) = .ok l ∧ l ≠ 0 ∧
      timeAdd tm b.cacheTime = some e ∧ e < l := by
  obtain ⟨i, j, l, e, h1, h2, h3⟩ := h
  rw [lookupFrameNumber_isFrame h1, lookupFrameNumber_isFrame h2]
  exact ⟨l, e, h3⟩

/-- An accepted `setTransform` as a sweep of the new buffer. -/
theorem accepted_sweep [Rigid X] {D : Duration} {s : RBuf X} {evs : List REv} (hi : RInv D s evs) {m : Msg X}
    {a : Name} {st : Bool} (hacc : REv.setDone .accepted ∈ (s.step (.set m a st)).2) :
    ∃ b, b = (s.buf.setTransform m a st).1 ∧ RInv D { s with buf := b } evs ∧
      (s.step (.set m a st)).1 = ({ s with buf := b } : RBuf X).test.1 ∧
      (s.step (.set m a st)).2 = .setDone .accepted :: ({ s with buf := b } : RBuf X).test.2 := by
  simp only [RBuf.step, RBuf.setTransform] at hacc ⊢
  have hw : WF D (s.buf.setTransform m a st).1 := hi.wf.setTransform m a st
  have hb : ∀ n i, s.buf.frameIDs n = some i → (s.buf.setTransform m a st).1.frameIDs n = some i :=
    fun n i hn => frameIDs_step hi.wf (.set m a st) hn
  generalize s.buf.setTransform m a st = r at *
  obtain ⟨b, r⟩ := r
  cases r with
  | accepted => exact ⟨b, rfl, hi.rebuf hw hb, rfl, rfl⟩
  | _ => simp at hacc

/-- **C33.** After an accepted `setTransform` that did not throw, no request remains pending that could be
transformed at its time, or that is older than the cache window. -/
theorem C33_answerable_answered [Rigid X] (D : Duration) (ops : List (ROp X)) (m : Msg X) (a : Name) (st : Bool)
    (hlim : (addedHandles (RBuf.history D ops).2).length < 2 ^ 64 - 1)
    (hacc : REv.setDone .accepted ∈ ((RBuf.history D ops).1.step (.set m a st)).2)
    (hnt : ∀ e, REv.testThrew e ∉ ((RBuf.history D ops).1.step (.set m a st)).2)
    {h cb : Nat} {t src : Name} {tm : Time} (hadd : REv.added h cb t src tm ∈ (RBuf.history D ops).2)
    (hpend : h ∈ ((RBuf.history D ops).1.step (.set m a st)).1.pending) :
    ((RBuf.history D ops).1.step (.set m a st)).1.buf.canTransform t src tm = .ok false ∧
      ¬ TooOld ((RBuf.history D ops).1.step (.set m a st)).1.buf t src tm := by
  have hi := history_inv hlim
  generalize RBuf.history D ops = hist at *
  obtain ⟨s, evs⟩ := hist
  simp only at *
  obtain ⟨b, _, hi', e1, e2⟩ := accepted_sweep hi hacc
  rw [e1] at hpend ⊢
  rw [e2] at hnt
  have o := test_out hi'.wf hi'.reqs
  generalize RBuf.test _ = tr at *
  obtain ⟨s', new⟩ := tr
  simp only at *
  cases o with
  | threw _ _ _ => exact absurd (show REv.testThrew .runtime ∈ _ by simp) (hnt .runtime)
  | @done kept fired calls perm keptV firedV cf =>
    simp only
    unfold RBuf.pending at hpend
    rw [map_resolve_handle] at hpend
    obtain ⟨r, hr, rfl⟩ := List.mem_map.1 hpend
    obtain ⟨t', src', k1, k2, k3⟩ := hi'.reqs r (perm.mem_iff.1 (List.mem_append_left _ hr))
    have hnd : (addedHandles evs).Nodup := by rw [hi'.added]; exact List.nodup_range'
    obtain ⟨_, rfl, rfl, rfl⟩ := added_unique hnd hadd k2
    have hv := keptV r hr
    unfold Request.verdictIn at hv
    have hf := verdict_facts hi'.wf (r.resolve b).tid (r.resolve b).sid r.time
    simp only at hv
    rw [hv] at hf
    obtain ⟨r1, r2⟩ := k3.resolve_tid
    simp only at r1 r2
    rw [r1, r2] at hf
    refine ⟨canTransform_false_of_noLock k1 hf.1, ?_⟩
    intro ho
    obtain ⟨l, e, o1, o2, o3, o4⟩ := tooOld_ids ho
    rw [hi'.wf.cacheTime] at o3
    exact hf.2 l e o1 o2 o3 o4

/-- **C33.** The sweep throws only if some pending request's time plus the storage duration is not a
representable time. -/
theorem C33_no_throw [Rigid X] (D : Duration) (ops : List (ROp X)) (m : Msg X) (a : Name) (st : Bool)
    (hlim : (addedHandles (RBuf.history D ops).2).length < 2 ^ 64 - 1)
    (hrep : ∀ h cb t src tm, REv.added h cb t src tm ∈ (RBuf.history D ops).2 →
      h ∈ (RBuf.history D ops).1.pending → timeAdd tm D ≠ none) (e : Exc) :
    REv.testThrew e ∉ ((RBuf.history D ops).1.step (.set m a st)).2 := by
  have hi := history_inv hlim
  generalize RBuf.history D ops = hist at *
  obtain ⟨s, evs⟩ := hist
  simp only at *
  intro hthr
  by_cases hacc : REv.setDone .accepted ∈ (s.step (.set m a st)).2
  · obtain ⟨b, _, hi', e1, e2⟩ := accepted_sweep hi hacc
    rw [e2] at hthr
    have o := test_out hi'.wf hi'.reqs
    generalize RBuf.test _ = tr at *
    obtain ⟨s', new⟩ := tr
    simp only [List.mem_cons, reduceCtorEq, false_or] at *
    cases o with
    | @threw kept fired l r perm rV firedV =>
      have hr : r ∈ s.reqs := perm.mem_iff.1 (List.mem_append_right _ (List.mem_cons_self ..))
      obtain ⟨t, src, _, k2, _⟩ := hi.reqs r hr
      exact hrep _ _ _ _ _ k2 (List.mem_map.2 ⟨r, hr, rfl⟩) rV
    | @done kept fired calls perm keptV firedV cf =>
      obtain ⟨r, _, hr⟩ := List.mem_map.1 hthr
      unfold firedEv at hr; split at hr <;> cases hr
  · have hub := set_ne_ub hi.wf m a st
    simp only [RBuf.step, RBuf.setTransform] at hacc hthr
    generalize s.buf.setTransform m a st = r at *
    obtain ⟨b, r⟩ := r
    cases r <;> simp at hacc hthr hub

/-- **C33.** What a request is told is so: "available" means its two frames can be transformed at its time in
the buffer as it then is, "failure" means it is older than the cache window. -/
theorem C33_answer_is_right [Rigid X] (D : Duration) (ops : List (ROp X)) (op : ROp X)
    (hlim : (addedHandles (RBuf.history D ops).2).length < 2 ^ 64 - 1) {h : Nat} {av : Bool}
    (hx : REv.extracted h av ∈ ((RBuf.history D ops).1.step op).2) :
    ∃ cb t src tm, REv.added h cb t src tm ∈ (RBuf.history D ops).2 ∧ t ≠ src ∧
      (av = true → LegalName t → LegalName src →
        ((RBuf.history D ops).1.step op).1.buf.canTransform t src tm = .ok true) ∧
      (av = false → TooOld ((RBuf.history D ops).1.step op).1.buf t src tm) := by
  have hi := history_inv hlim
  generalize RBuf.history D ops = hist at *
  obtain ⟨s, evs⟩ := hist
  simp only at *
  cases op with
  | set m a st =>
    by_cases hacc : REv.setDone .accepted ∈ (s.step (.set m a st)).2
    · obtain ⟨b, _, hi', e1, e2⟩ := accepted_sweep hi hacc
      rw [e2] at hx
      rw [e1]
      have o := test_out hi'.wf hi'.reqs
      generalize RBuf.test _ = tr at *
      obtain ⟨s', new⟩ := tr
      simp only [List.mem_cons, reduceCtorEq, false_or] at *
      cases o with
      | threw _ _ _ => simp at hx
      | @done kept fired calls perm keptV firedV cf =>
        obtain ⟨r, hr, he⟩ := List.mem_map.1 hx
        obtain ⟨t, src, k1, k2, k3⟩ := hi'.reqs r (perm.mem_iff.1 (List.mem_append_right _ hr))
        obtain ⟨r1, r2⟩ := k3.resolve_tid
        have hf := verdict_facts hi'.wf (r.resolve b).tid (r.resolve b).sid r.time
        have hv := firedV r hr
        have hids := verdict_ids hi'.wf (tid := (r.resolve b).tid) (sid := (r.resolve b).sid) (time := r.time)
          (by unfold Request.verdictIn at hv; simp only at hv; rcases hv with hv | hv <;> rw [hv] <;> simp)
        simp only at r1 r2
        unfold firedEv at he
        split at he
        · injection he with he1 he2
          subst he1
          refine ⟨_, t, src, _, k2, k1, ?_, ?_⟩
          · intro hav lt ls
            have : r.verdictIn b = .available := by
              rw [hav] at he2; simpa using he2
            unfold Request.verdictIn at this
            rw [this] at hf
            rw [canTransform_noLock k1 lt ls, ← r1, ← r2]
            exact hf
          · intro hav
            have : r.verdictIn b = .failure := by
              rcases hv with hv | hv
              · exact hv
              · simp only at hv he2; rw [hav, hv] at he2; simp at he2
            unfold Request.verdictIn at this
            rw [this] at hf
            obtain ⟨l, e, f1, f2, f3, f4⟩ := hf
            rw [r1] at hids; rw [r2] at hids
            rw [r1, r2] at f1
            exact ⟨_, _, l, e, isFrame_of_lookup hids.1, isFrame_of_lookup hids.2, f1, f2,
              by rw [hi'.wf.cacheTime]; exact f3, f4⟩
        · cases he
    · exfalso
      simp only [RBuf.step, RBuf.setTransform] at hacc hx
      generalize s.buf.setTransform m a st = r at *
      obtain ⟨b, r⟩ := r
      cases r <;> simp at hacc hx
  | clear => simp [RBuf.step] at hx
  | addCallback =>
    simp only [RBuf.step, RBuf.addCallback] at hx
    split at hx <;> simp at hx
  | removeCallback cb => simp [RBuf.step, RBuf.removeCallback] at hx
  | cancelRequest k => simp [RBuf.step, RBuf.cancelRequest] at hx
  | invoke k =>
    simp only [RBuf.step, RBuf.invoke] at hx
    split at hx
    · simp at hx
    · simp only [List.mem_singleton] at hx; split at hx <;> cases hx
  | addRequest cb t src tm =>
    simp only [RBuf.step] at hx
    have o := addRequest_out hi.wf cb t src tm
    generalize (s.addRequest cb t src tm).1 = s' at *
    generalize (s.addRequest cb t src tm).2 = new at *
    cases o <;> simp at hx

/-- **C33.** The immediate answers of `addTransformableRequest` in a reachable state: 0 exactly when the
transform can be had now; 2^64-1 exactly when it cannot and the time is older than the cache window; it throws
only if the time plus the storage duration is not representable; otherwise the request becomes pending. -/
theorem C33_immediate_answers [Rigid X] (D : Duration) (ops : List (ROp X))
    (hlim : (addedHandles (RBuf.history D ops).2).length < 2 ^ 64 - 1) (cb : Nat) {t src : Name}
    (lt : LegalName t) (ls : LegalName src) (tm : Time) :
    let s := (RBuf.history D ops).1
    ((s.addRequest cb t src tm).2 = [.immediate t src tm] ↔ s.buf.canTransform t src tm = .ok true) ∧
    ((s.addRequest cb t src tm).2 = [.never t src tm] ↔
      s.buf.canTransform t src tm = .ok false ∧ TooOld s.buf t src tm) ∧
    ((s.addRequest cb t src tm).2 = [.addThrew] → timeAdd tm D = none) ∧
    ((s.addRequest cb t src tm).2 = [.immediate t src tm] ∨ (s.addRequest cb t src tm).2 = [.never t src tm] ∨
      (s.addRequest cb t src tm).2 = [.addThrew] ∨
      ∃ h, (s.addRequest cb t src tm).2 = [.added h cb t src tm] ∧ (s.addRequest cb t src tm).1.pending =
        s.pending ++ [h]) := by
  have hi := history_inv hlim
  generalize RBuf.history D ops = hist at *
  obtain ⟨s, evs⟩ := hist
  simp only at *
  have o := addRequest_out hi.wf cb t src tm
  generalize (s.addRequest cb t src tm).1 = s' at *
  generalize (s.addRequest cb t src tm).2 = new at *
  cases o with
  | same h => subst h; simp [Buf.canTransform]
  | now h hc => rw [canTransform_noLock h lt ls, hc]; simp
  | never h hc ho => rw [canTransform_noLock h lt ls, hc]; simp [ho]
  | threw h hc ho hl =>
    rw [canTransform_noLock h lt ls, hc]
    refine ⟨by simp, ?_, fun _ => ho, by simp⟩
    simp only [List.cons.injEq, reduceCtorEq, false_and, true_and, false_iff]
    intro hold
    obtain ⟨_, e, _, _, h3, _⟩ := tooOld_ids hold
    rw [hi.wf.cacheTime, ho] at h3; cases h3
  | pending h hc ho r hr =>
    rw [canTransform_noLock h lt ls, hc]
    refine ⟨by simp, by simp [ho], by simp, ?_⟩
    right; right; right
    refine ⟨_, rfl, ?_⟩
    rw [hr]; simp [RBuf.pending]

/-- **C33.** No pending request gets lost: every request that was made is still pending, or its answer is
scheduled, or its callback has been called — unless it was cancelled (up to the 32-bit truncation), or its
callback was removed or unknown, or an exception in the sweep swallowed it. -/
theorem C33_nothing_lost [Rigid X] (D : Duration) (ops : List (ROp X))
    (hlim : (addedHandles (RBuf.history D ops).2).length < 2 ^ 64 - 1) {h cb : Nat} {t src : Name} {tm : Time}
    (hadd : REv.added h cb t src tm ∈ (RBuf.history D ops).2) :
    h ∈ (RBuf.history D ops).1.pending ∨ h ∈ (RBuf.history D ops).1.scheduled ∨
      h ∈ calledHandles (RBuf.history D ops).2 ∨ h ∈ droppedHandles (RBuf.history D ops).2 ∨
      (∃ h', REv.cancelled h' ∈ (RBuf.history D ops).2 ∧ h' % 2 ^ 32 = h) ∨
      REv.removedCb cb ∈ (RBuf.history D ops).2 := by
  have hi := history_inv hlim
  generalize RBuf.history D ops = hist at *
  obtain ⟨s, evs⟩ := hist
  simp only at *
  rcases hi.acct h cb t src tm hadd with k | k | k
  · simp only [← List.count_pos_iff]
    unfold cnt at k
    omega
  · exact Or.inr (Or.inr (Or.inr (Or.inr (Or.inl k))))
  · exact Or.inr (Or.inr (Or.inr (Or.inr (Or.inr k))))

/-- In the example the third request stays pending, rightly; the first was answered rightly. -/
example : (RBuf.history 100 reqOps).1.pending = [3] ∧
    (RBuf.history 100 reqOps).1.buf.canTransform ['x'] ['b'] 15 = .ok false ∧
    (RBuf.history 100 reqOps).1.buf.canTransform ['w'] ['a'] 15 = .ok true ∧
    ((RBuf.history 100 reqOps).1.addRequest 1 ['w'] ['b'] 15).2 = [.immediate ['w'] ['b'] 15] := by decide

/-- **C33, finding.** A request for time 0 ("latest") that has to wait is answered with "failure" at the very
moment the transform becomes available: the window test comes first and takes 0 for a real time. -/
theorem C33_latest_request_finding : ∃ (ops : List (ROp Int)) (m : Msg Int),
    REv.added 1 1 ['w'] ['a'] 0 ∈ (RBuf.history 100 ops).2 ∧
    REv.extracted 1 false ∈ ((RBuf.history 100 ops).1.step (.set m ['u'] false)).2 ∧
    ((RBuf.history 100 ops).1.step (.set m ['u'] false)).1.buf.canTransform ['w'] ['a'] 0 = .ok true := by
  refine ⟨[.addCallback, .addRequest 1 ['w'] ['a'] 0], tmsg ['w'] ['a'] 1000 1, ?_⟩
  decide

/-- **C33, finding.** A pending request whose time plus the storage duration overflows makes `setTransform`
throw although the transform was stored, and requests answered in the same sweep are never told. -/
theorem C33_throw_loses_answers_finding : ∃ (ops : List (ROp Int)) (m : Msg Int),
    REv.added 1 1 ['w'] ['a'] 10 ∈ (RBuf.history 100 ops).2 ∧
    REv.testThrew .runtime ∈ ((RBuf.history 100 ops).1.step (.set m ['u'] false)).2 ∧
    ((RBuf.history 100 ops).1.step (.set m ['u'] false)).1.buf.canTransform ['w'] ['a'] 10 = .ok true ∧
    1 ∉ ((RBuf.history 100 ops).1.step (.set m ['u'] false)).1.pending ∧
    1 ∉ ((RBuf.history 100 ops).1.step (.set m ['u'] false)).1.scheduled := by
  refine ⟨[.addCallback, .addRequest 1 ['w'] ['a'] 10, .addRequest 1 ['a'] ['w'] TIME_MAX], tmsg ['w'] ['a'] 10 1, ?_⟩
  decide

/-! ### C34 -/

theorem testRun_locals {b : Buf X} {cbs : List Nat} {reqs : List Request} {t : TestState}
    (h : testRun b cbs reqs = .done t) :
    (∀ x ∈ t.locals, x = none) ∧ ∀ c ∈ t.calls, c.resultVar < t.locals.length :=
  testLoop_locals _ h (by simp) (by simp)

/-- **C34, finding.** For every history, every accepted `setTransform` and every callback it schedules: when
the callbacks are called, the result argument refers to a loop variable whose scope has ended, and the time
argument refers to an erased slot of the request vector or to the time of a *different* request. -/
theorem C34_dangling_arguments_finding [Rigid X] (D : Duration) (ops : List (ROp X)) (m : Msg X) (a : Name)
    (st : Bool) (hlim : (addedHandles (RBuf.history D ops).2).length < 2 ^ 64 - 1) {t : TestState}
    (ht : testRun ((RBuf.history D ops).1.buf.setTransform m a st).1 (RBuf.history D ops).1.cbs
      (RBuf.history D ops).1.reqs = .done t) :
    ∀ c ∈ t.calls, t.locals[c.resultVar]? = some none ∧
      (t.size ≤ c.timeSlot ∨ ∃ r, (t.mem.take t.size)[c.timeSlot]? = some r ∧ r.handle ≠ c.handle) := by
  have hi := history_inv hlim
  generalize RBuf.history D ops = hist at *
  obtain ⟨s, evs⟩ := hist
  simp only at *
  have hw : WF D (s.buf.setTransform m a st).1 := hi.wf.setTransform m a st
  have hb : ∀ n i, s.buf.frameIDs n = some i → (s.buf.setTransform m a st).1.frameIDs n = some i :=
    fun n i hn => frameIDs_step hi.wf (.set m a st) hn
  have hi' := hi.rebuf hw hb
  generalize (s.buf.setTransform m a st).1 = b at *
  intro c hc
  obtain ⟨l1, l2⟩ := testRun_locals ht
  refine ⟨?_, ?_⟩
  · have hlt := l2 c hc
    rw [List.getElem?_eq_getElem hlt, l1 _ (List.getElem_mem hlt)]
  · rcases Nat.lt_or_ge c.timeSlot t.size with hlt | hge
    · right
      have hout := test_out hi'.wf hi'.reqs
      have htest : ({ s with buf := b } : RBuf X).test =
          ({ s with buf := b, reqs := t.mem.take t.size, inflight := s.inflight ++ t.calls }, t.evs) := by
        unfold RBuf.test; rw [ht]
      -- no handle is both pending and scheduled after the sweep
      have hsw := hi'.sweep
      rw [htest] at hsw
      have hlen : t.size ≤ t.mem.length := testRun_size ht
      have hlt' : c.timeSlot < (t.mem.take t.size).length := by rw [List.length_take]; omega
      refine ⟨_, List.getElem?_eq_getElem hlt', ?_⟩
      intro he
      have hcount := hsw.count_le_one c.handle
      have c1 : 0 < (RBuf.pending ({ s with buf := b, reqs := t.mem.take t.size, inflight := s.inflight ++ t.calls } : RBuf X)).count c.handle := by
        rw [List.count_pos_iff]
        exact List.mem_map.2 ⟨_, List.getElem_mem hlt', he⟩
      have c2 : 0 < (RBuf.scheduled ({ s with buf := b, reqs := t.mem.take t.size, inflight := s.inflight ++ t.calls } : RBuf X)).count c.handle := by
        rw [List.count_pos_iff]
        exact List.mem_map.2 ⟨c, List.mem_append_right _ hc, rfl⟩
      unfold cnt at hcount
      simp only at hcount c1 c2
      omega
    · exact Or.inl hge

/-- Such sweeps exist: here the first request is answered, and at the time its callback runs the slot its time
argument refers to holds the time of the second request (99 instead of 10). -/
example : testRun ((Buf.init 100).setTransform (tmsg ['w'] ['a'] 10 1) ['u'] false).1 [1]
    (RBuf.history 100 [.addCallback, .addRequest 1 ['w'] ['a'] 10, .addRequest 1 ['w'] ['b'] 99]
      : RBuf Int × List REv).1.reqs =
    .done ⟨[⟨99, 2, 1, 2, 0, ['w'], ['b']⟩, ⟨99, 2, 1, 0, 0, ['w'], ['b']⟩], 1, 1,
      [⟨1, 1, ['w'], ['a'], 0, 0⟩], [none, none], [.extracted 1 true]⟩ := by decide

end Tf2
