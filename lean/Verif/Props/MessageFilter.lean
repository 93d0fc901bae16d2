import Verif.Proofs.MessageFilter
import Verif.Proofs.FilterReady
import Verif.Props.Requests

/-!
# C37, C38, C39: the message filter
-/
namespace Tf2

variable {X : Type}

/-! ### C37: conservation -/

/-- C37. In every program with a filter - any interleaving of `add` calls, transforms, callbacks, `clear`
and changes of the settings - the messages received are exactly those numbered below `next`, and each of
them is in exactly one place: in an `add` call that has not returned, in the queue, decided upon and
waiting in the callback queue, or disposed of once (ignored, passed to the user, reported as failed,
discarded by `clear`, or lost in an exception thrown by `add`). -/
theorem C37_conservation [Rigid X] (D : Duration) (pre : List (ROp X)) (target : Name) (qsize : Nat) (queued : Bool)
    (ops : List (FOp X)) :
    let s := (Filt.history D pre target qsize queued ops).1
    let evs := (Filt.history D pre target qsize queued ops).2
    (s.beingAdded ++ s.queued ++ s.waiting ++ disposed evs).Perm (List.range s.next) := by
  intro s evs
  rw [List.perm_iff_count]
  intro id
  have h := (FInv.history D pre target qsize queued ops).acct id
  unfold Filt.held at h
  simp only [List.count_append]
  exact h

/-- C37. Messages are numbered in the order they arrive: the numbers in the list above are those of the
messages given to `add`. -/
theorem C37_numbered [Rigid X] (D : Duration) (pre : List (ROp X)) (target : Name) (qsize : Nat) (queued : Bool)
    (ops : List (FOp X)) :
    (received (Filt.history D pre target qsize queued ops).2).map Prod.fst =
      List.range (Filt.history D pre target qsize queued ops).1.next :=
  (HInv.history D pre target qsize queued ops).ids

/-- C37. What the user is told about a message is what the filter decided about it. -/
theorem C37_told [Rigid X] (D : Duration) (pre : List (ROp X)) (target : Name) (qsize : Nat) (queued : Bool)
    (ops : List (FOp X)) (id : Nat) (f : Option Reason)
    (h : FEv.signalled id f ∈ (Filt.history D pre target qsize queued ops).2) :
    FEv.decided id f ∈ (Filt.history D pre target qsize queued ops).2 := by
  refine told_run ops (FInv.start D pre target qsize queued) ?_ (by simp) id f h
  rw [(init_parts D pre target qsize queued).2.2.2.1]; simp

/-- C37. Without a callback queue nobody waits: every decision is signalled at once. -/
theorem C37_direct [Rigid X] (s : Filt X) (h : s.cbq = none) : s.waiting = [] := by
  unfold Filt.waiting; rw [h]; rfl

/-- C37. As long as no transformable callback is removed (by `clear` or by somebody else), no step has
undefined behaviour: no call through a dangling reference, no `front()` of an empty list. -/
theorem C37_no_undefined [Rigid X] (D : Duration) (pre : List (ROp X)) (target : Name) (qsize : Nat) (queued : Bool)
    (ops : List (FOp X)) (hpre : ∀ c, ROp.removeCallback c ∉ pre) (h : KeepsCallbacks ops) :
    FEv.undefined ∉ (Filt.history D pre target qsize queued ops).2 := by
  refine undefined_run ops (FInv.start D pre target qsize queued) ?_ (by simp) h
  have h1 : ∀ (l : List (ROp X)) (s : RBuf X) (evs : List REv), (∀ c, ROp.removeCallback c ∉ l) → CallsOK s →
      CallsOK (RBuf.run l s evs).1 := by
    intro l
    induction l with
    | nil => intro s evs _ h; exact h
    | cons op r ih =>
      intro s evs hl h
      exact ih _ _ (fun c hc => hl c (List.mem_cons_of_mem _ hc))
        (rstep_callsOK h op (fun c e => hl c (by rw [e]; exact List.mem_cons_self ..)))
  have h2 : CallsOK (RBuf.history D pre).1 := h1 pre _ _ hpre (by intro c hc; cases hc)
  show CallsOK (Filt.register _).rb
  unfold Filt.register RBuf.addCallback
  simp only
  cases RBuf.nextCb (RBuf.history D pre).1.cbs ((RBuf.history D pre).1.cbs.length + 1) (RBuf.history D pre).1.cbCounter with
  | none => exact h2
  | some c => intro x hx; exact List.mem_append_left _ (h2 x hx)

/-- A buffer with `w → a` at 10 and 20. -/
def filtPre : List (ROp Int) :=
  [.set (tmsg ['w'] ['a'] 10 1) ['u'] false, .set (tmsg ['w'] ['a'] 20 3) ['u'] false]

/-- A message in frame `b` waits, one in frame `a` passes at once, one without a frame is dropped; then `b`
is published and the first message passes. -/
def filtOps : List (FOp Int) :=
  [.addStart ['b'] 15, .addNext 0, .addNext 0, .addStart ['/', 'a'] 12, .addNext 0, .addNext 0, .addStart [] 3,
   .addStart ['c'] 7, .addNext 0, .addNext 0, .buffer (.set (tmsg ['w'] ['b'] 15 7) ['u'] false), .invoke 0 true]

example : (Filt.history 100 filtPre ['w'] 2 false filtOps).2 =
    [.received 0 ['b'] 15, .received 1 ['/', 'a'] 12, .decided 1 none, .signalled 1 none,
     .received 2 [] 3, .decided 2 (some .emptyFrameID), .signalled 2 (some .emptyFrameID),
     .received 3 ['c'] 7, .decided 0 none, .signalled 0 none] ∧
    (Filt.history 100 filtPre ['w'] 2 false filtOps).1.queued = [3] ∧
    (Filt.history 100 filtPre ['w'] 2 false filtOps).1.next = 4 ∧ KeepsCallbacks filtOps := by
  refine ⟨by decide, by decide, by decide, ?_, ?_⟩ <;> simp [filtOps]

/-- With a callback queue the decisions wait there. -/
example : (Filt.history 100 filtPre ['w'] 2 true filtOps).1.waiting = [1, 2, 0] ∧
    disposed (Filt.history 100 filtPre ['w'] 2 true (filtOps ++ [.runQueued, .clear])).2 = [1, 3, 2, 0] := by decide

/-- C37 finding: `clear` while a transformable callback is on its way (its request was answered, the call not
yet made): the call goes through a reference to the erased function object. -/
theorem C37_clear_in_flight_finding : ∃ ops : List (FOp Int),
    FEv.undefined ∈ (Filt.history 100 filtPre ['w'] 2 false ops).2 ∧ (∀ c, FOp.buffer (.removeCallback c) ∉ ops) :=
  ⟨[.addStart ['b'] 15, .addNext 0, .addNext 0, .buffer (.set (tmsg ['w'] ['b'] 15 7) ['u'] false), .clear,
    .invoke 0 true], by decide, by simp⟩

/-! ### C38: the queue -/

/-- C38. With a constant non-zero queue size the queue never exceeds it, and the counter is the number of
queued messages. -/
theorem C38_bounded [Rigid X] (D : Duration) (pre : List (ROp X)) (target : Name) (qsize : Nat) (queued : Bool)
    (ops : List (FOp X)) (h : ConstantQueue ops) (hq : qsize ≠ 0) :
    (Filt.history D pre target qsize queued ops).1.queued.length ≤ qsize := by
  obtain ⟨h1, h2, -⟩ := init_parts D pre target qsize queued
  have := (queue_run hq ops (FInv.start D pre target qsize queued) h1 (by rw [h2]; simp) h).2
  unfold Filt.queued; rw [List.length_map]; exact this

/-- C38. In every program the counter is the number of queued messages. -/
theorem C38_counter [Rigid X] (D : Duration) (pre : List (ROp X)) (target : Name) (qsize : Nat) (queued : Bool)
    (ops : List (FOp X)) :
    (Filt.history D pre target qsize queued ops).1.count = (Filt.history D pre target qsize queued ops).1.queued.length := by
  have := (FInv.history D pre target qsize queued ops).counted
  unfold Filt.queued; rw [List.length_map]; exact this

theorem cancelAll_pending (hs : List Nat) : ∀ (s : Filt X) (h : Nat), h ∈ (s.cancelAll hs).rb.pending →
    h ∈ s.rb.pending ∧ (h ∈ hs → 2 ^ 32 ≤ h) := by
  induction hs with
  | nil => intro s h hm; exact ⟨hm, by simp⟩
  | cons x r ih =>
    intro s h hm
    obtain ⟨h1, h2⟩ := ih (s.buf (s.rb.cancelRequest x)) h hm
    obtain ⟨q, hq, rfl⟩ := List.mem_map.1 h1
    have hq' : q ∈ s.rb.reqs.filter (fun r => r.handle ≠ x % 2 ^ 32) := hq
    obtain ⟨m1, m2⟩ := List.mem_filter.1 hq'
    refine ⟨List.mem_map.2 ⟨q, m1, rfl⟩, fun hx => ?_⟩
    rcases List.mem_cons.1 hx with hx | hx
    · refine Nat.le_of_not_lt (fun hlt => ?_)
      simp only [ne_eq, decide_not, Bool.not_eq_true', decide_eq_false_iff_not] at m2
      rw [← hx, Nat.mod_eq_of_lt hlt] at m2
      exact m2 rfl
    · exact h2 hx

/-- C38. When `add` queues a message: if the queue is full, exactly the oldest queued message leaves it, is
decided as dropped and its requests are cancelled (those with handles that fit 32 bits, see C32); the new
message goes to the end. If the queue is not full, nothing is dropped. -/
theorem C38_oldest_dropped [Rigid X] (D : Duration) (pre : List (ROp X)) (target : Name) (qsize : Nat) (queued : Bool)
    (ops : List (FOp X)) (i : Nat) (a : Adding) :
    let s := (Filt.history D pre target qsize queued ops).1
    s.adding[i]? = some a → a.rest = [] → a.success ≠ s.expected →
    (s.qsize ≠ 0 ∧ s.qsize ≤ s.queued.length → ∃ oldest others, s.msgs = oldest :: others ∧
      (s.step (.addNext i)).1.queued = others.map (fun m => m.msg.id) ++ [a.msg.id] ∧
      (∀ id f, FEv.decided id f ∈ (s.step (.addNext i)).2 ↔ id = oldest.msg.id ∧ f = some .unknown) ∧
      ∀ h ∈ oldest.handles, h < 2 ^ 32 → h ∉ (s.step (.addNext i)).1.rb.pending) ∧
    (¬ (s.qsize ≠ 0 ∧ s.qsize ≤ s.queued.length) →
      (s.step (.addNext i)).1.queued = s.queued ++ [a.msg.id] ∧ (s.step (.addNext i)).2 = []) := by
  intro s ha hr hs
  have hi := FInv.history D pre target qsize queued ops
  have ho := Filt.addNext_out hi.reach.wf hi.counted i
  simp only [Filt.step]
  have hql : s.queued.length = s.msgs.length := List.length_map ..
  rw [hql]
  change NextOut D s i (s.addNext i) at ho
  generalize s.addNext i = r at ho ⊢
  cases ho with
  | idle hi => rw [ha] at hi; cases hi
  | overflow a1 e t ts hrest => rw [ha] at e; injection e with e; subst e; rw [hr] at hrest; cases hrest
  | ask1 a1 e t ts hrest => rw [ha] at e; injection e with e; subst e; rw [hr] at hrest; cases hrest
  | ask2 a1 e t ts hrest => rw [ha] at e; injection e with e; subst e; rw [hr] at hrest; cases hrest
  | finish a1 e _ r ho =>
    rw [ha] at e; injection e with e; subst e
    cases ho with
    | pass h => exact absurd h hs
    | push h hq hf f r hm =>
      refine ⟨fun _ => ⟨f, r, hm, ?_, ?_, ?_⟩, fun hn => absurd ⟨hq, hf⟩ hn⟩
      · simp [Filt.queued]
      · intro id g
        simp only
        unfold Filt.deliver
        split <;> simp
      · intro h hh hlt hp
        simp only [(Filt.deliver_parts _ _).2.2.2.2.2.1] at hp
        have := (cancelAll_pending f.handles _ h hp).2 hh
        omega
    | queue h hq =>
      refine ⟨fun hn => ?_, fun _ => ⟨by simp [Filt.queued], rfl⟩⟩
      simp only at hq
      omega

/-- C38. The queue is in order of arrival in the queue: every step keeps the order of the remaining messages
and adds at most one, at the end. -/
theorem C38_fifo [Rigid X] (D : Duration) (pre : List (ROp X)) (target : Name) (qsize : Nat) (queued : Bool)
    (ops : List (FOp X)) (op : FOp X) :
    let s := (Filt.history D pre target qsize queued ops).1
    ∃ new, (s.step op).1.queued.Sublist (s.queued ++ new) ∧ new.length ≤ 1 := by
  intro s
  by_cases h : ∃ n, op = .setQueueSize n
  · obtain ⟨n, rfl⟩ := h; exact ⟨[], by simp [Filt.step, Filt.queued], by simp⟩
  · exact (queueStep (FInv.history D pre target qsize queued ops) op (fun n e => h ⟨n, e⟩)).order

/-- Three messages that wait, queue size 2. -/
def fullOps : List (FOp Int) :=
  [.addStart ['b'] 15, .addNext 0, .addNext 0, .addStart ['c'] 15, .addNext 0, .addNext 0, .addStart ['d'] 15, .addNext 0]

example : let s := (Filt.history 100 filtPre ['w'] 2 false fullOps).1
    ConstantQueue fullOps ∧ s.queued = [0, 1] ∧ s.rb.pending = [1, 2, 3] ∧
    s.adding = [⟨⟨2, ['d'], 15⟩, [], false, [3], 0⟩] ∧ s.expected = 1 ∧
    (s.step (.addNext 0)).1.queued = [1, 2] ∧ (s.step (.addNext 0)).1.rb.pending = [2, 3] := by
  refine ⟨by simp [ConstantQueue, fullOps], by decide, by decide, by decide, by decide, by decide, by decide⟩

/-- C38 finding: reducing the queue size does not shrink the queue; it stays over the new size, as every
later `add` drops one message and queues one. -/
theorem C38_shrink_finding : ∃ ops : List (FOp Int),
    (Filt.history 100 filtPre ['w'] 5 false (ops ++ [.setQueueSize 1])).1.qsize = 1 ∧
    (Filt.history 100 filtPre ['w'] 5 false
      (ops ++ [.setQueueSize 1] ++ [.addStart ['e'] 15, .addNext 0, .addNext 0])).1.queued.length = 3 :=
  ⟨fullOps ++ [.addNext 0], by decide, by decide⟩

/-! ### C39: only transformable messages pass -/

/-- C39. A message passed from the transformable callback can at that moment be transformed to every target
frame at its stamp and at stamp plus tolerance - whatever the schedule and the changes of the settings. -/
theorem C39_callback_pass [Rigid X] (D : Duration) (pre : List (ROp X)) (target : Name) (qsize : Nat) (queued : Bool)
    (ops : List (FOp X)) (k : Nat) (av : Bool) (id : Nat) :
    let s := (Filt.history D pre target qsize queued ops).1
    FEv.decided id none ∈ (s.step (.invoke k av)).2 →
    ∃ frame stamp, FEv.received id frame stamp ∈ (Filt.history D pre target qsize queued ops).2 ∧
      AllReady (s.step (.invoke k av)).1.rb.buf s.targets s.tol (stripSlash frame) stamp := by
  intro s hd
  have hf := FInv.history D pre target qsize queued ops
  have hh := HInv.history D pre target qsize queued ops
  have hrb : (s.buf (s.rb.invoke k)).rb.buf = s.rb.buf := rinvoke_buf ..
  have hwf : WF D (s.buf (s.rb.invoke k)).rb.buf := by rw [hrb]; exact hf.reach.wf
  simp only [Filt.step, Filt.invoke] at hd ⊢
  split at hd
  · next c h _ _ hev =>
    split at hd
    · next hc =>
      rw [if_pos hc, (Filt.same_transformable (D := D) (s := s.buf (s.rb.invoke k)) h av hwf hf.counted).2.2.2]
      have ho := Filt.transformable_out (s.buf (s.rb.invoke k)) h av hwf
      generalize (s.buf (s.rb.invoke k)).transformable h av = r at ho hd
      cases ho with
      | notFound _ => simp at hd
      | wait => simp at hd
      | threw => simp at hd
      | decided i m hm hin hlt v hv =>
        have hvt : v = true ∧ m.msg.id = id := by
          cases v <;> unfold Filt.deliver at hd <;> split at hd <;> simp at hd <;> exact ⟨rfl, hd.symm⟩
        obtain ⟨-, hr⟩ := hv.1 hvt.1
        obtain ⟨f, e1, e2⟩ := hh.heads m.msg (mem_heads.2 (.inr ⟨m, List.mem_of_getElem? hm, rfl⟩))
        exact ⟨f, m.msg.stamp, by rw [← hvt.2]; exact e1, by rw [← e2]; exact hr⟩
    · simp at hd
  · simp at hd
  · simp at hd

/-- C39. An uninterrupted `add` returns, and passes the message exactly if it can be transformed to every
target frame at its stamp and at stamp plus tolerance. (For names the buffer accepts.) -/
theorem C39_add_iff [Rigid X] (D : Duration) (pre : List (ROp X)) (target : Name) (qsize : Nat) (queued : Bool)
    (ops : List (FOp X)) (frame : Name) (stamp : Time) :
    let s := (Filt.history D pre target qsize queued ops).1
    s.adding = [] → s.targets ≠ [] → (∀ t ∈ s.targets, LegalName t) → LegalName (stripSlash frame) →
    (s.addWhole frame stamp).1.adding = [] ∧
    (FEv.decided s.next none ∈ (s.addWhole frame stamp).2 ↔
      AllReady s.rb.buf s.targets s.tol (stripSlash frame) stamp) := by
  intro s ha hne hl lf
  have hf := FInv.history D pre target qsize queued ops
  have hh := HInv.history D pre target qsize queued ops
  change FInv D s _ at hf
  change HInv s _ at hh
  have hfe : stripSlash frame ≠ [] := lf.1
  have hstart : s.addStart frame stamp = ({ s with next := s.next + 1, adding := [{ msg := ⟨s.next, stripSlash frame, stamp⟩, rest := s.targets, second := false, handles := [], success := 0 }] }, [.received s.next frame stamp]) := by
    unfold Filt.addStart
    rw [if_neg hne, if_neg hfe, ha]; rfl
  have hf1 := (hf.step (.addStart frame stamp)).1
  change FInv D (s.addStart frame stamp).1 _ at hf1
  rw [hstart] at hf1
  have hk : ∀ W, AddKnows W s.targets s.tol { msg := ⟨s.next, stripSlash frame, stamp⟩, rest := s.targets, second := false, handles := [], success := 0 } :=
    fun W => ⟨⟨[], rfl, by simp, fun _ t ht => by cases ht⟩, fun e => by cases e⟩
  unfold Filt.addWhole
  rw [hstart, ha]
  simp only [List.length_nil]
  refine ⟨?_, ?_, ?_⟩
  · exact addRest_returns _ _ _ _ _ hf1 rfl (by simp) (by simp [Adding.left])
  · intro hd
    have := addRest_ready (D := D) (b := s.rb.buf) (T := s.targets) (tol := s.tol)
      (W := fun t f m => LegalName f → s.rb.buf.canTransform t f m = .ok true)
      (by
        intro t f m ht h hlf
        by_cases hne : t = f
        · unfold Buf.canTransform; rw [if_pos hne]
        · rw [canTransform_noLock hne (hl t ht) hlf]; exact h.resolve_right hne)
      0 _ _ _ _ hf1 rfl rfl rfl hh.expected (by intro a h; rw [List.mem_singleton.1 h]; exact hk _) s.next hd
    rcases this with h | ⟨m, hm, e, hr⟩
    · simp at h
    · have hm' : m = ⟨s.next, stripSlash frame, stamp⟩ := by
        rcases mem_heads.1 hm with ⟨x, hx, rfl⟩ | ⟨x, hx, rfl⟩
        · rw [List.mem_singleton.1 hx]
        · exfalso
          have hc := hf.acct x.msg.id
          rw [List.count_eq_zero.2 (by rw [e]; simp : x.msg.id ∉ List.range s.next)] at hc
          have : 0 < s.queued.count x.msg.id := List.count_pos_iff.2 (List.mem_map.2 ⟨x, hx, rfl⟩)
          unfold Filt.held at hc
          omega
      subst hm'
      intro t ht
      obtain ⟨r1, r2⟩ := hr t ht
      exact ⟨r1 lf, fun hn => by obtain ⟨t2, a, b⟩ := r2 hn; exact ⟨t2, a, b lf⟩⟩
  · intro hr
    exact addRest_pass (D := D) (b := s.rb.buf) hl _ _ _ _ _ hf1 rfl rfl rfl hh.expected rfl lf hr (hk _) rfl
      (by simp [Adding.left])

/-- C39, all schedules: while the target frames and the tolerance do not change, a message that passes - from
`add` or from the callback, however the steps of several `add` calls, transforms and callbacks interleave -
could be transformed to every target frame at its stamp and at stamp plus tolerance at some moment. -/
theorem C39_passed_was_ready [Rigid X] (D : Duration) (pre : List (ROp X)) (target : Name) (qsize : Nat) (queued : Bool)
    (setup ops : List (FOp X)) (id : Nat) :
    let s := (Filt.history D pre target qsize queued setup).1
    s.adding = [] → (∀ t ∈ s.targets, LegalName t) → ConstantTargets ops →
    FEv.decided id none ∈ (Filt.run ops s []).2 →
    ∃ frame stamp, FEv.received id frame stamp ∈ (Filt.history D pre target qsize queued (setup ++ ops)).2 ∧
      (LegalName (stripSlash frame) → ∀ t ∈ s.targets, s.WasReady ops t (stripSlash frame) stamp ∧
        (s.tol ≠ 0 → ∃ t2, timeAdd stamp s.tol = some t2 ∧ s.WasReady ops t (stripSlash frame) t2)) := by
  intro s ha hl hc hd
  have h := (ready_prefix (FInv.history D pre target qsize queued setup) (HInv.history D pre target qsize queued setup)
    ha hl ops hc ops.length).2.2.2 id
  rw [List.take_length] at h
  obtain ⟨f, st, h1, h2⟩ := h hd
  refine ⟨f, st, ?_, h2⟩
  unfold Filt.history
  rw [frun_append]
  exact h1

/-- Two targets and a tolerance; a message that waits for its second target. -/
def tolOps : List (FOp Int) := [.setTolerance 2, .setTargets [['/', 'w'], ['b']]]

/-- Steps from there. -/
def tolRun : List (FOp Int) :=
  [.addStart ['a'] 12, .addNext 0, .addNext 0, .addNext 0, .addNext 0, .addNext 0,
   .buffer (.set (tmsg ['w'] ['b'] 12 7) ['u'] false), .invoke 0 true,
   .buffer (.set (tmsg ['w'] ['b'] 16 7) ['u'] false), .invoke 0 true]

example : let s := (Filt.history 100 filtPre ['w'] 2 false tolOps).1
    s.adding = [] ∧ s.targets = [['w'], ['b']] ∧ s.tol = 2 ∧ (∀ t ∈ s.targets, LegalName t) ∧ ConstantTargets tolRun ∧
    FEv.decided 0 none ∈ (Filt.run tolRun s []).2 ∧ (Filt.run (tolRun.take 9) s []).1.queued = [0] ∧
    ¬ AllReady s.rb.buf s.targets s.tol ['a'] 12 := by
  refine ⟨by decide, by decide, by decide, ?_, ?_, by decide +kernel, by decide +kernel, ?_⟩
  · intro t ht
    have h1 : (Filt.history 100 filtPre ['w'] 2 false tolOps).1.targets = [['w'], ['b']] := by decide
    rw [h1] at ht
    rcases List.mem_cons.1 ht with rfl | ht
    · exact ⟨by decide, by decide⟩
    · rw [List.mem_singleton.1 ht]; exact ⟨by decide, by decide⟩
  · constructor <;> simp [tolRun]
  · intro h
    have := (h ['b'] (by decide)).1
    revert this
    decide

example : let s := (Filt.history 100 filtPre ['w'] 2 false (tolOps ++ tolRun)).1
    s.adding = [] ∧ s.targets ≠ [] ∧ (s.addWhole ['/', 'a'] 13).2 =
      [.received 1 ['/', 'a'] 13, .decided 1 none, .signalled 1 none] ∧
    (s.addWhole ['/', 'a'] 30).1.queued = [1] := by decide +kernel

theorem settings_run [Rigid X] {D : Duration} (ops : List (FOp X)) : ∀ {s : Filt X} {evs : List FEv},
    FInv D s evs →
    (Filt.run ops s evs).1.targets =
      ((ops.filterMap (fun | FOp.setTargets ts => some ts | _ => none)).getLast?.map (List.map stripSlash)).getD s.targets ∧
    (Filt.run ops s evs).1.tol =
      (ops.filterMap (fun | FOp.setTolerance d => some d | _ => none)).getLast?.getD s.tol := by
  induction ops with
  | nil => intro s evs _; exact ⟨rfl, rfl⟩
  | cons op r ih =>
    intro s evs hf
    have hi := ih (hf.step op).1
    have keep : (∀ ts, op ≠ .setTargets ts) → (∀ t, op ≠ .setTolerance t) →
        (s.step op).1.targets = s.targets ∧ (s.step op).1.tol = s.tol := by
      intro h1 h2
      cases op with
      | addStart f t =>
        simp only [Filt.step, Filt.addStart]
        split
        · exact ⟨rfl, rfl⟩
        · split
          · obtain ⟨-, -, -, -, -, -, q7, q8, -⟩ := ({ s with next := s.next + 1 } : Filt X).deliver_parts
              ⟨s.next, some .emptyFrameID⟩
            exact ⟨q7, q8⟩
          · exact ⟨rfl, rfl⟩
      | setTargets ts => exact absurd rfl (h1 ts)
      | setTolerance d => exact absurd rfl (h2 d)
      | _ => exact ⟨(keeps_step hf _ (by simp) (by simp) (by simp)).targets, (keeps_step hf _ (by simp) (by simp) (by simp)).tol⟩
    simp only [Filt.run]
    refine ⟨hi.1.trans ?_, hi.2.trans ?_⟩
    · cases op with
      | setTargets ts =>
        simp only [List.filterMap_cons, List.getLast?_cons, Option.map_some, Option.getD_some]
        cases (r.filterMap (fun | FOp.setTargets ts => some ts | _ => none)).getLast? <;> rfl
      | setTolerance d => rfl
      | _ => simp only [List.filterMap_cons]; rw [(keep (by simp) (by simp)).1]
    · cases op with
      | setTolerance d =>
        simp only [List.filterMap_cons, List.getLast?_cons, Option.getD_some]
        rfl
      | setTargets ts => rfl
      | _ => simp only [List.filterMap_cons]; rw [(keep (by simp) (by simp)).2]

/-- **C39.** The target frames of a filter are those its user set last, each without its leading slash, and
its tolerance is the one set last: nothing else changes them. -/
theorem C39_settings [Rigid X] (D : Duration) (pre : List (ROp X)) (target : Name) (qsize : Nat) (queued : Bool)
    (ops : List (FOp X)) :
    let s := (Filt.history D pre target qsize queued ops).1
    s.targets = (targetsSet target ops).map stripSlash ∧ s.tol = toleranceSet ops := by
  intro s
  obtain ⟨h1, h2⟩ := settings_run ops (FInv.start D pre target qsize queued)
  refine ⟨h1.trans ?_, h2.trans ?_⟩
  · unfold targetsSet
    cases (ops.filterMap (fun | FOp.setTargets ts => some ts | _ => none)).getLast? with
    | none => simp [Filt.init, Filt.setTargets]
    | some ts => rfl
  · unfold toleranceSet
    have h0 : (Filt.init (RBuf.history D pre).1 (RBuf.history D pre).2 target qsize queued).tol = 0 := by
      unfold Filt.init Filt.setTargets Filt.register
      split <;> rfl
    rw [h0]; rfl

example : targetsSet ['m'] (tolOps ++ tolRun) = [['/', 'w'], ['b']] ∧ toleranceSet (tolOps ++ tolRun) = 2 ∧
    (Filt.history 100 filtPre ['m'] 2 false (tolOps ++ tolRun)).1.targets = [['w'], ['b']] ∧
    (Filt.history 100 filtPre ['/', 'm'] 2 false []).1.targets = [['m']] := by decide +kernel

/-- C39 finding: what the callback reads as its result is a dangling reference (C34). If it happens to read
as failure, a message that can be transformed is dropped. -/
theorem C39_wrong_drop_finding : ∃ ops : List (FOp Int),
    let s := (Filt.history 100 filtPre ['w'] 2 false ops).1
    AllReady s.rb.buf s.targets s.tol ['b'] 15 ∧ s.queued = [0] ∧ s.rb.scheduled = [1] ∧
    FEv.decided 0 (some .unknown) ∈ (s.step (.invoke 0 false)).2 ∧
    FEv.decided 0 none ∈ (s.step (.invoke 0 true)).2 := by
  refine ⟨[.addStart ['b'] 15, .addNext 0, .addNext 0, .buffer (.set (tmsg ['w'] ['b'] 15 7) ['u'] false)], ?_⟩
  intro s
  refine ⟨?_, by decide, by decide, by decide, by decide⟩
  intro t ht
  have h1 : s.targets = [['w']] := by decide
  rw [h1] at ht
  rw [List.mem_singleton.1 ht]
  exact ⟨by decide, fun h => absurd (by decide : s.tol = 0) h⟩

/-- C39 finding: target frames changed while a message is being added. `add` counts what it asked for with the old target frames, and
compares with the number of the new ones: message 0 is passed though neither all old target frames `w`, `q` nor the new one `z` can be
reached from it, then or at any moment before. -/
theorem C39_changed_targets_finding : ∃ before later : List (FOp Int),
    let h := Filt.history 100 filtPre ['w'] 2 false (before ++ .setTargets [['z']] :: later)
    (Filt.history 100 filtPre ['w'] 2 false before).1.targets = [['w'], ['q']] ∧ h.1.targets = [['z']] ∧
    FEv.received 0 ['b'] 15 ∈ h.2 ∧ FEv.decided 0 none ∈ h.2 ∧
    ∀ p, p <+: before ++ .setTargets [['z']] :: later →
      (Filt.history 100 filtPre ['w'] 2 false p).1.rb.buf.canTransform ['q'] ['b'] 15 = .ok false ∧
      (Filt.history 100 filtPre ['w'] 2 false p).1.rb.buf.canTransform ['z'] ['b'] 15 = .ok false := by
  refine ⟨[.buffer (.set (tmsg ['w'] ['b'] 15 7) ['u'] false), .setTargets [['w'], ['q']], .addStart ['b'] 15, .addNext 0, .addNext 0],
    [.addNext 0], by decide, by decide, by decide, by decide, ?_⟩
  intro p hp
  have hn := hp.length_le
  have he := List.prefix_iff_eq_take.1 hp
  rw [he]
  generalize p.length = n at hn
  have hn : n = 0 ∨ n = 1 ∨ n = 2 ∨ n = 3 ∨ n = 4 ∨ n = 5 ∨ n = 6 ∨ n = 7 := by
    simp only [List.length_append, List.length_cons, List.length_nil] at hn; omega
  rcases hn with rfl | rfl | rfl | rfl | rfl | rfl | rfl | rfl <;> decide

end Tf2
