import Verif.Proofs.FilterLeft
import Verif.Proofs.FilterPass
import Verif.Props.FilterWait
import Verif.Props.MessageFilter

/-!
# C99: what a message filter leaves in the buffer
-/
namespace Tf2

variable {X : Type}

/-- C99. In an orderly run, each request of the filter that is pending in the buffer was made for a message that the filter
still holds or has in the hands of `add`, or that it gave up during `add` - never for one that passed, was dropped
from the queue or by a callback, or was cleared. -/
theorem C99_left_behind [Rigid X] (D : Duration) (pre : List (ROp X)) (target : Name) (qsize : Nat) (queued : Bool)
    (ops : List (FOp X)) (hpre : RBuf.AskedRegistered pre (RBuf.init D))
    (ho : OrderlyRun ops (Filt.init (RBuf.history D pre).1 (RBuf.history D pre).2 target qsize queued))
    (hp : AskedOwn ops (Filt.init (RBuf.history D pre).1 (RBuf.history D pre).2 target qsize queued))
    (hh : (Filt.history D pre target qsize queued ops).1.Healthy) :
    let s := (Filt.history D pre target qsize queued ops).1
    let evs := (Filt.history D pre target qsize queued ops).2
    ∀ r ∈ s.asking, ∃ id frame stamp t tm, FEv.received id frame stamp ∈ evs ∧
      REv.added r.handle s.cb t (stripSlash frame) tm ∈ s.revs ∧ (id ∈ s.queued ∨ id ∈ s.beingAdded ∨ GivenUp evs id) := by
  intro s evs r hr
  have hl := LeftInv.history D pre target qsize queued ops hpre ho hp hh
  have hw := WInv.history D pre target qsize queued ops ho hh.1 hh.2.1 hh.2.2
  have hi := HInv.history D pre target qsize queued ops
  obtain ⟨h1, h2⟩ := List.mem_filter.1 hr
  rcases hl.own r h1 (by simpa using h2) with h | ⟨id, f, st, t, tm, a1, a2, a3⟩
  · rcases mem_allHandles.1 h with ⟨m, hm, hk⟩ | ⟨a, hm, hk⟩
    · obtain ⟨t, tm, k1, -⟩ := hw.waits.asked m hm _ hk
      obtain ⟨f, e1, e2⟩ := hi.heads m.msg (mem_heads.2 (.inr ⟨m, hm, rfl⟩))
      rw [e2] at k1
      exact ⟨_, f, _, t, tm, e1, k1, .inl (List.mem_map.2 ⟨m, hm, rfl⟩)⟩
    · obtain ⟨t, tm, k1, -⟩ := hw.waits.askedA a hm _ hk
      obtain ⟨f, e1, e2⟩ := hi.heads a.msg (mem_heads.2 (.inl ⟨a, hm, rfl⟩))
      rw [e2] at k1
      exact ⟨_, f, _, t, tm, e1, k1, .inr (.inl (List.mem_map.2 ⟨a, hm, rfl⟩))⟩
  · exact ⟨id, f, st, t, tm, a1, a2, .inr (.inr a3)⟩

theorem asked_append [Rigid X] (o1 o2 : List (FOp X)) : ∀ (s0 : Filt X) (evs : List FEv), AskedOwn (o1 ++ o2) s0 →
    AskedOwn o1 s0 ∧ AskedOwn o2 (Filt.run o1 s0 evs).1 := by
  induction o1 with
  | nil => intro s0 evs h; exact ⟨trivial, h⟩
  | cons op r ih =>
    intro s0 evs h
    obtain ⟨a, b⟩ := ih (s0.step op).1 (evs ++ (s0.step op).2) h.2
    exact ⟨⟨h.1, a⟩, b⟩

theorem flatMap_length_le {α β : Type} (l : List α) (f : α → List β) (n : Nat) (h : ∀ a ∈ l, (f a).length ≤ n) :
    (l.flatMap f).length ≤ l.length * n := by
  induction l with
  | nil => simp
  | cons a r ih =>
    have h1 := h a (List.mem_cons_self ..)
    have h2 := ih (fun x hx => h x (List.mem_cons_of_mem _ hx))
    rw [List.flatMap_cons, List.length_append, List.length_cons, Nat.add_mul, Nat.one_mul]
    omega

theorem nodup_subset_length {α : Type} [DecidableEq α] {l l' : List α} (h : l.Nodup) (hs : ∀ x ∈ l, x ∈ l') : l.length ≤ l'.length := by
  induction l generalizing l' with
  | nil => simp
  | cons a r ih =>
    rw [List.nodup_cons] at h
    have ha := hs a (List.mem_cons_self ..)
    have := ih (l' := l'.erase a) h.2 (fun x hx => by
      refine (List.mem_erase_of_ne ?_).2 (hs x (List.mem_cons_of_mem _ hx))
      rintro rfl; exact h.1 hx)
    rw [List.length_erase_of_mem ha] at this
    have := List.length_pos_of_mem ha
    simp only [List.length_cons]
    omega

/-- C99. If no message was given up, the filter has at most as many requests pending as the messages it holds need. -/
theorem C99_bounded [Rigid X] (D : Duration) (pre : List (ROp X)) (target : Name) (qsize : Nat) (queued : Bool)
    (ops : List (FOp X)) (hpre : RBuf.AskedRegistered pre (RBuf.init D))
    (ho : OrderlyRun ops (Filt.init (RBuf.history D pre).1 (RBuf.history D pre).2 target qsize queued))
    (hp : AskedOwn ops (Filt.init (RBuf.history D pre).1 (RBuf.history D pre).2 target qsize queued))
    (hh : (Filt.history D pre target qsize queued ops).1.Healthy)
    (hg : ∀ id, ¬ GivenUp (Filt.history D pre target qsize queued ops).2 id) :
    let s := (Filt.history D pre target qsize queued ops).1
    s.asking.length ≤ (s.queued.length + s.beingAdded.length) * s.requestsPerMessage := by
  intro s
  have hl := LeftInv.history D pre target qsize queued ops hpre ho hp hh
  have hw := WInv.history D pre target qsize queued ops ho hh.1 hh.2.1 hh.2.2
  have hnd : s.rb.pending.Nodup := by
    rw [List.nodup_iff_count]
    intro k
    have h1 := hw.rinv.count k
    have h2 := hw.rinv.nodup.count (a := k)
    have h3 : s.rb.pending.count k ≤ cnt s.rb s.revs k := by unfold cnt; omega
    have h4 : (addedHandles s.revs).count k ≤ 1 := List.nodup_iff_count.1 hw.rinv.nodup k
    exact Nat.le_trans h3 (Nat.le_trans h1 h4)
  have hsub : (s.asking.map Request.handle).Nodup :=
    hnd.sublist (List.filter_sublist.map _)
  have hin : ∀ k ∈ s.asking.map Request.handle, k ∈
      s.msgs.flatMap (fun m => m.handles.filter (fun h => decide (h ∈ s.rb.live))) ++ s.adding.flatMap Adding.handles := by
    intro k hk
    obtain ⟨r, hr, rfl⟩ := List.mem_map.1 hk
    obtain ⟨h1, h2⟩ := List.mem_filter.1 hr
    rcases hl.own r h1 (by simpa using h2) with h | ⟨id, -, -, -, -, -, -, a3⟩
    · rcases mem_allHandles.1 h with ⟨m, hm, hk⟩ | ⟨a, hm, hk⟩
      · refine List.mem_append_left _ (List.mem_flatMap.2 ⟨m, hm, List.mem_filter.2 ⟨hk, ?_⟩⟩)
        simpa using mem_live.2 (.inl ⟨r, h1, rfl⟩)
      · exact List.mem_append_right _ (List.mem_flatMap.2 ⟨a, hm, hk⟩)
    · exact absurd a3 (hg id)
  have hlen := nodup_subset_length hsub hin
  rw [List.length_map, List.length_append] at hlen
  have n1 : s.queued.length = s.msgs.length := by simp [Filt.queued]
  have n2 : s.beingAdded.length = s.adding.length := by simp [Filt.beingAdded]
  have n3 : s.requestsPerMessage = s.targets.length * Filt.perTarget s.tol := rfl
  rw [n1, n2, n3, Nat.add_mul]
  have b1 := flatMap_length_le s.msgs (fun m => m.handles.filter (fun h => decide (h ∈ s.rb.live)))
    (s.targets.length * Filt.perTarget s.tol) (fun m hm => by
      have := (hw.waits.open_ m hm).2.1
      exact Nat.le_trans (Nat.le_add_left _ _) (Nat.le_of_eq this))
  have b2 := flatMap_length_le s.adding Adding.handles (s.targets.length * Filt.perTarget s.tol) (fun a ha => by
      obtain ⟨done, e1, e2, e3, -⟩ := hw.waits.prog a ha
      have ht : s.targets.length = done.length + a.rest.length := by rw [← List.length_append, ← e1]
      have hle : a.handles.length ≤ done.length * Filt.perTarget s.tol + (if a.second then 1 else 0) :=
        Nat.le_trans (Nat.le_add_left _ _) (Nat.le_of_eq e2)
      rw [ht, Nat.add_mul]
      refine Nat.le_trans hle (Nat.add_le_add_left ?_ _)
      cases hs : a.second with
      | false => simp
      | true =>
        obtain ⟨h0, h1⟩ := e3 hs
        have := List.length_pos_iff.2 h1
        have h2 : Filt.perTarget s.tol = 2 := if_neg h0
        rw [h2]
        simp only [if_true]
        omega)
  exact Nat.le_trans hlen (Nat.add_le_add b1 b2)

/-- C99. `clear` takes all requests of the filter out of the buffer. -/
theorem C99_clear [Rigid X] (D : Duration) (pre : List (ROp X)) (target : Name) (qsize : Nat) (queued : Bool)
    (ops : List (FOp X)) (hpre : RBuf.AskedRegistered pre (RBuf.init D))
    (ho : OrderlyRun (ops ++ [.clear]) (Filt.init (RBuf.history D pre).1 (RBuf.history D pre).2 target qsize queued))
    (hp : AskedOwn (ops ++ [.clear]) (Filt.init (RBuf.history D pre).1 (RBuf.history D pre).2 target qsize queued))
    (hh : (Filt.history D pre target qsize queued (ops ++ [.clear])).1.Healthy) :
    ∀ r ∈ (Filt.history D pre target qsize queued (ops ++ [.clear])).1.rb.reqs,
      r.cb ≠ (Filt.history D pre target qsize queued ops).1.cb ∧
      r.cb ≠ (Filt.history D pre target qsize queued (ops ++ [.clear])).1.cb := by
  have hl := LeftInv.history D pre target qsize queued (ops ++ [.clear]) hpre ho hp hh
  obtain ⟨h1, h2⟩ := orderly_append ops [.clear] _ [] ho
  obtain ⟨p1, p2⟩ := asked_append ops [.clear] _ [] hp
  obtain ⟨e1, e2, -⟩ := history_parts D pre target qsize queued ops [.clear]
  obtain ⟨n, en⟩ := revs_run [.clear] (Filt.history D pre target qsize queued ops).1 []
  have hh' := hh
  rw [e2] at hh' ⊢
  have hh0 : (Filt.history D pre target qsize queued ops).1.Healthy := by
    obtain ⟨q1, q2, q3⟩ := hh'
    rw [en] at q1 q2 q3
    rw [addedHandles_append, List.length_append] at q1
    exact ⟨by omega, fun x hx => q2 x (List.mem_append_left _ hx), fun hx => q3 (List.mem_append_left _ hx)⟩
  have hl0 := LeftInv.history D pre target qsize queued ops hpre h1 p1 hh0
  generalize (Filt.history D pre target qsize queued ops).1 = s at *
  simp only [Filt.run, Filt.step, Filt.clear] at hh' ⊢
  have hreg : ∀ r ∈ (s.buf (s.rb.removeCallback s.cb)).rb.reqs, r.cb ∈ (s.buf (s.rb.removeCallback s.cb)).rb.cbs := by
    intro r hr
    simp only [Filt.buf, RBuf.removeCallback, List.mem_filter, decide_eq_true_eq] at hr ⊢
    exact ⟨hl0.reg r hr.1, hr.2⟩
  obtain ⟨k1, k2, -⟩ := LeftInv.register (evs := []) hreg hh'.2.2
  intro r hr
  refine ⟨?_, k2 r hr⟩
  rw [k1] at hr
  simp only [Filt.buf, RBuf.removeCallback, List.mem_filter, decide_eq_true_eq] at hr
  exact hr.2

/-! ### The destructor -/

/-- C99. A destroyed filter is never called: its destructor (message_filter.h:215-228) calls `clear`, which leaves a callback
registered that nobody asks with; if no callback was due at that time, none is made for the destroyed filter whatever the
other users of the buffer do with their own callbacks. -/
theorem C99_destroyed [Rigid X] (D : Duration) (pre : List (ROp X)) (target : Name) (qsize : Nat) (queued : Bool)
    (ops : List (FOp X)) (hpre : RBuf.AskedRegistered pre (RBuf.init D))
    (ho : OrderlyRun (ops ++ [.clear]) (Filt.init (RBuf.history D pre).1 (RBuf.history D pre).2 target qsize queued))
    (hp : AskedOwn (ops ++ [.clear]) (Filt.init (RBuf.history D pre).1 (RBuf.history D pre).2 target qsize queued))
    (hh : (Filt.history D pre target qsize queued (ops ++ [.clear])).1.Healthy)
    (hdue : (Filt.history D pre target qsize queued ops).1.rb.scheduled = []) (later : List (ROp X)) :
    let s := (Filt.history D pre target qsize queued (ops ++ [.clear])).1
    ∀ c, (c = (Filt.history D pre target qsize queued ops).1.cb ∨ c = s.cb) →
    (∀ t src tm, ROp.addRequest c t src tm ∉ later) → later.length < 2 ^ 32 →
    ∀ h t src, REv.invoked c h t src ∉ (RBuf.run later s.rb []).2 := by
  intro s c hcb hask hlen
  have hw := WInv.history D pre target qsize queued _ ho hh.1 hh.2.1 hh.2.2
  have hc := C99_clear D pre target qsize queued ops hpre ho hp hh
  have hinf : s.rb.inflight = [] := by
    obtain ⟨-, e2, -⟩ := history_parts D pre target qsize queued ops [.clear]
    have : (Filt.history D pre target qsize queued ops).1.rb.inflight = [] := by
      unfold RBuf.scheduled at hdue; simpa using hdue
    show (Filt.history D pre target qsize queued (ops ++ [.clear])).1.rb.inflight = []
    rw [e2]
    simp only [Filt.run, Filt.step, Filt.clear]
    rw [register_inflight]
    exact this
  have hcount : (addedHandles (Filt.history D pre target qsize queued (ops ++ [.clear])).1.revs).length < 2 ^ 32 := hh.1
  have hadd : (addedHandles (RBuf.run later s.rb []).2).length ≤ later.length := added_run later hw.rinv (by omega)
  refine uncalled_run later (cb := c) hw.rinv
    (fun r hr => by rcases hcb with rfl | rfl; exact (hc r hr).1; exact (hc r hr).2) (by rw [hinf]; simp) hask ?_
  rw [addedHandles_append, List.length_append]
  have hadd' : (addedHandles (RBuf.run later (Filt.history D pre target qsize queued (ops ++ [.clear])).1.rb []).2).length ≤
    later.length := hadd
  omega

/-- Messages wait in the queue while the buffer holds requests for them, none given up; and such a filter is cleared. -/
example : let ops := waitOps1
    let s0 := Filt.init (RBuf.history 100 filtPre).1 (RBuf.history 100 filtPre).2 ['w'] 5 false
    let s := (Filt.history 100 filtPre ['w'] 5 false ops).1
    let s' := (Filt.history 100 filtPre ['w'] 5 false (ops ++ [.clear])).1
    RBuf.AskedRegistered filtPre (RBuf.init 100) ∧ OrderlyRun ops s0 ∧ AskedOwn ops s0 ∧ s.Healthy ∧
    (∀ id, ¬ GivenUp (Filt.history 100 filtPre ['w'] 5 false ops).2 id) ∧ s.asking.length = 6 ∧ s.queued = [0, 1] ∧
    s.requestsPerMessage = 4 ∧
    OrderlyRun (ops ++ [.clear]) s0 ∧ AskedOwn (ops ++ [.clear]) s0 ∧ s'.Healthy ∧ s.rb.scheduled = [] ∧ s'.cb ≠ s.cb := by
  intro ops s0 s s'
  have hr : s.revs.all (fun e => match e with
      | .testThrew _ => false | .registerHangs => false | _ => true) = true := by decide +kernel
  have hr' : s'.revs.all (fun e => match e with
      | .testThrew _ => false | .registerHangs => false | _ => true) = true := by decide +kernel
  have hg : (Filt.history 100 filtPre ['w'] 5 false ops).2.all (fun e => match e with
      | .decided _ (some .outTheBack) => false | .addThrew _ => false | _ => true) = true := by decide +kernel
  refine ⟨⟨trivial, trivial, trivial⟩, ?_, by simp [ops, waitOps1, AskedOwn, Filt.AsksOwn], ⟨by decide +kernel, ?_, ?_⟩, ?_,
    by decide +kernel, by decide +kernel, by decide +kernel, ?_, by simp [ops, waitOps1, AskedOwn, Filt.AsksOwn],
    ⟨by decide +kernel, ?_, ?_⟩, by decide +kernel, by decide +kernel⟩
  · simp only [ops, waitOps1, OrderlyRun, Filt.Orderly, true_and, and_true]
    decide +kernel
  · intro e he; have := List.all_eq_true.1 hr _ he; simp at this
  · intro he; have := List.all_eq_true.1 hr _ he; simp at this
  · rintro id (h | h) <;> · have := List.all_eq_true.1 hg _ h; simp at this
  · simp only [ops, waitOps1, OrderlyRun, Filt.Orderly, true_and, and_true, List.cons_append, List.nil_append]
    decide +kernel
  · intro e he; have := List.all_eq_true.1 hr' _ he; simp at this
  · intro he; have := List.all_eq_true.1 hr' _ he; simp at this

/-! ### The requests left behind grow without bound -/

/-- `/b` in `/w`, last known at 1000 ns. -/
def leakPre : List (ROp Int) := [.set (tmsg ['w'] ['b'] 1000 7) ['u'] false]

/-- One message in frame `b` of time 10, added without interruption. -/
def leakBlock : List (FOp Int) := [.addStart ['b'] 10, .addNext 0, .addNext 0]

/-- The filter waits for `/x`, which nobody publishes, and for `/w`. -/
def leakOps : Nat → List (FOp Int)
  | 0 => [.setTargets [['x'], ['w']]]
  | n + 1 => leakOps n ++ leakBlock

/-- The buffer in which the filter asks. -/
def leakBuf : Buf Int := (RBuf.history 100 leakPre).1.buf

/-- The filter after the messages. -/
structure Leaky (n : Nat) (s : Filt Int) : Prop where
  buf : s.rb.buf = leakBuf
  targets : s.targets = [['x'], ['w']]
  tol : s.tol = 0
  msgs : s.msgs = []
  adding : s.adding = []
  cbq : s.cbq = none
  next : s.next = n
  due : s.rb.inflight = []
  reqs : s.asking.length = n
  added : (addedHandles s.revs).length = n
  threw : ∀ e, REv.testThrew e ∉ s.revs
  hangs : REv.registerHangs ∉ s.revs

/-- The request for `/x` waits. -/
theorem leak_x (rb : RBuf Int) (cb : Nat) (h : rb.buf = leakBuf) :
    ∃ r c, (rb.addRequest cb ['x'] ['b'] 10) = ({ rb with reqs := rb.reqs ++ [r], reqCounter := c },
      [.added r.handle cb ['x'] ['b'] 10]) ∧ r.cb = cb := by
  have h0 : ¬ (['x'] : Name) = ['b'] := by decide
  have h1 : leakBuf.canTransformNoLock (leakBuf.lookupFrameNumber ['x']) (leakBuf.lookupFrameNumber ['b']) 10 = .ok false := by
    decide +kernel
  have h2 : leakBuf.lookupFrameNumber ['x'] = 0 := by decide +kernel
  unfold RBuf.addRequest
  rw [if_neg h0, h]
  simp only [h1, h2]
  exact ⟨_, _, rfl, rfl⟩

/-- The request for `/w` will never be granted. -/
theorem leak_w (rb : RBuf Int) (cb : Nat) (h : rb.buf = leakBuf) :
    rb.addRequest cb ['w'] ['b'] 10 = (rb, [.never ['w'] ['b'] 10]) := by
  have h0 : ¬ (['w'] : Name) = ['b'] := by decide
  have h1 : leakBuf.canTransformNoLock (leakBuf.lookupFrameNumber ['w']) (leakBuf.lookupFrameNumber ['b']) 10 = .ok false := by
    decide +kernel
  have h2 : leakBuf.lookupFrameNumber ['w'] ≠ 0 ∧ leakBuf.lookupFrameNumber ['b'] ≠ 0 := by decide +kernel
  have h3 : leakBuf.latestOrZero (leakBuf.lookupFrameNumber ['w']) (leakBuf.lookupFrameNumber ['b']) = .ok 1000 := by
    decide +kernel
  have h4 : leakBuf.tooOldFor 1000 10 = .ok true := by decide +kernel
  unfold RBuf.addRequest
  rw [if_neg h0, h]
  simp only [h1, if_pos h2, h3, h4]

theorem leak_block {n : Nat} {s : Filt Int} (h : Leaky n s) (evs : List FEv) :
    Leaky (n + 1) (Filt.run leakBlock s evs).1 ∧ OrderlyRun leakBlock s ∧ AskedOwn leakBlock s ∧
    (Filt.run leakBlock s evs).2 = evs ++ [.received n ['b'] 10, .decided n (some .outTheBack), .signalled n (some .outTheBack)] := by
  obtain ⟨rb, revs, targets, tol, expected, qsize, cb, msgs, count, adding, cbq, next⟩ := s
  obtain ⟨b, h1, h2, h3, h4, h5, h6, h7, h8, h9, h10, h11⟩ := h
  simp only at b h1 h2 h3 h4 h5 h6 h7
  subst h1 h2 h3 h4 h5 h6
  obtain ⟨r, c, e1, e2⟩ := leak_x rb cb b
  have e3 := leak_w ({ rb with reqs := rb.reqs ++ [r], reqCounter := c }) cb b
  have e : Filt.run leakBlock ⟨rb, revs, [['x'], ['w']], 0, expected, qsize, cb, [], count, [], none, next⟩ evs =
      (⟨{ rb with reqs := rb.reqs ++ [r], reqCounter := c },
        revs ++ [.added r.handle cb ['x'] ['b'] 10] ++ [.never ['w'] ['b'] 10], [['x'], ['w']], 0, expected, qsize, cb, [],
        count, [], none, next + 1⟩,
       evs ++ [.received next ['b'] 10, .decided next (some .outTheBack), .signalled next (some .outTheBack)]) := by
    simp [leakBlock, Filt.run, Filt.step, Filt.addStart, Filt.addNext, Filt.addAnswer, Filt.buf, Filt.deliver, stripSlash, e1, e3]
  rw [e]
  refine ⟨⟨b, rfl, rfl, rfl, rfl, rfl, rfl, h7, ?_, ?_, ?_, ?_⟩, by simp [leakBlock, OrderlyRun, Filt.Orderly],
    by simp [leakBlock, AskedOwn, Filt.AsksOwn], rfl⟩
  · simp only [Filt.asking] at h8 ⊢
    rw [List.filter_append, List.length_append, h8]
    simp [e2]
  · simp only [addedHandles_append, addedHandles, List.length_append] at h9 ⊢
    simp [h9]
  · intro e he
    simp only [List.mem_append, List.mem_singleton, reduceCtorEq, or_false] at he
    exact h10 e he
  · simp only [List.mem_append, List.mem_singleton, reduceCtorEq, or_false]
    exact h11

theorem leak_start : Leaky 0 (Filt.history 100 leakPre ['w'] 1 false (leakOps 0)).1 := by
  have hr : (Filt.history 100 leakPre ['w'] 1 false (leakOps 0)).1.revs.all (fun e => match e with
      | .testThrew _ => false | .registerHangs => false | _ => true) = true := by decide +kernel
  refine ⟨rfl, by decide +kernel, by decide +kernel, by decide +kernel, by decide +kernel, by decide +kernel,
    by decide +kernel, by decide +kernel, by decide +kernel, by decide +kernel, ?_, ?_⟩
  · intro e he; have := List.all_eq_true.1 hr _ he; simp at this
  · intro he; have := List.all_eq_true.1 hr _ he; simp at this

theorem orderly_join [Rigid X] (o1 o2 : List (FOp X)) : ∀ (s0 : Filt X) (evs : List FEv), OrderlyRun o1 s0 → AskedOwn o1 s0 →
    OrderlyRun o2 (Filt.run o1 s0 evs).1 → AskedOwn o2 (Filt.run o1 s0 evs).1 → OrderlyRun (o1 ++ o2) s0 ∧ AskedOwn (o1 ++ o2) s0 := by
  induction o1 with
  | nil => intro s0 evs _ _ h h'; exact ⟨h, h'⟩
  | cons op r ih =>
    intro s0 evs h1 h2 h3 h4
    obtain ⟨a, b⟩ := ih (s0.step op).1 (evs ++ (s0.step op).2) h1.2 h2.2 h3 h4
    exact ⟨⟨h1.1, a⟩, ⟨h2.1, b⟩⟩

/-- C99, finding. `add` forgets the requests it has already made when it finds one of the transforms too old: a filter that
waits for a frame nobody publishes can leave one more request in the buffer with every message, for ever, though it holds
no message at all and has reported each one as dropped. -/
theorem C99_leak_finding (n : Nat) :
    let s0 := Filt.init (RBuf.history 100 leakPre).1 (RBuf.history 100 leakPre).2 ['w'] 1 false
    let s := (Filt.history 100 leakPre ['w'] 1 false (leakOps n)).1
    let evs := (Filt.history 100 leakPre ['w'] 1 false (leakOps n)).2
    RBuf.AskedRegistered leakPre (RBuf.init 100) ∧ OrderlyRun (leakOps n) s0 ∧ AskedOwn (leakOps n) s0 ∧ (n < 2 ^ 32 → s.Healthy) ∧
    s.queued = [] ∧ s.beingAdded = [] ∧ s.rb.scheduled = [] ∧
    (∀ id < n, FEv.received id ['b'] 10 ∈ evs ∧ FEv.signalled id (some .outTheBack) ∈ evs) ∧ s.asking.length = n := by
  intro s0 s evs
  have key : Leaky n s ∧ OrderlyRun (leakOps n) s0 ∧ AskedOwn (leakOps n) s0 ∧
      (∀ id < n, FEv.received id ['b'] 10 ∈ evs ∧ FEv.signalled id (some .outTheBack) ∈ evs) := by
    show Leaky n (Filt.run (leakOps n) s0 []).1 ∧ OrderlyRun (leakOps n) s0 ∧ AskedOwn (leakOps n) s0 ∧
      (∀ id < n, FEv.received id ['b'] 10 ∈ (Filt.run (leakOps n) s0 []).2 ∧
        FEv.signalled id (some .outTheBack) ∈ (Filt.run (leakOps n) s0 []).2)
    clear evs s
    induction n with
    | zero =>
      refine ⟨leak_start, ?_, by simp [leakOps, AskedOwn, Filt.AsksOwn], fun id h => absurd h (by omega)⟩
      simp only [leakOps, OrderlyRun, Filt.Orderly, and_true]
      decide +kernel
    | succ n ih =>
      obtain ⟨h1, h2, h3, h4⟩ := ih
      obtain ⟨k1, k2, k3, k4⟩ := leak_block h1 (Filt.run (leakOps n) s0 []).2
      have e : Filt.run (leakOps n ++ leakBlock) s0 [] = Filt.run leakBlock (Filt.run (leakOps n) s0 []).1
          (Filt.run (leakOps n) s0 []).2 := frun_append (leakOps n) leakBlock s0 []
      obtain ⟨j1, j2⟩ := orderly_join (leakOps n) leakBlock s0 [] h2 h3 k2 k3
      simp only [leakOps]
      rw [e, k4]
      refine ⟨k1, j1, j2, ?_⟩
      intro id hid
      by_cases hn : id = n
      · subst hn
        exact ⟨List.mem_append_right _ (by simp), List.mem_append_right _ (by simp)⟩
      · obtain ⟨a, b⟩ := h4 id (by omega)
        exact ⟨List.mem_append_left _ a, List.mem_append_left _ b⟩
  obtain ⟨h, ho, hp, he⟩ := key
  refine ⟨⟨trivial, trivial⟩, ho, hp, fun hn => ⟨?_, h.threw, h.hangs⟩, ?_, ?_, ?_, he, h.reqs⟩
  · rw [h.added]; exact hn
  · simp [Filt.queued, h.msgs]
  · simp [Filt.beingAdded, h.adding]
  · simp [RBuf.scheduled, h.due]

end Tf2
