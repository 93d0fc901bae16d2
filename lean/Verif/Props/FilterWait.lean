import Verif.Proofs.FilterWaitStep
import Verif.Props.MessageFilter

/-!
# C61: no message waits in vain in the message filter
-/
namespace Tf2

variable {X : Type}

/-- C61. In an orderly run, when no callback of the buffer is outstanding, every queued message still has an
unanswered request at the buffer: for one of the target frames, for the message's frame without its leading
slash, at the message's stamp or stamp plus tolerance, under the filter's present callback. -/
theorem C61_waits_for_something [Rigid X] (D : Duration) (pre : List (ROp X)) (target : Name) (qsize : Nat) (queued : Bool)
    (ops : List (FOp X))
    (ho : OrderlyRun ops (Filt.init (RBuf.history D pre).1 (RBuf.history D pre).2 target qsize queued))
    (hh : (Filt.history D pre target qsize queued ops).1.Healthy)
    (hs : (Filt.history D pre target qsize queued ops).1.rb.scheduled = []) :
    let s := (Filt.history D pre target qsize queued ops).1
    ∀ id ∈ s.queued, ∃ f stamp, FEv.received id f stamp ∈ (Filt.history D pre target qsize queued ops).2 ∧
      ∃ k ∈ s.rb.pending, ∃ t ∈ s.targets, ∃ tm, REv.added k s.cb t (stripSlash f) tm ∈ s.revs ∧
        (tm = stamp ∨ s.tol ≠ 0 ∧ timeAdd stamp s.tol = some tm) := by
  intro s id hid
  have hw := WInv.history D pre target qsize queued ops ho hh.1 hh.2.1 hh.2.2
  have hi := HInv.history D pre target qsize queued ops
  obtain ⟨m, hm, rfl⟩ := List.mem_map.1 hid
  obtain ⟨f, e1, e2⟩ := hi.heads m.msg (mem_heads.2 (.inr ⟨m, hm, rfl⟩))
  obtain ⟨k, hk, t, tm, k1, k2, k3⟩ := hw.pending hs hm
  refine ⟨f, m.msg.stamp, e1, k, hk, t, k2, tm, ?_, k3⟩
  rw [← e2]; exact k1

/-- C61. In an orderly run, after the last accepted `setTransform`, once every callback of the buffer that was due
has been made, a message still in the queue cannot be transformed to all target frames
at its stamp and at stamp plus tolerance: no message waits for something it already has. -/
theorem C61_no_vain_wait [Rigid X] (D : Duration) (pre : List (ROp X)) (target : Name) (qsize : Nat) (queued : Bool)
    (ops1 ops2 : List (FOp X)) (m : Msg X) (a : Name) (st : Bool)
    (hacc : ((Filt.history D pre target qsize queued ops1).1.rb.buf.setTransform m a st).2 = .accepted)
    (hlast : ∀ op ∈ ops2, op.keepsBuffer)
    (ho : OrderlyRun (ops1 ++ .buffer (.set m a st) :: ops2)
      (Filt.init (RBuf.history D pre).1 (RBuf.history D pre).2 target qsize queued))
    (hh : (Filt.history D pre target qsize queued (ops1 ++ .buffer (.set m a st) :: ops2)).1.Healthy)
    (hs : (Filt.history D pre target qsize queued (ops1 ++ .buffer (.set m a st) :: ops2)).1.rb.scheduled = []) :
    let s := (Filt.history D pre target qsize queued (ops1 ++ .buffer (.set m a st) :: ops2)).1
    ∀ id ∈ s.queued, ∃ f stamp,
      FEv.received id f stamp ∈ (Filt.history D pre target qsize queued (ops1 ++ .buffer (.set m a st) :: ops2)).2 ∧
      ¬ AllReady s.rb.buf s.targets s.tol (stripSlash f) stamp := by
  intro s id hid
  have hw := WInv.history D pre target qsize queued _ ho hh.1 hh.2.1 hh.2.2
  have hi := HInv.history D pre target qsize queued (ops1 ++ .buffer (.set m a st) :: ops2)
  obtain ⟨x, hm, rfl⟩ := List.mem_map.1 hid
  obtain ⟨f, e1, e2⟩ := hi.heads x.msg (mem_heads.2 (.inr ⟨x, hm, rfl⟩))
  obtain ⟨k, hk, hask⟩ := hw.pending hs hm
  refine ⟨f, x.msg.stamp, e1, ?_⟩
  rw [← e2]
  refine hw.not_ready ?_ hk hask
  -- no pending request can be answered
  have e : Filt.history D pre target qsize queued (ops1 ++ .buffer (.set m a st) :: ops2) =
      Filt.run ops2 ((Filt.history D pre target qsize queued ops1).1.step (.buffer (.set m a st))).1
        ((Filt.history D pre target qsize queued ops1).2 ++
          ((Filt.history D pre target qsize queued ops1).1.step (.buffer (.set m a st))).2) := by
    unfold Filt.history; rw [frun_append]; rfl
  obtain ⟨n2, g2⟩ := revs_run ops2 ((Filt.history D pre target qsize queued ops1).1.step (.buffer (.set m a st))).1
    ((Filt.history D pre target qsize queued ops1).2 ++
      ((Filt.history D pre target qsize queued ops1).1.step (.buffer (.set m a st))).2)
  obtain ⟨n1, g1⟩ := revs_grow (Filt.history D pre target qsize queued ops1).1 (.buffer (.set m a st))
  have hrev : s.revs = (Filt.history D pre target qsize queued ops1).1.revs ++ n1 ++ n2 := by
    show (Filt.history D pre target qsize queued (ops1 ++ .buffer (.set m a st) :: ops2)).1.revs = _
    rw [e, g2, g1]
  obtain ⟨q1, q2, q3⟩ := hh
  have orderly_left : ∀ (o1 o2 : List (FOp X)) (s0 : Filt X), OrderlyRun (o1 ++ o2) s0 → OrderlyRun o1 s0 := by
    intro o1 o2
    induction o1 with
    | nil => intro s0 _; exact trivial
    | cons op r ih => intro s0 h; exact ⟨h.1, ih _ h.2⟩
  have hw1 : WInv D (Filt.history D pre target qsize queued ops1).1 := by
    refine WInv.history D pre target qsize queued ops1 (orderly_left _ _ _ ho) ?_ ?_ ?_
    · have : (addedHandles s.revs).length < 2 ^ 32 := q1
      rw [hrev, addedHandles_append, addedHandles_append, List.length_append, List.length_append] at this; omega
    · intro x hx; exact q2 x (by show _ ∈ s.revs; rw [hrev]; exact List.mem_append_left _ (List.mem_append_left _ hx))
    · intro hx; exact q3 (by show _ ∈ s.revs; rw [hrev]; exact List.mem_append_left _ (List.mem_append_left _ hx))
  have hu := Unanswerable.set hw1 hacc (by
    intro x hx
    rw [g1] at hx
    exact q2 x (by show _ ∈ s.revs; rw [hrev]; exact List.mem_append_left _ hx))
  have hf := (FInv.history D pre target qsize queued ops1).step (.buffer (.set m a st))
  have := Unanswerable.run ops2 hu hf.1 hlast
  show Unanswerable (Filt.history D pre target qsize queued (ops1 ++ .buffer (.set m a st) :: ops2)).1.rb
  rw [e]; exact this

/-- Two messages wait, with two targets and a tolerance; one gets all it needs. -/
def waitOps1 : List (FOp Int) :=
  [.setTolerance 2, .setTargets [['/', 'w'], ['a']],
   .addStart ['/', 'b'] 15, .addNext 0, .addNext 0, .addNext 0, .addNext 0, .addNext 0,
   .addStart ['c'] 15, .addNext 0, .addNext 0, .addNext 0, .addNext 0, .addNext 0,
   .buffer (.set (tmsg ['w'] ['b'] 15 7) ['u'] false), .invoke 0 true, .invoke 0 true]

/-- The last transform and what follows. -/
def waitOps2 : List (FOp Int) :=
  [.invoke 0 true, .addStart ['d'] 4, .addNext 0, .addNext 0, .addNext 0, .addNext 0, .addNext 0, .invoke 0 true]

example : let m := tmsg ['w'] ['b'] 18 7
    let ops := waitOps1 ++ .buffer (.set m ['u'] false) :: waitOps2
    ((Filt.history 100 filtPre ['w'] 5 false waitOps1).1.rb.buf.setTransform m ['u'] false).2 = .accepted ∧
    (∀ op ∈ waitOps2, op.keepsBuffer) ∧
    OrderlyRun ops (Filt.init (RBuf.history 100 filtPre).1 (RBuf.history 100 filtPre).2 ['w'] 5 false) ∧
    (Filt.history 100 filtPre ['w'] 5 false ops).1.Healthy ∧
    (Filt.history 100 filtPre ['w'] 5 false ops).1.rb.scheduled = [] ∧
    (Filt.history 100 filtPre ['w'] 5 false waitOps1).1.queued = [0, 1] ∧
    (Filt.history 100 filtPre ['w'] 5 false ops).1.queued = [1, 2] ∧
    FEv.decided 0 none ∈ (Filt.history 100 filtPre ['w'] 5 false ops).2 := by
  intro m ops
  have hr : (Filt.history 100 filtPre ['w'] 5 false ops).1.revs.all (fun e => match e with
      | .testThrew _ => false | .registerHangs => false | _ => true) = true := by decide +kernel
  refine ⟨by decide +kernel, ?_, ?_, ⟨by decide +kernel, ?_, ?_⟩, by decide +kernel, by decide +kernel,
    by decide +kernel, by decide +kernel⟩
  · simp [waitOps2, FOp.keepsBuffer]
  · simp only [ops, m, waitOps1, waitOps2, List.cons_append, List.nil_append, OrderlyRun, Filt.Orderly, true_and, and_true]
    decide +kernel
  · intro e he
    have := List.all_eq_true.1 hr _ he
    simp at this
  · intro he
    have := List.all_eq_true.1 hr _ he
    simp at this

/-- C61 finding: between its request and the moment it queues its message `add` holds no lock. If the buffer
answers in between, the callback finds no message, and the message queued afterwards waits although it can be
transformed and nothing is outstanding. -/
theorem C61_add_race_finding : ∃ ops : List (FOp Int),
    let s := (Filt.history 100 filtPre ['w'] 2 false ops).1
    s.adding = [] ∧ s.rb.scheduled = [] ∧ s.rb.pending = [] ∧ s.queued = [0] ∧
    s.rb.buf.canTransform ['w'] ['b'] 15 = .ok true ∧ s.targets = [['w']] ∧ s.tol = 0 ∧
    FEv.received 0 ['b'] 15 ∈ (Filt.history 100 filtPre ['w'] 2 false ops).2 := by
  refine ⟨[.addStart ['b'] 15, .addNext 0, .buffer (.set (tmsg ['w'] ['b'] 15 7) ['u'] false), .invoke 0 true,
    .addNext 0], ?_⟩
  decide +kernel

/-- C61 finding: target frames added while a message waits raise the number of answers it must collect, but no
request is made for them; the message waits for good although it can be transformed to all of them. -/
theorem C61_targets_finding : ∃ ops : List (FOp Int),
    let s := (Filt.history 100 filtPre ['w'] 2 false ops).1
    s.adding = [] ∧ s.rb.scheduled = [] ∧ s.rb.pending = [] ∧ s.queued = [0] ∧
    s.rb.buf.canTransform ['w'] ['b'] 15 = .ok true ∧ s.rb.buf.canTransform ['a'] ['b'] 15 = .ok true ∧
    s.targets = [['w'], ['a']] ∧ s.tol = 0 ∧
    FEv.received 0 ['b'] 15 ∈ (Filt.history 100 filtPre ['w'] 2 false ops).2 := by
  refine ⟨[.addStart ['b'] 15, .addNext 0, .addNext 0, .setTargets [['w'], ['a']],
    .buffer (.set (tmsg ['w'] ['b'] 15 7) ['u'] false), .invoke 0 true], ?_⟩
  decide +kernel

/-- C61 finding: `clear` while an `add` is between its request and the queue removes the request; the message is
queued afterwards and nothing will ever wake it. -/
theorem C61_clear_finding : ∃ ops : List (FOp Int),
    let s := (Filt.history 100 filtPre ['w'] 2 false ops).1
    s.adding = [] ∧ s.rb.scheduled = [] ∧ s.rb.pending = [] ∧ s.queued = [0] ∧
    s.rb.buf.canTransform ['w'] ['b'] 15 = .ok true ∧ s.targets = [['w']] ∧ s.tol = 0 ∧
    FEv.received 0 ['b'] 15 ∈ (Filt.history 100 filtPre ['w'] 2 false ops).2 := by
  refine ⟨[.addStart ['b'] 15, .addNext 0, .clear, .addNext 0,
    .buffer (.set (tmsg ['w'] ['b'] 15 7) ['u'] false)], ?_⟩
  decide +kernel

end Tf2
