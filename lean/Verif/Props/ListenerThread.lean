import Verif.Proofs.ListenerThreadLive
import Verif.Proofs.Examples

/-!
# C90: the listener with its own thread, from construction to destruction
-/
namespace Tf2.Spin

variable {X : Type}

/-! ### Order and loss -/

/-- C90. The messages of a topic that arrived are, in this order: those that are past, and at most 100 that wait. Those
that are past are the messages a callback was started for, in the order of arrival, and the messages pushed out. -/
theorem C90_order [Rigid X] (D : Duration) (ops : List (Op X)) (st : Bool) :
    ∃ past rest, arrived st (history D ops).2 = past ++ rest ∧ rest.length ≤ 100 ∧
      past.Perm (handled st (history D ops).2 ++ dropped st (history D ops).2) ∧
      (handled st (history D ops).2).Sublist past ∧ (dropped st (history D ops).2).Sublist past := by
  obtain ⟨rest, ⟨front, h1, h2, h3, h4⟩, h5, -⟩ := (inv_history D ops).flow st
  exact ⟨front, rest, h1, h5, h2, h3, h4⟩

/-- C90. A message is pushed out only by the arrival of a message of its topic that finds 100 messages waiting, of
which it is the oldest: nothing of what arrived after it has been handled. -/
theorem C90_drop [Rigid X] (D : Duration) (ops : List (Op X)) (op : Op X) (st : Bool) (q : Packet X)
    (h : Ev.dropped st q ∈ ((history D ops).1.step op).2) :
    ∃ p past newer, op = .arrive st p ∧ arrived st (history D ops).2 = past ++ q :: newer ∧ newer.length = 99 ∧
      past.Perm (handled st (history D ops).2 ++ dropped st (history D ops).2) := by
  have hi := inv_history D ops
  have ho := sout (history D ops).1 op
  generalize (history D ops).1.step op = x at ho h
  cases ho with
  | @full st' p q' qs ho hp hw hl =>
    have h : Ev.dropped st q ∈ [.arrived st' p, .dropped st' q'] := h
    simp at h
    obtain ⟨rfl, rfl⟩ := h
    obtain ⟨rest, ⟨front, h1, h2, h3, h4⟩, h5, h6⟩ := hi.flow st
    rw [h6 ho, hw] at h1 h5
    rw [hw] at hl
    refine ⟨p, front, qs, rfl, h1, ?_, h2⟩
    simp [queueSize] at h5 hl
    omega
  | @work now c hp hc => simp [St.after] at h
  | @call now st' r p ps hp hc hb hw => simp [St.after] at h
  | @other op hp => simp at h
  | push => simp at h
  | join => simp at h
  | _ => cases h

theorem dropped_nil_or (st : Bool) (evs : List (Ev X)) (h : dropped st evs ≠ []) : ∃ q, Ev.dropped st q ∈ evs := by
  induction evs with
  | nil => exact absurd rfl h
  | cons e r ih =>
    cases e with
    | dropped st' q =>
      by_cases e : st' = st
      · subst e; exact ⟨q, List.mem_cons_self⟩
      · simp only [dropped, if_neg e] at h
        obtain ⟨q, hq⟩ := ih h; exact ⟨q, List.mem_cons_of_mem _ hq⟩
    | _ =>
      simp only [dropped] at h
      obtain ⟨q, hq⟩ := ih h; exact ⟨q, List.mem_cons_of_mem _ hq⟩

/-- C90. If the thread never fell more than 100 messages of a topic behind, none was lost: those handled, then those
that wait, are those that arrived. -/
theorem C90_lossless [Rigid X] (D : Duration) (ops : List (Op X)) (st : Bool)
    (h : ∀ p, p <+: ops → (arrived st (history D p).2).length ≤ (handled st (history D p).2).length + 100) :
    dropped st (history D ops).2 = [] ∧
    ∃ rest, arrived st (history D ops).2 = handled st (history D ops).2 ++ rest ∧ rest.length ≤ 100 := by
  have key : dropped st (history D ops).2 = [] := by
    induction ops using snoc_cases with
    | h0 => rfl
    | h1 l a ih =>
      have ih' := ih fun p hp => h p (hp.trans (List.prefix_append _ _))
      have hl := h (l ++ [a]) (List.prefix_refl _)
      rw [history_snoc] at hl ⊢
      dsimp only at hl ⊢
      rw [dropped_append, ih', List.nil_append]
      cases hd : dropped st ((history D l).1.step a).2 with
      | nil => rfl
      | cons q qs =>
        exfalso
        obtain ⟨q, hq⟩ := dropped_nil_or st _ (by rw [hd]; exact fun e => by cases e)
        obtain ⟨p, past, newer, rfl, h1, h2, h3⟩ := C90_drop D l a st q hq
        have hlen := h3.length_eq
        rw [ih', List.append_nil] at hlen
        have ho := sout (history D l).1 (.arrive st p)
        generalize (history D l).1.step (.arrive st p) = x at ho hl hq
        cases ho with
        | nothing => cases hq
        | push => simp at hq
        | full =>
          simp only [arrived_append, handled_append, arrived, handled, if_true, List.length_append] at hl
          rw [h1] at hl
          simp at hl
          omega
  refine ⟨key, ?_⟩
  obtain ⟨past, rest, h1, h2, h3, h4, -⟩ := C90_order D ops st
  rw [key, List.append_nil] at h3
  have : handled st (history D ops).2 = past := h4.eq_of_length h3.length_eq.symm
  exact ⟨rest, by rw [this]; exact h1, h2⟩

/-! ### What the callbacks do -/

/-- C90. As long as no exception left a callback: the calls of the buffer made for the messages handled, with those
still to be made for the last one, are the calls due; the buffer is what all calls, the listener's and everybody
else's, make of it. -/
theorem C90_calls [Rigid X] (D : Duration) (ops : List (Op X)) :
    (LEv.escaped ∉ inner (history D ops).2 →
      listenerCalls (inner (history D ops).2) ++ (history D ops).1.lis.remaining = callsDue 0 (inner (history D ops).2)) ∧
    (history D ops).1.lis.rb = (RBuf.history D (bufferCalls (inner (history D ops).2))).1 := by
  obtain ⟨lops, e⟩ := (inv_history D ops).refine
  have e1 : (Listener.history D lops).1 = (history D ops).1.lis := congrArg Prod.fst e
  have e2 : (Listener.history D lops).2 = inner (history D ops).2 := congrArg Prod.snd e
  rw [← e1, ← e2]
  exact ⟨C43_calls D lops, C43_effect D lops⟩

/-- C90. No message waits for ever: when messages have at most `L` transforms, then `401 (L + 2) + 3` steps of the
thread after a moment every message of the topic that had arrived by that moment has been handled or pushed out -
unless an exception left a callback or the destructor has been called. -/
theorem C90_live [Rigid X] (D : Duration) (L : Nat) (ops later : List (Op X)) (st : Bool)
    (hL : ∀ st p, Op.arrive st p ∈ ops ++ later → p.msgs.length ≤ L)
    (hn : 401 * (L + 2) + 3 ≤ threadSteps later)
    (hd : Op.destroy ∉ ops ++ later) (he : LEv.escaped ∉ inner (history D (ops ++ later)).2) :
    ∃ more, arrived st (history D ops).2 ++ more <+: arrived st (history D (ops ++ later)).2 ∧
      (arrived st (history D ops).2 ++ more).Perm
        (handled st (history D (ops ++ later)).2 ++ dropped st (history D (ops ++ later)).2) := by
  -- the owner does not destroy
  have alive : ∀ l : List (Op X), Op.destroy ∉ l → (history D l).1.keep = true := by
    intro l
    induction l using snoc_cases with
    | h0 => intro _; rfl
    | h1 l a ih =>
      intro hl
      rw [List.mem_append, not_or] at hl
      have ih' := ih hl.1
      rw [history_snoc]
      dsimp only
      have ho := sout (history D l).1 a
      generalize (history D l).1.step a = x at ho ⊢
      cases ho with
      | destroy => exact absurd (by simp) hl.2
      | full => simpa using ih'
      | push => simpa using ih'
      | call => simpa [St.after] using ih'
      | _ => exact ih'
  have hi := inv_history D ops
  have hk := alive ops (fun e => hd (List.mem_append_left _ e))
  have hng : (history D ops).1.owner ≠ .gone := by
    intro e; have := hi.keep.1 hk; rw [e] at this; rcases this with x | x <;> cases x
  have hsm := small_history D L ops fun st p hp => hL st p (List.mem_append_left _ hp)
  have hdue := (due_start hi hsm st hng).run later hi hsm (Nat.le_refl _)
    (fun st p hp => hL st p (List.mem_append_right _ hp))
  have hrun : history D (ops ++ later) =
      ((St.run later (history D ops).1).1, (history D ops).2 ++ (St.run later (history D ops).1).2) := by
    unfold history; rw [run_append]
  have hi2 := inv_history D (ops ++ later)
  have hk2 := alive (ops ++ later) hd
  have hpast : (arrived st (history D ops).2).length ≤ past st (history D (ops ++ later)).2 := by
    rw [Nat.sub_eq_zero_of_le hn] at hdue
    rw [hrun] at he hk2 hi2 ⊢
    exact hdue.zero hk2 fun e => he (hi2.crashed.1 e)
  obtain ⟨front, rest, h1, -, h3, -, -⟩ := C90_order D (ops ++ later) st
  have hpre : arrived st (history D ops).2 <+: arrived st (history D (ops ++ later)).2 := by
    rw [hrun]; dsimp only; rw [arrived_append]; exact List.prefix_append _ _
  have hpre' : arrived st (history D ops).2 <+: front := by
    have hf : front <+: arrived st (history D (ops ++ later)).2 := by rw [h1]; exact List.prefix_append _ _
    refine List.prefix_of_prefix_length_le hpre hf ?_
    rw [h3.length_eq, List.length_append]; exact hpast
  obtain ⟨more, rfl⟩ := hpre'
  exact ⟨more, ⟨rest, h1.symm⟩, h3⟩

/-! ### Destruction -/

theorem gone_of_returned [Rigid X] (D : Duration) (ops : List (Op X)) (h : Ev.returned ∈ (history D ops).2) :
    (history D ops).1.owner = .gone := by
  induction ops using snoc_cases with
  | h0 => cases h
  | h1 l a ih =>
    rw [history_snoc] at h ⊢
    dsimp only at h ⊢
    rw [List.mem_append] at h
    have ho := sout (history D l).1 a
    rcases h with h | h
    · have ih' := ih h
      have hp := ((inv_history D l).goneEnded ih').1
      generalize (history D l).1.step a = x at ho ⊢
      cases ho <;> first | exact ih' | (simp_all; done)
    · generalize (history D l).1.step a = x at ho h ⊢
      cases ho with
      | join => rfl
      | full => simp at h
      | push => simp at h
      | work => simp [St.after] at h
      | call => simp [St.after] at h
      | other => simp at h
      | _ => cases h

/-- C90. When the destructor has returned, no exception left a callback, every message a callback was started for has
been applied completely, and from then on the listener does nothing: no callback starts, the buffer is called only
by others. -/
theorem C90_destroyed [Rigid X] (D : Duration) (ops later : List (Op X)) (h : Ev.returned ∈ (history D ops).2) :
    LEv.escaped ∉ inner (history D ops).2 ∧
    listenerCalls (inner (history D ops).2) = callsDue 0 (inner (history D ops).2) ∧
    ∃ others, history D (ops ++ later) =
      ({ (history D ops).1 with lis := { (history D ops).1.lis with rb := (RBuf.run others (history D ops).1.lis.rb []).1 } },
       (history D ops).2 ++ others.map (fun op => .did (.other op))) := by
  have hg := gone_of_returned D ops h
  have hi := inv_history D ops
  have hp := (hi.goneEnded hg).1
  have he : LEv.escaped ∉ inner (history D ops).2 := fun e => by
    have := hi.crashed.2 e; rw [hp] at this; cases this
  have hcur : (history D ops).1.lis.cur = none := by
    cases hc : (history D ops).1.lis.cur with
    | none => rfl
    | some c => have := hi.cur (by rw [hc]; exact fun e => by cases e); rw [hp] at this; cases this
  refine ⟨he, ?_, ?_⟩
  · have := (C90_calls D ops).1 he
    rw [show (history D ops).1.lis.remaining = [] by simp [Listener.remaining, hcur], List.append_nil] at this
    exact this
  · have key : ∀ (l : List (Op X)) (s : St X), s.owner = .gone → s.phase = .ended →
        ∃ others, St.run l s = ({ s with lis := { s.lis with rb := (RBuf.run others s.lis.rb []).1 } },
          others.map (fun op => .did (.other op))) := by
      intro l
      induction l with
      | nil => intro s _ _; exact ⟨[], rfl⟩
      | cons a r ih =>
        intro s h1 h2
        have ho := sout s a
        simp only [St.run]
        generalize s.step a = x at ho ⊢
        cases ho with
        | nothing _ =>
          obtain ⟨o, e⟩ := ih s h1 h2
          exact ⟨o, by rw [e]; rfl⟩
        | @other op hp' =>
          obtain ⟨o, e⟩ := ih { s with lis := { s.lis with rb := (s.lis.rb.step op).1 } } h1 h2
          refine ⟨op :: o, ?_⟩
          have hst : s.lis.step (.other op) = ({ s.lis with rb := (s.lis.rb.step op).1 }, [.other op]) := rfl
          rw [hst]
          dsimp only
          rw [e]
          simp only [RBuf.run, List.nil_append, List.map_cons, List.map_nil, List.cons_append]
          rw [rbuf_evs o _ (s.lis.rb.step op).2]
        | full ho => exact absurd h1 ho
        | push ho => exact absurd h1 ho
        | ready ho => rw [h1] at ho; cases ho
        | destroy ho => rw [h1] at ho; cases ho
        | join ho => rw [h1] at ho; cases ho
        | go hp => rw [h2] at hp; cases hp
        | stop hp => rw [h2] at hp; cases hp
        | timeout hp => rw [h2] at hp; cases hp
        | grab hp => rw [h2] at hp; cases hp
        | work hp => rw [h2] at hp; cases hp
        | done hp => rw [h2] at hp; cases hp
        | blank hp => rw [h2] at hp; cases hp
        | call hp => rw [h2] at hp; cases hp
    obtain ⟨o, e⟩ := key later (history D ops).1 hg hp
    refine ⟨o, ?_⟩
    unfold history at e ⊢
    rw [run_append, e]

/-- C90. The destructor returns, if no exception leaves a callback: `201 (L + 2) + 2` steps of the thread after it was
called `join` can return, whatever arrives and whatever others do meanwhile. -/
theorem C90_ends [Rigid X] (D : Duration) (L : Nat) (ops later : List (Op X))
    (hL : ∀ st p, Op.arrive st p ∈ ops ++ later → p.msgs.length ≤ L)
    (hd : (history D ops).1.owner = .joining) (hn : 201 * (L + 2) + 2 ≤ threadSteps later)
    (he : LEv.escaped ∉ inner (history D (ops ++ later)).2) :
    Ev.returned ∈ (history D (ops ++ later ++ [.join])).2 := by
  have hi := inv_history D ops
  have hsm := small_history D L ops fun st p hp => hL st p (List.mem_append_left _ hp)
  have hk : (history D ops).1.keep = false := by
    cases e : (history D ops).1.keep with
    | false => rfl
    | true => have := hi.keep.1 e; rw [hd] at this; rcases this with x | x <;> cases x
  have hend := thread_ends later hi hsm hk (fun st p hp => hL st p (List.mem_append_right _ hp))
  have hcost := cost_le hi hsm
  have hrun : history D (ops ++ later) =
      ((St.run later (history D ops).1).1, (history D ops).2 ++ (St.run later (history D ops).1).2) := by
    unfold history; rw [run_append]
  have hi2 := inv_history D (ops ++ later)
  have hphase : (history D (ops ++ later)).1.phase = .ended := by
    rcases hend with e | e | e
    · rw [hrun]; exact e
    · exfalso; exact he (hi2.crashed.1 (by rw [hrun]; exact e))
    · omega
  -- the owner is joining, or `join` has returned before
  have howner : ∀ l : List (Op X), (history D (ops ++ l)).1.owner = .joining ∨ Ev.returned ∈ (history D (ops ++ l)).2 := by
    intro l
    induction l using snoc_cases with
    | h0 => left; rw [List.append_nil]; exact hd
    | h1 l a ih =>
      rw [← List.append_assoc, history_snoc]
      dsimp only
      rcases ih with ih | ih
      · have ho := sout (history D (ops ++ l)).1 a
        generalize (history D (ops ++ l)).1.step a = x at ho ⊢
        cases ho with
        | join => right; simp
        | ready ho => rw [ih] at ho; cases ho
        | destroy ho => rw [ih] at ho; cases ho
        | full => left; simpa using ih
        | push => left; simpa using ih
        | call => left; simpa [St.after] using ih
        | _ => exact .inl ih
      · exact .inr (List.mem_append_left _ ih)
  rw [history_snoc]
  dsimp only
  rw [List.mem_append]
  rcases howner later with h | h
  · right
    simp [St.step, h, hphase]
  · exact .inl h

/-! ### What the buffer says about the thread -/

/-- C90. `isUsingDedicatedThread()` says yes from the end of the constructor on - for ever, the destructor does not
take it back. -/
theorem C90_dedicated [Rigid X] (D : Duration) (ops : List (Op X)) :
    (history D ops).1.dedicated = true ↔ (history D ops).1.owner ≠ .starting :=
  (inv_history D ops).dedicated

/-! ### Findings -/

/-- One transform from `w` to `c`. -/
def onePacket (c : Name) (t : Time) : Packet Int := ⟨[tmsg ['w'] c t 1], ['p']⟩

/-- `n` steps of the thread. -/
def steps (n : Nat) : List (Op Int) := List.replicate n (.thread 50)

theorem steps_thread {n : Nat} {op : Op Int} (h : op ∈ steps n) : op = .thread 50 := List.eq_of_mem_replicate h

theorem threadSteps_steps (n : Nat) : threadSteps (steps n) = n := by
  unfold steps
  induction n with
  | zero => rfl
  | succ n ih => rw [List.replicate_succ, threadSteps, ih]

theorem not_escaped {evs : List (LEv X)} (h : escapes evs = false) : LEv.escaped ∉ evs :=
  fun e => by have := (escapes_iff _).2 e; rw [h] at this; cases this

/-- C90, finding. One message with a stamp at the end of the range of `ros::Time` on `/tf`, from whatever publisher, ends
the process of every listener with a thread of its own (cache time 100 ns, the buffer is empty): `setTransform` throws
`std::runtime_error`, the callback catches `tf2::TransformException` only, nobody catches in the thread. The message
with an ordinary stamp that came with it is lost like everything else. -/
theorem C90_crash_finding :
    ∃ ops : List (Op Int), (∀ st p, Op.arrive st p ∈ ops → p.msgs.length = 1) ∧
      (history 100 ops).1.phase = .crashed ∧ (arrived false (history 100 ops).2).length = 2 ∧
      (handled false (history 100 ops).2).length = 1 ∧
      ∀ later, (history 100 (ops ++ later)).1.phase = .crashed := by
  refine ⟨[.arrive false (onePacket ['a'] TIME_MAX), .arrive false (onePacket ['b'] 10), .ready] ++ steps 4, ?_,
    by decide +kernel, by decide +kernel, by decide +kernel, fun later => ?_⟩
  · intro st p hp
    simp [steps] at hp
    rcases hp with ⟨-, rfl⟩ | ⟨-, rfl⟩ <;> rfl
  · rw [history, run_append]
    have h : (St.run ([.arrive false (onePacket ['a'] TIME_MAX), .arrive false (onePacket ['b'] 10), .ready] ++ steps 4)
      (St.init 100 : St Int)).1.phase = .crashed := by decide +kernel
    generalize St.run _ (St.init 100 : St Int) = x at h
    dsimp only
    generalize x.1 = s at h ⊢
    induction later generalizing s with
    | nil => exact h
    | cons a r ih =>
      simp only [St.run]
      refine ih _ ?_
      have ho := sout s a
      generalize s.step a = x at ho ⊢
      cases ho <;> simp_all

/-- A hundred and one static transforms, one message each, before the thread has run. -/
def manyStatic : List (Op Int) :=
  (List.range 101).map (fun i => .arrive true (onePacket ['s', Char.ofNat (1000 + i)] 10)) ++ [.ready] ++ steps 500

/-- C90, finding. Of 101 static transforms published in 101 messages, all latched, that arrive before the thread has
come to run, the first is lost for good: the thread works everything off, nothing waits, and the buffer does not know
the first transform. -/
theorem C90_static_finding :
    (arrived true (history 100 manyStatic).2).length = 101 ∧
    (dropped true (history 100 manyStatic).2).length = 1 ∧ (handled true (history 100 manyStatic).2).length = 100 ∧
    (history 100 manyStatic).1.queue = [] ∧ (history 100 manyStatic).1.batch = [] ∧
    (history 100 manyStatic).1.lis.rb.buf.canTransform ['w'] ['s', Char.ofNat 1000] 0 = .ok false ∧
    (history 100 manyStatic).1.lis.rb.buf.canTransform ['w'] ['s', Char.ofNat 1001] 0 = .ok true ∧
    (history 100 manyStatic).1.lis.rb.buf.canTransform ['w'] ['s', Char.ofNat 1100] 0 = .ok true := by
  decide +kernel

/-- C90, finding. The listener is gone and the buffer still claims a thread: with a clock that stands (a paused
simulation) `canTransform` with a timeout of one second waits for ever for data nobody will put in. A buffer that
never had a listener answers at once. -/
theorem C90_stale_finding :
    ∃ ops : List (Op Int), Ev.returned ∈ (history 100 ops).2 ∧
      ∀ W : Nat → World Int, (∀ n, W n = { buf := (history 100 ops).1.lis.rb.buf, now := 50, up := true }) →
        (∀ n v, wait (simpleGoal ['w'] ['b'] 15 1000000000) (history 100 ops).1.dedicated false W n ≠ .returned v) ∧
        wait (simpleGoal ['w'] ['b'] 15 1000000000) (St.init 100 : St Int).dedicated false W 1 = .returned false := by
  refine ⟨[.ready, .destroy, .thread 50, .join], by simp [history, St.run, St.step, St.thread, St.init], fun W hW => ⟨fun n v h => ?_, rfl⟩⟩
  have hd : (history 100 ([.ready, .destroy, .thread 50, .join] : List (Op Int))).1.dedicated = true := by decide +kernel
  have hc : (simpleGoal ['w'] ['b'] 15 1000000000).can
      (history 100 ([.ready, .destroy, .thread 50, .join] : List (Op Int))).1.lis.rb.buf = .ok false := by decide +kernel
  rw [hd] at h
  have hs : ∀ i < n, PollSleeps (simpleGoal ['w'] ['b'] 15 1000000000) W (W 0).now i := by
    intro i _
    simp only [hW]
    unfold PollSleeps
    simp only [hW]
    exact ⟨⟨1000000050, by decide, by decide⟩, hc, ⟨3000000050, by decide, by decide⟩, trivial⟩
  have h1 := wait_sleeping (errstr := false) n wait_start hs
  have h2 : wait (simpleGoal ['w'] ['b'] 15 1000000000) true false W (5 * n + 1) = .returned v := by
    have := ended_stays (g := simpleGoal ['w'] ['b'] 15 1000000000) (errstr := false) (W := W) (n := n) (by rw [h]; trivial) (4 * n + 1)
    rw [show n + (4 * n + 1) = 5 * n + 1 by omega] at this
    rw [this, h]
  rw [h1] at h2
  cases h2

/-! ### Examples -/

/-- Two messages with one transform each, handled; the destructor. -/
def quietOps : List (Op Int) :=
  [.arrive false (onePacket ['a'] 10), .ready, .arrive true (onePacket ['b'] 10)]

/-- The hypotheses of `C90_lossless`, `C90_live` and `C90_ends` are met, and the conclusions are not empty. -/
example : (handled false (history 100 (quietOps ++ steps 1206)).2).length = 1 ∧
    (handled true (history 100 (quietOps ++ steps 1206)).2).length = 1 ∧
    (history 100 (quietOps ++ steps 1206)).1.lis.rb.buf.canTransform ['b'] ['a'] 10 = .ok true := by decide +kernel

example : (∀ st p, Op.arrive st p ∈ quietOps ++ steps 1206 → p.msgs.length ≤ 1) ∧
    401 * (1 + 2) + 3 ≤ threadSteps (steps 1206) ∧ Op.destroy ∉ quietOps ++ steps 1206 ∧
    LEv.escaped ∉ inner (history 100 (quietOps ++ steps 1206)).2 := by
  refine ⟨?_, by rw [threadSteps_steps]; decide, fun h => (by rcases List.mem_append.1 h with h | h; (· simp [quietOps] at h); (· cases steps_thread h)), not_escaped (by decide +kernel)⟩
  intro st p hp
  rcases List.mem_append.1 hp with hp | hp
  · simp [quietOps] at hp
    rcases hp with ⟨-, rfl⟩ | ⟨-, rfl⟩ <;> exact Nat.le_refl 1
  · cases steps_thread hp

example : (∀ st p, Op.arrive st p ∈ quietOps ++ [.thread 50, .destroy] ++ steps 605 → p.msgs.length ≤ 1) ∧
    (history 100 (quietOps ++ [.thread 50, .destroy])).1.owner = .joining ∧
    201 * (1 + 2) + 2 ≤ threadSteps (steps 605) ∧
    LEv.escaped ∉ inner (history 100 (quietOps ++ [.thread 50, .destroy] ++ steps 605)).2 := by
  refine ⟨?_, by decide +kernel, by rw [threadSteps_steps]; decide, not_escaped (by decide +kernel)⟩
  intro st p hp
  rcases List.mem_append.1 hp with hp | hp
  · simp [quietOps] at hp
    rcases hp with ⟨-, rfl⟩ | ⟨-, rfl⟩ <;> exact Nat.le_refl 1
  · cases steps_thread hp

/-- The hypothesis of `C90_lossless`. -/
example : ∀ p, p <+: quietOps ++ steps 8 →
    (arrived true (history 100 p).2).length ≤ (handled true (history 100 p).2).length + 100 := by
  intro p hp
  rw [List.prefix_iff_eq_take.1 hp]
  have hl : p.length ≤ 11 := hp.length_le
  generalize p.length = k at hl
  have : ∀ k ≤ 11, (arrived true (history 100 ((quietOps ++ steps 8).take k)).2).length ≤
    (handled true (history 100 ((quietOps ++ steps 8).take k)).2).length + 100 := by decide +kernel
  exact this k hl

/-- A destructor that has returned after messages were handled. -/
example : Ev.returned ∈ (history 100 (quietOps ++ steps 9 ++ [.destroy] ++ steps 9 ++ [.join])).2 ∧
    (handled false (history 100 (quietOps ++ steps 9 ++ [.destroy] ++ steps 9 ++ [.join])).2).length = 1 := by
  refine ⟨?_, by decide +kernel⟩
  rw [history_snoc]
  dsimp only
  refine List.mem_append_right _ ?_
  have h1 : (history 100 (quietOps ++ steps 9 ++ [.destroy] ++ steps 9)).1.owner = .joining := by decide +kernel
  have h2 : (history 100 (quietOps ++ steps 9 ++ [.destroy] ++ steps 9)).1.phase = .ended := by decide +kernel
  generalize history (X := Int) 100 _ = x at h1 h2 ⊢
  simp [St.step, h1, h2]

/-- A message that is pushed out. -/
example : ∃ q, Ev.dropped true q ∈ ((history 100 (manyStatic.take 100)).1.step
    (.arrive true (onePacket ['x'] 10))).2 := by
  refine dropped_nil_or true _ ?_
  have : (dropped true ((history 100 (manyStatic.take 100)).1.step (.arrive true (onePacket ['x'] 10))).2).length = 1 := by
    decide +kernel
  intro e; rw [e] at this; cases this

end Tf2.Spin
