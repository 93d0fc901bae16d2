import Verif.Spec.Agreement
import Verif.Props.ListenerThread
import Verif.Props.SameData

/-!
# C91: nodes that received the same transforms answer the same
-/
namespace Tf2.Spin

variable {X : Type}

/-! ### The buffer as a history of calls -/

/-- The calls that change the frame table. -/
def dataOf : ROp X → Option (Tf2.Op X)
  | .set m a s => some (.set m a s)
  | .clear => some .clear
  | _ => none

theorem test_buf (s : RBuf X) : (RBuf.test s).1.buf = s.buf := by
  unfold RBuf.test; split <;> rfl

theorem rset_buf [Rigid X] (s : RBuf X) (m : Msg X) (a : Name) (st : Bool) :
    (s.setTransform m a st).1.buf = (s.buf.setTransform m a st).1 := by
  unfold RBuf.setTransform
  split
  · rename_i b h; rw [h]; exact test_buf _
  · rename_i b h; rw [h]
  · rename_i b r h1 h2 h3; rw [h3]

theorem rstep_buf [Rigid X] (s : RBuf X) (op : ROp X) :
    (s.step op).1.buf = s.buf.run ([op].filterMap dataOf) := by
  cases op with
  | set m a st => exact rset_buf s m a st
  | clear => rfl
  | addCallback => show (RBuf.addCallback s).1.buf = s.buf; unfold RBuf.addCallback; split <;> rfl
  | removeCallback cb => rfl
  | addRequest cb t src time =>
    show (RBuf.addRequest s cb t src time).1.buf = s.buf
    unfold RBuf.addRequest
    split
    · rfl
    · dsimp only
      split <;> try rfl
      split <;> rfl
  | cancelRequest h => rfl
  | invoke k => show (RBuf.invoke s k).1.buf = s.buf; unfold RBuf.invoke; split <;> rfl

theorem rrun_buf [Rigid X] (ops : List (ROp X)) (s : RBuf X) :
    (RBuf.run ops s []).1.buf = s.buf.run (ops.filterMap dataOf) := by
  induction ops generalizing s with
  | nil => rfl
  | cons op r ih =>
    simp only [RBuf.run, List.nil_append]
    rw [rbuf_evs, ih, rstep_buf]
    rw [show op :: r = [op] ++ r from rfl, List.filterMap_append, Tf2.run_append]

/-! ### What was delivered -/

theorem mem_handled (st : Bool) (evs : List (Ev X)) (p : Packet X) :
    p ∈ handled st evs ↔ ∃ now, LEv.received now p.msgs p.auth st ∈ inner evs := by
  induction evs with
  | nil => simp [handled, inner]
  | cons e r ih =>
    cases e with
    | did e =>
      cases e with
      | received now ms a st' =>
        simp only [handled, inner, List.mem_cons]
        by_cases h : st' = st
        · subst h
          rw [if_pos rfl, List.mem_cons, ih]
          constructor
          · rintro (rfl | ⟨n, h⟩)
            · exact ⟨now, .inl rfl⟩
            · exact ⟨n, .inr h⟩
          · rintro ⟨n, h | h⟩
            · left; injection h with _ h1 h2 _; cases p; cases h1; cases h2; rfl
            · exact .inr ⟨n, h⟩
        · rw [if_neg h, ih]
          constructor
          · rintro ⟨n, h⟩; exact ⟨n, .inr h⟩
          · rintro ⟨n, h' | h'⟩
            · injection h' with _ _ _ h'; exact absurd h'.symm h
            · exact ⟨n, h'⟩
      | _ => simp [handled, inner, ih]
    | _ => simp only [handled, inner, ih]

theorem mem_callsDue (last : Time) (l : List (LEv X)) (hc : (last :: clocks l).Pairwise (· ≤ ·)) (x : ROp X) :
    x ∈ callsDue last l ↔ ∃ now ms a st m, LEv.received now ms a st ∈ l ∧ m ∈ ms ∧ x = .set m a st := by
  induction l generalizing last with
  | nil => simp [callsDue]
  | cons e r ih =>
    cases e with
    | received now ms a st =>
      simp only [clocks, List.pairwise_cons, List.mem_cons, forall_eq_or_imp] at hc
      have hc' : (now :: clocks r).Pairwise (· ≤ ·) := List.pairwise_cons.2 hc.2
      have hn : ¬ now < last := Nat.not_lt.2 hc.1.1
      simp only [callsDue, callsOf, if_neg hn, List.nil_append, List.mem_append, ih now hc', List.mem_map]
      constructor
      · rintro (⟨m, hm, rfl⟩ | ⟨n', ms', a', st', m, h1, h2, h3⟩)
        · exact ⟨now, ms, a, st, m, List.mem_cons_self, hm, rfl⟩
        · exact ⟨n', ms', a', st', m, List.mem_cons_of_mem _ h1, h2, h3⟩
      · rintro ⟨n', ms', a', st', m, h1, h2, rfl⟩
        rcases List.mem_cons.1 h1 with h1 | h1
        · cases h1; exact .inl ⟨m, h2, rfl⟩
        · exact .inr ⟨n', ms', a', st', m, h1, h2, rfl⟩
    | did op =>
      simp only [callsDue, ih last hc, List.mem_cons]
      simp
    | other op =>
      simp only [callsDue, ih last hc, List.mem_cons]
      simp
    | escaped =>
      simp only [callsDue, ih last hc, List.mem_cons]
      simp

theorem mem_bufferCalls (l : List (LEv X)) (x : ROp X) :
    x ∈ bufferCalls l ↔ x ∈ listenerCalls l ∨ LEv.other x ∈ l := by
  induction l with
  | nil => simp [bufferCalls, listenerCalls]
  | cons e r ih =>
    cases e <;> simp [bufferCalls, listenerCalls, ih]
    · grind
    · grind

/-- The calls a calm listener that has caught up made are those for the transforms that arrived. -/
theorem data_iff [Rigid X] {D : Duration} {ops : List (Op X)} (hu : CaughtUp D ops) (hc : Calm D ops) (x : Tf2.Op X) :
    x ∈ (bufferCalls (inner (history D ops).2)).filterMap dataOf ↔ x ∈ deliveries (history D ops).2 := by
  have hcalls := (C90_calls D ops).1 hu.fine
  rw [show (history D ops).1.lis.remaining = [] by simp [Listener.remaining, hu.done], List.append_nil] at hcalls
  have h0 : (0 :: clocks (inner (history D ops).2)).Pairwise (· ≤ ·) :=
    List.pairwise_cons.2 ⟨fun _ _ => Nat.zero_le _, hc.clock⟩
  have key : ∀ st m a, ROp.set m a st ∈ callsDue 0 (inner (history D ops).2) ↔
      Tf2.Op.set m a st ∈ deliveriesOn st (history D ops).2 := by
    intro st m a
    rw [mem_callsDue 0 _ h0, deliveriesOn, List.mem_flatMap, ← hu.all st]
    constructor
    · rintro ⟨now, ms, a', st', m', h1, h2, h3⟩
      cases h3
      exact ⟨⟨ms, a⟩, (mem_handled _ _ _).2 ⟨now, h1⟩, List.mem_map.2 ⟨m, h2, rfl⟩⟩
    · rintro ⟨p, hp, hm⟩
      obtain ⟨now, hn⟩ := (mem_handled _ _ _).1 hp
      obtain ⟨m', hm', e⟩ := List.mem_map.1 hm
      cases e
      exact ⟨now, p.msgs, p.auth, st, m, hn, hm', rfl⟩
  have hst : ∀ st m a st', Tf2.Op.set m a st ∈ deliveriesOn st' (history D ops).2 → st' = st := by
    intro st m a st' h
    obtain ⟨p, -, hm⟩ := List.mem_flatMap.1 h
    obtain ⟨m', -, e⟩ := List.mem_map.1 hm
    cases e; rfl
  rw [List.mem_filterMap, deliveries, List.mem_append]
  constructor
  · rintro ⟨r, hr, hx⟩
    rw [mem_bufferCalls, hcalls] at hr
    cases r with
    | set m a st =>
      cases hx
      rcases hr with hr | hr
      · have := (key st m a).1 hr
        cases st
        · exact .inl this
        · exact .inr this
      · exact absurd hr (hc.noSet m a st)
    | clear =>
      rcases hr with hr | hr
      · obtain ⟨_, _, _, _, _, _, _, e⟩ := (mem_callsDue 0 _ h0 _).1 hr
        cases e
      · exact absurd hr hc.noClear
    | _ => cases hx
  · intro h
    have : ∃ st, x ∈ deliveriesOn st (history D ops).2 := h.elim (fun h => ⟨_, h⟩) (fun h => ⟨_, h⟩)
    obtain ⟨st', hd⟩ := this
    cases x with
    | set m a st =>
      have := hst _ _ _ _ hd
      subst this
      exact ⟨.set m a st', by rw [mem_bufferCalls, hcalls]; exact .inl ((key st' m a).2 hd), rfl⟩
    | clear =>
      exfalso
      obtain ⟨p, -, hm⟩ := List.mem_flatMap.1 hd
      obtain ⟨m', -, e⟩ := List.mem_map.1 hm
      cases e

/-! ### C91 -/

theorem buffer_eq [Rigid X] (D : Duration) (ops : List (Op X)) :
    (history D ops).1.lis.rb.buf =
      (Buf.init D).run ((bufferCalls (inner (history D ops).2)).filterMap dataOf) := by
  rw [(C90_calls D ops).2, RBuf.history, rrun_buf]
  rfl

/-- C91. The buffer of a node whose listener has caught up answers every query as a buffer that was simply told the
transforms that arrived, in some fixed order: threads, queues, the order of the two topics, the grouping into messages,
repetitions and publishers leave no trace. The transforms do not contradict each other (`Consistent`); their stamps and
names are ordinary (`Regular`). -/
theorem C91_refines [Rigid X] {D : Duration} {ops : List (Op X)} (hu : CaughtUp D ops) (hc : Calm D ops)
    (hreg : Regular D (deliveries (history D ops).2)) (hcons : Consistent (deliveries (history D ops).2)) :
    Indistinguishable ((Buf.init D).run (deliveries (history D ops).2)) (history D ops).1.lis.rb.buf := by
  rw [buffer_eq]
  have hiff := data_iff hu hc
  refine C86_delivery hreg (hreg.of_mem fun x hx => (hiff x).1 hx) ?_ ?_ hcons ?_
  · intro h
    rcases List.mem_append.1 h with h | h <;>
    · obtain ⟨p, -, hm⟩ := List.mem_flatMap.1 h
      obtain ⟨m', -, e⟩ := List.mem_map.1 hm
      cases e
  · intro h
    rcases List.mem_append.1 ((hiff _).1 h) with h | h <;>
    · obtain ⟨p, -, hm⟩ := List.mem_flatMap.1 h
      obtain ⟨m', -, e⟩ := List.mem_map.1 hm
      cases e
  · intro m s
    unfold Delivered
    simp only [hiff]

/-- C91. Two nodes - different processes, schedules, clocks, histories - whose listeners have caught up and to which the
same acceptable transforms arrived, answer every query the same. -/
theorem C91_agree [Rigid X] {D : Duration} {ops ops' : List (Op X)} (hu : CaughtUp D ops) (hc : Calm D ops)
    (hu' : CaughtUp D ops') (hc' : Calm D ops')
    (hreg : Regular D (deliveries (history D ops).2)) (hreg' : Regular D (deliveries (history D ops').2))
    (hcons : Consistent (deliveries (history D ops).2))
    (hsame : ∀ m s, Delivered (deliveries (history D ops).2) m s ↔ Delivered (deliveries (history D ops').2) m s) :
    Indistinguishable (history D ops).1.lis.rb.buf (history D ops').1.lis.rb.buf := by
  rw [buffer_eq, buffer_eq]
  have hiff := data_iff hu hc
  have hiff' := data_iff hu' hc'
  have noclear : ∀ evs : List (Ev X), Tf2.Op.clear ∉ deliveries evs := by
    intro evs h
    rcases List.mem_append.1 h with h | h <;>
    · obtain ⟨p, -, hm⟩ := List.mem_flatMap.1 h
      obtain ⟨m', -, e⟩ := List.mem_map.1 hm
      cases e
  refine C86_delivery (hreg.of_mem fun x hx => (hiff x).1 hx) (hreg'.of_mem fun x hx => (hiff' x).1 hx)
    (fun h => noclear _ ((hiff _).1 h)) (fun h => noclear _ ((hiff' _).1 h)) ?_ ?_
  · intro m s m' s' h1 h2
    refine hcons m s m' s' ?_ ?_
    · unfold Delivered at h1 ⊢; simpa only [hiff] using h1
    · unfold Delivered at h2 ⊢; simpa only [hiff] using h2
  · intro m s
    have := hsame m s
    unfold Delivered at this ⊢
    simpa only [hiff, hiff'] using this

/-! ### Catching up -/

theorem split_steps (l : List (Op X)) (n : Nat) (h : n ≤ threadSteps l) :
    ∃ l1 l2, l = l1 ++ l2 ∧ threadSteps l1 = n ∧ threadSteps l = n + threadSteps l2 := by
  induction l generalizing n with
  | nil =>
    simp only [threadSteps] at h
    exact ⟨[], [], rfl, by simp [threadSteps]; omega, by simp [threadSteps]; omega⟩
  | cons op r ih =>
    cases n with
    | zero => exact ⟨[], op :: r, rfl, rfl, by omega⟩
    | succ n =>
      cases op with
      | thread now =>
        simp only [threadSteps] at h
        obtain ⟨l1, l2, rfl, h1, h2⟩ := ih n (by omega)
        exact ⟨.thread now :: l1, l2, rfl, by simp [threadSteps, h1], by simp [threadSteps]; omega⟩
      | _ =>
        simp only [threadSteps] at h
        obtain ⟨l1, l2, rfl, h1, h2⟩ := ih (n + 1) h
        exact ⟨_ :: l1, l2, rfl, by simp [threadSteps, h1], by simp [threadSteps]; omega⟩

/-- With nothing left to come, the thread finishes the message it has. -/
theorem finishes [Rigid X] {D : Duration} (l : List (Op X)) (hl : ∀ st p, Op.arrive st p ∉ l) {s : St X} {evs : List (Ev X)}
    (h : Inv D s evs) (hw : ∀ st, s.waiting st = []) (hn : curCost s ≤ threadSteps l) :
    (St.run l s).1.lis.cur = none := by
  induction l generalizing s evs with
  | nil =>
    simp only [threadSteps] at hn
    unfold curCost at hn
    split at hn
    · assumption
    · omega
  | cons op r ih =>
    have hr : ∀ st p, Op.arrive st p ∉ r := fun st p hp => hl st p (List.mem_cons_of_mem _ hp)
    simp only [St.run]
    have hi := h.step op
    have ho := sout s op
    generalize s.step op = x at ho hi ⊢
    have hb : s.batch = [] ∧ s.queue = [] := by
      have h1 := count_bool s.batch
      have h2 := count_bool s.queue
      have h3 := h.tokens true
      have h4 := h.tokens false
      rw [hw] at h3 h4
      simp only [List.length_nil] at h3 h4
      exact ⟨List.length_eq_zero_iff.1 (by omega), List.length_eq_zero_iff.1 (by omega)⟩
    -- a step of the thread that leaves the message alone finds none
    have idle : ∀ now, op = .thread now → s.phase ≠ .calling → curCost s = 0 := by
      intro now _ hp
      unfold curCost
      cases hc : s.lis.cur with
      | none => rfl
      | some c => exact absurd (h.cur (by rw [hc]; exact fun e => by cases e)) hp
    cases ho with
    | nothing _ hop =>
      refine ih hr hi hw ?_
      cases op with
      | thread now =>
        have := idle now rfl (fun e => by have := hop now rfl; rw [e] at this; rcases this with x | x <;> cases x)
        show curCost s ≤ _
        omega
      | _ => exact hn
    | @full st p => exact absurd List.mem_cons_self (hl st p)
    | @push st p => exact absurd List.mem_cons_self (hl st p)
    | @go now hp =>
      have := idle now rfl (by rw [hp]; exact fun e => by cases e)
      exact ih hr hi hw (show curCost s ≤ _ by omega)
    | @stop now hp =>
      have := idle now rfl (by rw [hp]; exact fun e => by cases e)
      exact ih hr hi hw (show curCost s ≤ _ by omega)
    | @timeout now hp =>
      have := idle now rfl (by rw [hp]; exact fun e => by cases e)
      exact ih hr hi hw (show curCost s ≤ _ by omega)
    | @grab now hp =>
      have := idle now rfl (by rw [hp]; exact fun e => by cases e)
      exact ih hr hi hw (show curCost s ≤ _ by omega)
    | @work now c hp hc =>
      have := work_cost s c hc
      simp only [threadSteps] at hn
      exact ih hr hi hw (by omega)
    | @done now hp hc =>
      have e : curCost s = 0 := by unfold curCost; rw [hc]
      exact ih hr hi hw (show curCost s ≤ _ by omega)
    | blank hp hc hb' => rw [hb.1] at hb'; cases hb'
    | call hp hc hb' => rw [hb.1] at hb'; cases hb'
    | ready => exact ih hr hi hw hn
    | destroy => exact ih hr hi hw hn
    | join => exact ih hr hi (fun st => by cases st <;> rfl) hn
    | other => exact ih hr hi hw hn

/-- C91. A listener that never falls more than 100 messages of a topic behind has caught up when nothing new has arrived
for `402 (L + 2) + 3` steps of its thread (messages of at most `L` transforms, no exception, not destroyed). -/
theorem C91_catches_up [Rigid X] (D : Duration) (L : Nat) (ops later : List (Op X))
    (hL : ∀ st p, Op.arrive st p ∈ ops → p.msgs.length ≤ L) (hq : ∀ st p, Op.arrive st p ∉ later)
    (hn : 402 * (L + 2) + 3 ≤ threadSteps later) (hd : Op.destroy ∉ ops ++ later)
    (he : LEv.escaped ∉ inner (history D (ops ++ later)).2)
    (hb : ∀ st p, p <+: ops ++ later →
      (arrived st (history D p).2).length ≤ (handled st (history D p).2).length + 100) : CaughtUp D (ops ++ later) := by
  obtain ⟨l1, l2, rfl, hl1, hl2⟩ := split_steps later (401 * (L + 2) + 3) (by omega)
  have hrun : history D (ops ++ (l1 ++ l2)) =
      ((St.run l2 (history D (ops ++ l1)).1).1, (history D (ops ++ l1)).2 ++ (St.run l2 (history D (ops ++ l1)).1).2) := by
    unfold history; rw [← List.append_assoc, run_append]
  -- nothing arrives in a piece without arrivals
  have quiet : ∀ (l : List (Op X)) (s : St X), (∀ st p, Op.arrive st p ∉ l) → ∀ st, arrived st (St.run l s).2 = [] := by
    intro l
    induction l with
    | nil => intros; rfl
    | cons op r ih =>
      intro s hl st
      simp only [St.run]
      rw [arrived_append, ih _ (fun st p hp => hl st p (List.mem_cons_of_mem _ hp))]
      have ho := sout s op
      generalize s.step op = x at ho ⊢
      cases ho with
      | @full st p => exact absurd List.mem_cons_self (hl st p)
      | @push st p => exact absurd List.mem_cons_self (hl st p)
      | work => simp [St.after, arrived_did]
      | call => simp [St.after, arrived_did]
      | other => simp [arrived_did]
      | _ => rfl
  have hq1 : ∀ st p, Op.arrive st p ∉ l1 := fun st p hp => hq st p (List.mem_append_left _ hp)
  have hq2 : ∀ st p, Op.arrive st p ∉ l2 := fun st p hp => hq st p (List.mem_append_right _ hp)
  have hrun1 : history D (ops ++ l1) =
      ((St.run l1 (history D ops).1).1, (history D ops).2 ++ (St.run l1 (history D ops).1).2) := by
    unfold history; rw [run_append]
  have ha1 : ∀ st, arrived st (history D (ops ++ l1)).2 = arrived st (history D ops).2 := by
    intro st; rw [hrun1]; dsimp only; rw [arrived_append, quiet l1 _ hq1, List.append_nil]
  have ha2 : ∀ st, arrived st (history D (ops ++ (l1 ++ l2))).2 = arrived st (history D (ops ++ l1)).2 := by
    intro st; rw [hrun]; dsimp only; rw [arrived_append, quiet l2 _ hq2, List.append_nil]
  have hL' : ∀ st p, Op.arrive st p ∈ ops ++ l1 → p.msgs.length ≤ L := by
    intro st p hp
    rcases List.mem_append.1 hp with hp | hp
    · exact hL st p hp
    · exact absurd hp (hq1 st p)
  have he1 : LEv.escaped ∉ inner (history D (ops ++ l1)).2 := by
    intro h; apply he; rw [hrun]; dsimp only; rw [inner_append]; exact List.mem_append_left _ h
  have hd1 : Op.destroy ∉ ops ++ l1 := by
    intro h; apply hd; rw [← List.append_assoc]; exact List.mem_append_left _ h
  have hall1 : ∀ st, handled st (history D (ops ++ l1)).2 = arrived st (history D (ops ++ l1)).2 := by
    intro st
    obtain ⟨more, h1, h2⟩ := C90_live D L ops l1 st hL' (by omega) hd1 he1
    obtain ⟨h3, rest, h4, -⟩ := C90_lossless D (ops ++ l1) st
      (fun p hp => hb st p (hp.trans (by rw [← List.append_assoc]; exact List.prefix_append _ _)))
    rw [h3, List.append_nil] at h2
    have h5 := h2.length_eq
    have h6 := congrArg List.length h4
    have h7 := ha1 st
    have h8 := congrArg List.length h7
    rw [List.length_append] at h5 h6
    have : rest = [] := List.length_eq_zero_iff.1 (by omega)
    rw [h4, this, List.append_nil]
  have hall : ∀ st, handled st (history D (ops ++ (l1 ++ l2))).2 = arrived st (history D (ops ++ (l1 ++ l2))).2 := by
    intro st
    obtain ⟨h3, rest, h4, -⟩ := C90_lossless D (ops ++ (l1 ++ l2)) st (fun p hp => hb st p hp)
    have h5 := congrArg List.length h4
    have h6 : (handled st (history D (ops ++ l1)).2).length ≤ (handled st (history D (ops ++ (l1 ++ l2))).2).length := by
      rw [hrun]; dsimp only; rw [handled_append, List.length_append]; omega
    have h7 := congrArg List.length (ha2 st)
    have h8 := congrArg List.length (hall1 st)
    rw [List.length_append] at h5
    have : rest = [] := List.length_eq_zero_iff.1 (by omega)
    rw [h4, this, List.append_nil]
  refine ⟨hall, ?_, he⟩
  rw [hrun]
  have hi := inv_history D (ops ++ l1)
  have hsm := small_history D L (ops ++ l1) hL'
  have hcc := hsm.curCost_le
  refine finishes l2 hq2 hi ?_ (by omega)
  intro st
  by_cases hg : (history D (ops ++ l1)).1.owner = .gone
  · have ht := hi.tokens st
    obtain ⟨-, h1, h2⟩ := hi.goneEnded hg
    rw [h1, h2] at ht
    exact List.length_eq_zero_iff.1 ht.symm
  · obtain ⟨rest, ⟨front, h1, h2, h3, h4⟩, h5, h6⟩ := hi.flow st
    rw [← h6 hg]
    have h7 := congrArg List.length h1
    rw [← hall1 st, List.length_append] at h7
    have h8 := h3.length_le
    exact List.length_eq_zero_iff.1 (by omega)

/-! ### Findings and examples -/

/-- Steps of the thread at a given clock. -/
def stepsAt (n : Nat) (now : Time) : List (Op Int) := List.replicate n (.thread now)

/-- The two transforms are handled as they arrive; the clock goes back in between. -/
def promptOps : List (Op Int) :=
  [.ready, .arrive false (onePacket ['a'] 10)] ++ stepsAt 12 50 ++ [.arrive false (onePacket ['b'] 10)] ++ stepsAt 12 20

/-- The same, but the thread gets to run only after the clock went back. -/
def tardyOps : List (Op Int) :=
  [.ready, .arrive false (onePacket ['a'] 10), .arrive false (onePacket ['b'] 10)] ++ stepsAt 12 20

/-- C91, finding. When the clock is set back between two messages, two nodes that received both and have caught up can
disagree for good: the prompt one has dropped the first transform, the one that was late has kept it. -/
theorem C91_jump_finding :
    (∀ st, arrived st (history 100 promptOps).2 = arrived st (history 100 tardyOps).2) ∧
    CaughtUp 100 promptOps ∧ CaughtUp 100 tardyOps ∧
    (history 100 promptOps).1.lis.rb.buf.lookupTransform ['w'] ['a'] 10 = .throw .extrapolation ∧
    (history 100 tardyOps).1.lis.rb.buf.lookupTransform ['w'] ['a'] 10 = .ok (tmsg ['w'] ['a'] 10 1) := by
  refine ⟨fun st => ?_, ⟨fun st => ?_, ?_, not_escaped (by decide +kernel)⟩,
    ⟨fun st => ?_, ?_, not_escaped (by decide +kernel)⟩, by decide +kernel, by decide +kernel⟩
  all_goals first | rfl | (cases st <;> rfl)

/-- A frame published on both topics, the static message first. -/
def staticFirst : List (Op Int) :=
  [.ready, .arrive true (onePacket ['a'] 10), .arrive false ⟨[tmsg ['w'] ['a'] 20 2], ['q']⟩] ++ stepsAt 12 50

/-- The same messages, the other one first. -/
def dynamicFirst : List (Op Int) :=
  [.ready, .arrive false ⟨[tmsg ['w'] ['a'] 20 2], ['q']⟩, .arrive true (onePacket ['a'] 10)] ++ stepsAt 12 50

/-- C91, finding. Consistency is needed: two nodes to which the same two messages arrived, one on each topic, for one
frame, disagree for good - it depends on which topic was connected first. -/
theorem C91_conflict_finding :
    (∀ st, arrived st (history 100 staticFirst).2 = arrived st (history 100 dynamicFirst).2) ∧
    CaughtUp 100 staticFirst ∧ CaughtUp 100 dynamicFirst ∧
    (history 100 staticFirst).1.lis.rb.buf.lookupTransform ['w'] ['a'] 50 = .ok (tmsg ['w'] ['a'] 50 2) ∧
    (history 100 dynamicFirst).1.lis.rb.buf.lookupTransform ['w'] ['a'] 50 = .throw .extrapolation := by
  refine ⟨fun st => ?_, ⟨fun st => ?_, ?_, not_escaped (by decide +kernel)⟩,
    ⟨fun st => ?_, ?_, not_escaped (by decide +kernel)⟩, by decide +kernel, by decide +kernel⟩
  all_goals first | rfl | (cases st <;> rfl)

/-- Two consistent transforms, one on each topic, handled in one order ... -/
def firstNode : List (Op Int) :=
  [.ready, .arrive true (onePacket ['a'] 10), .arrive false (onePacket ['b'] 20)] ++ stepsAt 12 50

/-- ... and in another one, with a repetition and another user of the buffer that asks for a transform. -/
def secondNode : List (Op Int) :=
  [.arrive false (onePacket ['b'] 20), .ready] ++ stepsAt 3 40 ++
  [.other .addCallback, .other (.addRequest 1 ['w'] ['a'] 10), .arrive false (onePacket ['b'] 20),
   .arrive true (onePacket ['a'] 10)] ++ stepsAt 12 50

theorem firstNode_inner : inner (history 100 firstNode).2 =
    [.received 50 [tmsg ['w'] ['a'] 10 1] ['p'] true, .did (.set (tmsg ['w'] ['a'] 10 1) ['p'] true),
     .received 50 [tmsg ['w'] ['b'] 20 1] ['p'] false, .did (.set (tmsg ['w'] ['b'] 20 1) ['p'] false)] := rfl

theorem secondNode_inner : inner (history 100 secondNode).2 =
    [.received 40 [tmsg ['w'] ['b'] 20 1] ['p'] false, .other .addCallback, .other (.addRequest 1 ['w'] ['a'] 10),
     .did (.set (tmsg ['w'] ['b'] 20 1) ['p'] false),
     .received 50 [tmsg ['w'] ['b'] 20 1] ['p'] false, .did (.set (tmsg ['w'] ['b'] 20 1) ['p'] false),
     .received 50 [tmsg ['w'] ['a'] 10 1] ['p'] true, .did (.set (tmsg ['w'] ['a'] 10 1) ['p'] true)] := rfl

theorem firstNode_deliveries : deliveries (history 100 firstNode).2 =
    [.set (tmsg ['w'] ['b'] 20 1) ['p'] false, .set (tmsg ['w'] ['a'] 10 1) ['p'] true] := rfl

theorem secondNode_deliveries : deliveries (history 100 secondNode).2 =
    [.set (tmsg ['w'] ['b'] 20 1) ['p'] false, .set (tmsg ['w'] ['b'] 20 1) ['p'] false,
     .set (tmsg ['w'] ['a'] 10 1) ['p'] true] := rfl

/-- The hypotheses of `C91_agree` are met, by nodes that handled the transforms in different orders. -/
example : Indistinguishable (history 100 firstNode).1.lis.rb.buf (history 100 secondNode).1.lis.rb.buf := by
  have h1 : CaughtUp 100 firstNode :=
    ⟨fun st => by cases st <;> decide +kernel, rfl, not_escaped (by decide +kernel)⟩
  have h2 : CaughtUp 100 secondNode :=
    ⟨fun st => by cases st <;> decide +kernel, rfl, not_escaped (by decide +kernel)⟩
  have c1 : Calm 100 firstNode := by
    refine ⟨?_, ?_, ?_⟩ <;> rw [firstNode_inner]
    · decide
    · intro m a s h; simp at h
    · intro h; simp at h
  have c2 : Calm 100 secondNode := by
    refine ⟨?_, ?_, ?_⟩ <;> rw [secondNode_inner]
    · decide
    · intro m a s h; simp at h
    · intro h; simp at h
  refine C91_agree h1 c1 h2 c2 ?_ ?_ ?_ ?_
  · rw [firstNode_deliveries]
    refine ⟨by decide, ?_, ?_⟩ <;> intro m a s h _ <;>
      simp only [List.mem_cons, Tf2.Op.set.injEq, List.not_mem_nil, or_false] at h <;>
      rcases h with h | h <;> obtain ⟨rfl, _, _⟩ := h <;> decide
  · rw [secondNode_deliveries]
    refine ⟨by decide, ?_, ?_⟩ <;> intro m a s h _ <;>
      simp only [List.mem_cons, Tf2.Op.set.injEq, List.not_mem_nil, or_false] at h <;>
      rcases h with h | h | h <;> obtain ⟨rfl, _, _⟩ := h <;> decide
  · rw [firstNode_deliveries]
    rintro m s m' s' ⟨⟨a, h⟩, -⟩ ⟨⟨a', h'⟩, -⟩
    simp only [List.mem_cons, Tf2.Op.set.injEq, List.not_mem_nil, or_false] at h h'
    rcases h with ⟨rfl, -, rfl⟩ | ⟨rfl, -, rfl⟩ <;> rcases h' with ⟨rfl, -, rfl⟩ | ⟨rfl, -, rfl⟩ <;> decide
  · intro m s
    rw [firstNode_deliveries, secondNode_deliveries]
    unfold Delivered
    simp

/-- Is this operation the arrival of a message? -/
def isArrival : Op X → Bool
  | .arrive _ _ => true
  | _ => false

/-- Arrivals are calls of `arrive`. -/
theorem arrived_le [Rigid X] (st : Bool) (l : List (Op X)) (s : St X) :
    (arrived st (St.run l s).2).length ≤ (l.filter isArrival).length := by
  induction l generalizing s with
  | nil => exact Nat.le_refl _
  | cons op r ih =>
    simp only [St.run]
    have := ih (s.step op).1
    rw [arrived_append, List.length_append]
    have ho := sout s op
    generalize s.step op = x at ho this ⊢
    cases ho with
    | nothing =>
      dsimp only at this ⊢
      simp only [arrived, List.length_nil, List.filter_cons]
      split
      · simp only [List.length_cons]; omega
      · omega
    | full => dsimp only at this ⊢; simp only [arrived, List.filter_cons, isArrival, if_true]; split <;> simp at * <;> omega
    | push => dsimp only at this ⊢; simp only [arrived, List.filter_cons, isArrival, if_true]; split <;> simp at * <;> omega
    | work => simp [St.after, arrived_did, isArrival] at *; exact this
    | call => simp [St.after, arrived_did, isArrival] at *; exact this
    | other => simp [arrived_did, isArrival] at *; exact this
    | _ => simpa [arrived, isArrival] using this

/-- The hypotheses of `C91_catches_up` are met. -/
example : CaughtUp 100 (quietOps ++ steps 1209) := by
  refine C91_catches_up 100 1 quietOps (steps 1209) ?_ (fun st p h => by cases steps_thread h)
    (by rw [threadSteps_steps]; decide) ?_ (not_escaped (by decide +kernel)) ?_
  · intro st p hp
    simp [quietOps] at hp
    rcases hp with ⟨-, rfl⟩ | ⟨-, rfl⟩ <;> exact Nat.le_refl 1
  · intro h
    rcases List.mem_append.1 h with h | h
    · simp [quietOps] at h
    · cases steps_thread h
  · intro st p hp
    have h1 := arrived_le st p (St.init 100)
    have h2 := (hp.sublist.filter isArrival).length_le
    have h3 : ((quietOps ++ steps 1209).filter isArrival).length = 2 := by decide +kernel
    unfold history
    omega

end Tf2.Spin
