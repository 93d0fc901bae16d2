import Verif.Proofs.BufferProgram

/-!
# C97: the program `buffer_server`
-/
namespace Tf2.BufProg

variable {X : Type}

/-! ### The parts -/

/-- C97. The program is made of a listener and of a server that do what they do alone (so C90-C96 hold of the one, C40
and C41 of the other); they share the buffer and the clock. -/
theorem C97_parts [Rigid X] (D : Duration) (now : Time) (ops : List (POp X)) :
    (∃ q, Server.history D now q = ((history D now ops).1.server, serving (history D now ops).2)) ∧
    (history D now ops).1.server.buf = (history D now ops).1.listener.lis.rb.buf ∧
    ((history D now ops).1.dead = false →
      (history D now ops).1.listener = (Spin.history D (heard now ops)).1 ∧
      hearing (history D now ops).2 = (Spin.history D (heard now ops)).2 ∧
      (history D now ops).1.server.now = clockOf now ops) := by
  obtain ⟨q, h⟩ := sim D now [] ops
  exact ⟨⟨q, h.history⟩, buf_shared D now ops, listener_eq D now ops⟩

/-- C97. At most one callback runs in the main thread, and it ends: a goal's callback within five of its own steps, the
timer's within four steps for each goal on the list and four more, whatever the listener does meanwhile. -/
theorem C97_turn [Rigid X] (D : Duration) (now : Time) (l r : List (POp X)) (op : POp X)
    (h : (history D now (l ++ op :: r)).1.dead = false) (hf : (history D now l).1.free = true)
    (hop : (∃ g, op = .goal g) ∧ 5 ≤ spinCount r ∨
      op = .timer ∧ 4 * (history D now l).1.server.active.length + 4 ≤ spinCount r) :
    ∃ r', r' <+: r ∧ (history D now (l ++ op :: r')).1.server.calls = [] ∧ (history D now (l ++ op :: r')).1.server.check = none := by
  have hd : (history D now l).1.dead = false := alive_before h
  have hi := ((free_iff _).1 hf).1
  rw [show l ++ op :: r = l ++ [op] ++ r by simp] at h
  have hn : left (history D now (l ++ [op])).1.server ≤ spinCount r := by
    rw [history_snoc]
    dsimp only
    unfold Process.step
    rw [if_neg (by rw [hd]; exact fun e => by cases e)]
    rcases hop with ⟨⟨g, rfl⟩, hr⟩ | ⟨rfl, hr⟩
    · dsimp only
      rw [if_pos hf]
      have : left ((history D now l).1.serve (.goal g)).1.server = 5 := by
        simp only [Process.serve, Server.step, Server.goal, left]
        rw [hi.2, hi.1]
        rfl
      omega
    · dsimp only
      rw [if_pos hf]
      have : left ((history D now l).1.serve .checkStart).1.server = 4 * (history D now l).1.server.active.length + 4 := by
        simp only [Process.serve, Server.step, Server.checkStart, left]
        rw [hi.2]
        rfl
      omega
  obtain ⟨r', h1, h2, -⟩ := ends D now (l ++ [op]) r h hn
  refine ⟨r', h1, ?_⟩
  rw [show l ++ op :: r' = l ++ [op] ++ r' by simp]
  exact h2

/-! ### Cancel -/

/-- C97. When the main thread is free, a cancel request for a goal that was accepted and has no result, cancels it. (In a
program that runs the callbacks in several threads it can get lost: `C40_cancel_lost_finding`.) -/
theorem C97_cancel [Rigid X] (D : Duration) (now : Time) (l : List (POp X)) (id : Nat) (g : Goal)
    (hd : (history D now l).1.dead = false) (hf : (history D now l).1.free = true)
    (ha : PEv.served (.accepted id g) ∈ (history D now l).2) (hr : id ∉ resolved (serving (history D now l).2)) :
    PEv.served (.canceled id) ∈ (history D now (l ++ [.cancel id])).2 := by
  have hi := ((free_iff _).1 hf).1
  obtain ⟨q, hq⟩ := sim D now [] l
  have hq := hq.history
  have hcons := C40_conservation D now q
  rw [hq] at hcons
  obtain ⟨hperm, hknown⟩ := hcons
  have hin : id ∈ (history D now l).1.server.inCallback ++ (history D now l).1.server.listed ++ resolved (serving (history D now l).2) :=
    hperm.mem_iff.2 (List.mem_range.2 ((hknown id).2 ⟨g, mem_serving.2 ha⟩))
  have hl : id ∈ (history D now l).1.server.listed := by
    rcases List.mem_append.1 hin with h | h
    · rcases List.mem_append.1 h with h | h
      · unfold Server.inCallback at h; rw [hi.1] at h; cases h
      · exact h
    · exact absurd h hr
  have hc := (C40_cancel D now q id (by rw [hq]; exact hi.2)).1 (by rw [hq]; exact hl)
  rw [hq] at hc
  rw [history_snoc]
  dsimp only
  refine List.mem_append_right _ ?_
  unfold Process.step
  rw [if_neg (by rw [hd]; exact fun e => by cases e)]
  dsimp only
  rw [if_pos hf]
  simp only [Process.serve]
  rw [hc.1]
  exact List.mem_singleton.2 rfl

/-! ### Death -/

theorem dead_why [Rigid X] (D : Duration) (now : Time) (ops : List (POp X)) (h : (history D now ops).1.dead = true) :
    (history D now ops).1.listener.phase = .crashed ∨ ∃ e ∈ serving (history D now ops).2, fatal e = true := by
  induction ops using Spin.snoc_cases with
  | h0 => cases h
  | h1 l a ih =>
    rw [history_snoc] at h ⊢
    dsimp only at h ⊢
    rw [serving_append]
    have ho := pout (history D now l).1 a
    generalize hs : (history D now l).1 = s at ih ho h ⊢
    generalize s.step a = r at ho h ⊢
    have lift : ∀ sop, (s.serve sop).1.dead = true → ∃ e ∈ serving (history D now l).2 ++ serving (s.serve sop).2, fatal e = true := by
      intro sop h
      obtain ⟨e, he, hf⟩ := List.any_eq_true.1 h
      exact ⟨e, List.mem_append_right _ (by simpa [Process.serve] using he), hf⟩
    cases ho with
    | dead hd =>
      rcases ih hd with h | ⟨e, he, hf⟩
      · exact .inl h
      · exact .inr ⟨e, List.mem_append_left _ he, hf⟩
    | busy =>
      rcases ih h with h | ⟨e, he, hf⟩
      · exact .inl h
      · exact .inr ⟨e, List.mem_append_left _ he, hf⟩
    | listen => exact .inl (of_decide_eq_true h)
    | clock => exact .inr (lift _ h)
    | goal => exact .inr (lift _ h)
    | cancel => exact .inr (lift _ h)
    | timer => exact .inr (lift _ h)
    | check => exact .inr (lift _ h)
    | call => exact .inr (lift _ h)

/-- While the process is alive no exception has left a callback of the server. -/
theorem alive_escaped [Rigid X] {D : Duration} {now : Time} {ops : List (POp X)} (h : (history D now ops).1.dead = false) {e : SEv X}
    (hf : fatal e = true) : PEv.served e ∉ (history D now ops).2 := by
  induction ops using Spin.snoc_cases with
  | h0 => exact List.not_mem_nil
  | h1 l a ih =>
    have hl := alive_before h
    rw [history_snoc] at h ⊢
    dsimp only at h ⊢
    rw [List.mem_append]
    rintro (hm | hm)
    · exact ih hl hm
    have ho := pout (history D now l).1 a
    generalize (history D now l).1 = s at ho h hm
    generalize s.step a = r at ho h hm
    have no : ∀ sop, (s.serve sop).1.dead = false → PEv.served e ∈ (s.serve sop).2 → False := by
      intro sop h1 h2
      have h2 : PEv.served e ∈ (s.server.step sop).2.map PEv.served := h2
      obtain ⟨e', h3, h4⟩ := List.mem_map.1 h2
      injection h4 with h4; subst h4
      have h1 : (s.server.step sop).2.any fatal = false := h1
      have := List.any_eq_false.1 h1 _ h3
      exact this hf
    cases ho with
    | dead => cases hm
    | busy => cases hm
    | listen =>
      have hm : PEv.served e ∈ (s.listener.step _).2.map PEv.heard := hm
      obtain ⟨e', -, h4⟩ := List.mem_map.1 hm
      cases h4
    | clock => exact no _ h hm
    | goal => exact no _ h hm
    | cancel => exact no _ h hm
    | timer => exact no _ h hm
    | check => exact no _ h hm
    | call => exact no _ h hm

/-- C97. The process ends only because an exception left the listener's callback, or because of a goal whose deadline is not
a time. -/
theorem C97_dead [Rigid X] (D : Duration) (now : Time) (ops : List (POp X)) (h : (history D now ops).1.dead = true) :
    (history D now ops).1.listener.phase = .crashed ∨
    ∃ id g p, GoalStarts D now id g p ops ∧ timeAdd (clockOf now p) g.timeout = none := by
  rcases dead_why D now ops h with h | ⟨e, he, hf⟩
  · exact .inl h
  · right
    obtain ⟨q, hs⟩ := sim D now [] ops
    obtain ⟨n1, n2, n3⟩ := C40_no_escape D now q
    rw [hs.history] at n1 n2 n3
    cases e with
    | escaped id =>
      obtain ⟨g, p, h1, h2, h3⟩ := n3 id he
      obtain ⟨l0, i1, i2, i3⟩ := goal_starts hs h2
      rw [← i3, (listener_eq D now l0 i2).2.2] at h3
      exact ⟨id, g, l0, i1, h3⟩
    | checkEscaped => exact absurd he n2
    | undefined => exact absurd he n1
    | accepted => cases hf
    | succeeded => cases hf
    | canceled => cases hf

/-- C97. So it stays alive if no exception leaves the listener's callback and the deadline of every goal is a time. -/
theorem C97_alive [Rigid X] (D : Duration) (now : Time) (ops : List (POp X))
    (hl : LEv.escaped ∉ Spin.inner (Spin.history D (heard now ops)).2)
    (hg : ∀ id g p, GoalStarts D now id g p ops → timeAdd (clockOf now p) g.timeout ≠ none) :
    (history D now ops).1.dead = false := by
  induction ops using Spin.snoc_cases with
  | h0 => rfl
  | h1 l a ih =>
    have hll : LEv.escaped ∉ Spin.inner (Spin.history D (heard now l)).2 := by
      intro h
      refine hl ?_
      rw [heard_append, Spin.history_append, Spin.inner_append]
      exact List.mem_append_left _ h
    have hd := ih hll fun id g p hp => hg id g p (hp.mono (List.prefix_append _ _))
    cases hx : (history D now (l ++ [a])).1.dead with
    | false => rfl
    | true =>
      exfalso
      rcases C97_dead D now _ hx with h | ⟨id, g, p, h1, h2⟩
      · rw [(listener_eq_snoc D now l a hd).1] at h
        exact hl ((Spin.inv_history D _).crashed.1 h)
      · exact hg id g p h1 h2

/-! ### Answers -/

theorem checkStep_calls [Rigid X] (s : Server X) (text : String) : (s.checkStep text).1.calls = s.calls := by
  have hg : ∀ c a r, (s.checkDone c a r text).1.calls = s.calls := by
    intro c a r; unfold Server.checkDone; split <;> rfl
  unfold Server.checkStep
  repeat' split
  all_goals first | rfl | exact hg _ _ _

/-- While the timer's callback runs no other begins. -/
theorem check_alone [Rigid X] {s : Process X} (hl : Lone s.server) (hk : s.server.check ≠ none) (op : POp X) :
    (s.step op).1.server.calls = [] := by
  have hc := hl.2 hk
  have nf : s.free = true → False := fun h => hk ((free_iff s).1 h).1.2
  have ho := pout s op
  generalize s.step op = r at ho ⊢
  cases ho with
  | dead => exact hc
  | busy => exact hc
  | listen => exact hc
  | clock => exact hc
  | goal _ hf => exact (nf hf).elim
  | cancel _ hf => exact (nf hf).elim
  | timer _ hf => exact (nf hf).elim
  | check => exact (checkStep_calls _ _).trans hc
  | call _ hf => exact absurd hf hk

section
variable [Rigid X] {D : Duration} {now : Time}

/-- If the goal is available in two states of the buffer, its lookup over them gives a transform. -/
theorem lookupOver_ok {g : Goal} {b1 b2 : Buf X} (h1 : Reachable D b1) (h2 : Reachable D b2) (c1 : g.can b1 = .ok true)
    (c2 : g.can b2 = .ok true) : ∃ m, g.lookupOver b1 b2 = .ok m := by
  unfold Goal.can at c1 c2
  cases ha : g.advanced with
  | false =>
    rw [ha] at c1
    simp only [Bool.false_eq_true, if_false] at c1
    obtain ⟨v, hv, hiff⟩ := C13_canTransform_iff h1 g.target g.source g.stime
    rw [c1] at hv; injection hv with hv
    obtain ⟨m, hm⟩ := hiff.1 hv.symm
    refine ⟨m, ?_⟩
    unfold Goal.lookupOver Goal.look1
    rw [ha]
    simp only [Bool.false_eq_true, if_false]
    exact hm
  | true =>
    rw [ha] at c1 c2
    simp only [if_true] at c1 c2
    have two : ∀ b : Buf X, Reachable D b → b.canTransform5 g.target g.ttime g.source g.stime g.fixed = .ok true →
        ∃ m, b.lookupTransform5 g.target g.ttime g.source g.stime g.fixed = .ok m := by
      intro b hb hc
      obtain ⟨v, hv, hiff⟩ := C14_canTransform_fixed_iff hb g.target g.ttime g.source g.stime g.fixed
      rw [hc] at hv; injection hv with hv
      exact hiff.1 hv.symm
    obtain ⟨⟨l1, l2, l3⟩, ⟨⟨i1, f1⟩, ⟨i2, f2⟩, ⟨i3, f3⟩⟩, ⟨m1, k1⟩, -⟩ := (C14_halves _ _ _ _ _ _).1 (two b1 h1 c1)
    obtain ⟨-, -, -, ⟨m2, k2⟩⟩ := (C14_halves _ _ _ _ _ _).1 (two b2 h2 c2)
    have val : ∀ {nm : Name} {j : Nat}, LegalName nm → IsFrame b1 nm j → ∃ r, b1.validateFrameId nm = .ok r := by
      intro nm j hl hf
      rcases validate_cases b1 nm with ⟨_, r, _, e⟩ | ⟨hn, _⟩ | ⟨_, hn, _⟩
      · exact ⟨_, e⟩
      · exact absurd hl hn
      · rw [Buf.lookupFrameNumber, hf.2] at hn
        exact absurd hn hf.1
    obtain ⟨r1, e1⟩ := val l1 f1
    obtain ⟨r2, e2⟩ := val l2 f2
    obtain ⟨r3, e3⟩ := val l3 f3
    refine ⟨{ parent := g.target, child := g.source, stamp := m2.stamp, xf := Rigid.mulMsg m2.xf m1.xf }, ?_⟩
    unfold Goal.lookupOver
    have hl1 : g.look1 b1 = .inr m1 := by
      unfold Goal.look1
      rw [ha]
      simp only [if_true]
      rw [e1, e2, e3]
      simp only
      rw [k1]
    rw [hl1]
    simp only [Goal.look2]
    rw [k2]

/-- C97. The goals that were pending when the timer's callback began are answered when it has ended, if for each of its
steps the transform is available, or for each of its steps the deadline has passed. -/
theorem C97_timer {l r : List (POp X)} {id : Nat} {g : Goal} (h : (history D now (l ++ .timer :: r)).1.dead = false)
    (hf : (history D now l).1.free = true) (hn : 4 * (history D now l).1.server.active.length + 4 ≤ spinCount r)
    (ha : PEv.served (.accepted id g) ∈ (history D now l).2)
    (hx : (∀ r', r' <+: .timer :: r → g.can (history D now (l ++ r')).1.server.buf = .ok true) ∨
      ∀ e, GoalDeadline D now id g e l → ∀ r', r' <+: .timer :: r → e < clockOf now (l ++ r')) :
    id ∈ resolved (serving (history D now (l ++ .timer :: r)).2) := by
  have hd : (history D now l).1.dead = false := alive_before h
  obtain ⟨hidle, -⟩ := (free_iff _).1 hf
  -- what was resolved stays resolved
  have grow : ∀ r', r' <+: .timer :: r → id ∈ resolved (serving (history D now (l ++ r')).2) →
      id ∈ resolved (serving (history D now (l ++ .timer :: r)).2) := by
    rintro r' ⟨z, hz⟩ hm
    rw [← hz, ← List.append_assoc, history_append, serving_append, resolved_append]
    exact List.mem_append_left _ hm
  -- the goal is resolved or listed
  obtain ⟨q0, hq0⟩ := sim D now [] l
  have hh := hq0.history
  have hcons := C40_conservation D now q0
  rw [hh] at hcons
  obtain ⟨hperm, hknown⟩ := hcons
  have hin : id ∈ (history D now l).1.server.inCallback ++ (history D now l).1.server.listed ++ resolved (serving (history D now l).2) :=
    hperm.mem_iff.2 (List.mem_range.2 ((hknown id).2 ⟨g, mem_serving.2 ha⟩))
  rcases List.mem_append.1 hin with hin | hin
  case inr => exact grow [] (List.nil_prefix) (by rw [List.append_nil]; exact hin)
  rcases List.mem_append.1 hin with hin | hin
  · unfold Server.inCallback at hin; rw [hidle.1] at hin; cases hin
  unfold Server.listed at hin
  obtain ⟨a, haa, rfl⟩ := List.mem_map.1 hin
  have hJ := JInv.history D now q0
  rw [hh] at hJ
  obtain ⟨hacc, hdl⟩ := hJ.active a haa
  have hg : a.goal = g := (sinv D now l).once _ _ _ hacc (mem_serving.2 ha)
  have hdl := goal_deadline hq0 hdl
  rw [hg] at hdl
  -- the timer's callback
  have hstep : (history D now (l ++ [.timer])).1 = ((history D now l).1.serve .checkStart).1 := by
    rw [history_snoc]
    dsimp only
    unfold Process.step
    rw [if_neg (by rw [hd]; exact fun e => by cases e)]
    dsimp only
    rw [if_pos hf]
  have hserver : (history D now (l ++ [.timer])).1.server = (history D now l).1.server.checkStart.1 := by rw [hstep]; rfl
  have hcs : (history D now l).1.server.checkStart =
      ({ (history D now l).1.server with check := some { pos := 0, phase := .fresh } }, []) := by
    unfold Server.checkStart; rw [hidle.2]
  have hleft : left (history D now (l ++ [.timer])).1.server = 4 * (history D now l).1.server.active.length + 4 := by
    rw [hserver, hcs]; rfl
  have h' := h
  rw [show l ++ .timer :: r = l ++ [.timer] ++ r by simp] at h'
  obtain ⟨r', hr', hend, hfirst⟩ := ends D now (l ++ [.timer]) r h' (by omega)
  obtain ⟨rest, hrest⟩ := sim D now (l ++ [.timer]) r'
  have hrun : ∀ p, Server.run (.checkStart :: p) (history D now l).1.server [] =
      Server.run p (history D now (l ++ [.timer])).1.server [] := by
    intro p
    rw [hserver]
    simp only [Server.run, Server.step, List.nil_append]
    rw [hcs]
  have hist : ∀ z, (Process.run z (history D now (l ++ [.timer])).1).1 = (history D now (l ++ .timer :: z)).1 := by
    intro z
    have e := history_append D now (l ++ [POp.timer]) z
    rw [List.append_assoc] at e
    exact (congrArg Prod.fst e).symm
  -- the steps of the callback
  have hpre : ∀ p, p <+: .checkStart :: rest → ∃ z, z <+: .timer :: r ∧
      (Server.run p (history D now l).1.server []).1 = (history D now (l ++ z)).1.server := by
    intro p hp
    cases p with
    | nil => exact ⟨[], List.nil_prefix, by rw [List.append_nil]; rfl⟩
    | cons x p =>
      obtain ⟨rfl, hp2⟩ := List.cons_prefix_cons.1 hp
      obtain ⟨z, hz1, hz2, -⟩ := hrest.prefix hp2
      refine ⟨.timer :: z, List.cons_prefix_cons.2 ⟨rfl, hz1.trans hr'⟩, ?_⟩
      rw [hrun, hz2.run, hist]
  have inside : ∀ z, z <+: r' → z ≠ r' → (history D now (l ++ [.timer] ++ z)).1.server.check ≠ none := by
    intro z
    induction z using Spin.snoc_cases with
    | h0 => intro _ _; rw [List.append_nil, hserver, hcs]; exact fun e => by cases e
    | h1 z y ih =>
      intro hz hne hk
      refine hfirst _ hz hne ⟨?_, hk⟩
      have hzl : z <+: r' := (List.prefix_append z [y]).trans hz
      have hne' : z ≠ r' := by
        rintro rfl
        have := hz.length_le
        simp at this
        omega
      rw [← List.append_assoc, history_snoc]
      exact check_alone (lone D now _) (ih hzl hne') y
  have hcomplete : CompleteCheck (history D now l).1.server (.checkStart :: rest) := by
    refine ⟨hidle.2, rest, rfl, ?_, ?_⟩
    · intro p q e hq
      rw [hrun]
      have hp : p <+: rest := ⟨q, e.symm⟩
      obtain ⟨z, hz1, hz2, hz3⟩ := hrest.prefix hp
      rw [hz2.run]
      have := inside z hz1 (hz3 (by
        intro e2
        have := congrArg List.length e
        rw [e2, List.length_append] at this
        exact hq (List.length_eq_zero_iff.1 (by omega))))
      rw [history_append] at this
      exact this
    · rw [hrun, hrest.run]
      have := hend.2
      rw [history_append] at this
      exact this
  rcases complete_check (reachable D now l) hcomplete haa with ⟨res, hres⟩ | ⟨-, p, p', hpp, hp', hno, hlate⟩
  · refine grow (.timer :: r') (List.cons_prefix_cons.2 ⟨rfl, hr'⟩) ?_
    rw [show l ++ .timer :: r' = l ++ [.timer] ++ r' by simp, history_append, serving_append, resolved_append]
    refine List.mem_append_right _ ?_
    rw [hrun, hrest.run] at hres
    exact List.mem_filterMap.2 ⟨_, hres, rfl⟩
  · exfalso
    rw [hg] at hno
    obtain ⟨z, hz1, hz2⟩ := hpre p (hpp.trans hp')
    obtain ⟨z', hz1', hz2'⟩ := hpre p' hp'
    rcases hx with hx | hx
    · rw [hz2, hx z hz1] at hno; cases hno
    · rw [hz2'] at hlate
      have hal : (history D now (l ++ z')).1.dead = false := by
        obtain ⟨y, hy⟩ := hz1'
        rw [← hy, ← List.append_assoc] at h
        exact alive_before h
      rw [(listener_eq D now (l ++ z') hal).2.2] at hlate
      exact hlate (hx a.endTime hdl z' hz1')

/-! ### Goals whose transforms arrive in time -/

omit [Rigid X] in
theorem threadCount_heard (now : Time) (ops : List (POp X)) : Spin.threadSteps (heard now ops) = threadCount ops := by
  induction ops generalizing now with
  | nil => rfl
  | cons op r ih =>
    unfold threadCount at ih ⊢
    rw [List.countP_cons]
    cases op <;> simp [heard, Spin.threadSteps, ih]

omit [Rigid X] in
theorem heard_arrive {now : Time} {ops : List (POp X)} {st : Bool} {p : Spin.Packet X} (h : Spin.Op.arrive st p ∈ heard now ops) :
    POp.arrive st p ∈ ops := by
  induction ops generalizing now with
  | nil => cases h
  | cons op r ih =>
    cases op with
    | arrive st' p' =>
      simp only [heard, List.mem_cons, Spin.Op.arrive.injEq] at h
      rcases h with ⟨rfl, rfl⟩ | h
      · exact List.mem_cons_self
      · exact List.mem_cons_of_mem _ (ih h)
    | thread =>
      simp only [heard, List.mem_cons] at h
      rcases h with h | h
      · cases h
      · exact List.mem_cons_of_mem _ (ih h)
    | ready =>
      simp only [heard, List.mem_cons] at h
      rcases h with h | h
      · cases h
      · exact List.mem_cons_of_mem _ (ih h)
    | _ => exact List.mem_cons_of_mem _ (ih h)

omit [Rigid X] in
theorem heard_take (now : Time) {p ops : List (POp X)} (h : p <+: ops) : (heard now ops).take (heard now p).length = heard now p := by
  obtain ⟨z, rfl⟩ := h
  rw [heard_append]; exact List.take_left

variable {ops : List (POp X)} {I K L : Nat} {par : Name → Option Name} {depth : Name → Nat} {g : Goal}

/-- The server as a caller that looks at the buffer. -/
def view (D : Duration) (now : Time) (ops : List (POp X)) (n : Nat) : World X :=
  { buf := (history D now (ops.take n)).1.server.buf, now := 0, up := true }

theorem sees (hd : (history D now ops).1.dead = false) :
    Spin.Sees D (heard now ops) (fun n => (heard now (ops.take n)).length) (view D now ops) := by
  refine ⟨fun n => ?_, fun n => ?_, fun _ => rfl, fun n => ⟨3000000000, by show timeAdd 0 threeSeconds = _; decide, Nat.zero_le _⟩⟩
  · have hal : (history D now (ops.take n)).1.dead = false := by
      have := hd
      rw [← List.take_append_drop n ops] at this
      exact alive_before this
    show (history D now (ops.take n)).1.server.buf = _
    rw [buf_shared, (listener_eq D now _ hal).1, heard_take now (List.take_prefix n ops)]
  · show (heard now (ops.take n)).length ≤ (heard now (ops.take (n + 1))).length
    have : ops.take n <+: ops.take (n + 1) := List.take_prefix_take_left (Nat.le_succ n)
    obtain ⟨z, hz⟩ := this
    rw [← hz, heard_append, List.length_append]
    exact Nat.le_add_right _ _

theorem view_prefix {p : List (POp X)} (hp : p <+: ops) : (view D now ops p.length).buf = (history D now p).1.server.buf := by
  show (history D now (ops.take p.length)).1.server.buf = _
  rw [← List.prefix_iff_eq_take.1 hp]

/-- From step `K` on the goal is available. -/
theorem available (hg : GoalInTime D (heard now ops) (heard now (ops.take I)).length par depth g) (hz : InterpZero X) (hIK : I ≤ K)
    (hL : ∀ st p, POp.arrive st p ∈ ops → p.msgs.length ≤ L) (hn : 402 * (L + 2) + 3 ≤ threadCount ((ops.take K).drop I))
    (hd : (history D now ops).1.dead = false) {p : List (POp X)} (hp : p <+: ops) (hK : K ≤ p.length) :
    g.can (history D now p).1.server.buf = .ok true := by
  have hs := sees (now := now) hd
  have hik := hs.mono hIK
  have hL' : ∀ st p, Spin.Op.arrive st p ∈ heard now ops → p.msgs.length ≤ L := fun st p h => hL st p (heard_arrive h)
  have hn' : 402 * (L + 2) + 3 ≤ Spin.threadSteps (((heard now ops).take (heard now (ops.take K)).length).drop (heard now (ops.take I)).length) := by
    have e1 : (heard now ops).take (heard now (ops.take K)).length = heard now (ops.take K) := heard_take now (List.take_prefix K ops)
    have e2 : ops.take K = ops.take I ++ (ops.take K).drop I := by
      have := List.take_append_drop I (ops.take K)
      rw [List.take_take, Nat.min_eq_left hIK] at this
      exact this.symm
    have e3 : heard now (ops.take K) = heard now (ops.take I) ++ heard (clockOf now (ops.take I)) ((ops.take K).drop I) := by
      rw [← heard_append, ← e2]
    rw [e1, e3, List.drop_left, threadCount_heard]
    exact hn
  have hfk := hs.mono hK
  rw [← view_prefix hp]
  unfold GoalInTime at hg
  unfold Goal.can
  cases ha : g.advanced with
  | false =>
    rw [ha] at hg
    simp only [Bool.false_eq_true, if_false] at hg ⊢
    exact hg.after hz hik hL' hn' hs hfk
  | true =>
    rw [ha] at hg
    simp only [if_true] at hg ⊢
    exact (Spin.can5_iff hg.1 hg.2 hz hs _).2 ⟨hg.1.after hz hik hL' hn' hs hfk, hg.2.after hz hik hL' hn' hs hfk⟩

/-- Once it is available it stays. -/
theorem stays {i : Nat} (hg : GoalInTime D (heard now ops) i par depth g) (hz : InterpZero X)
    (hd : (history D now ops).1.dead = false) {p p' : List (POp X)} (hpp : p <+: p') (hp : p' <+: ops)
    (hc : g.can (history D now p).1.server.buf = .ok true) : g.can (history D now p').1.server.buf = .ok true := by
  have hs := sees (now := now) hd
  have hle := hpp.length_le
  rw [← view_prefix (hpp.trans hp)] at hc
  rw [← view_prefix hp]
  unfold GoalInTime at hg
  unfold Goal.can at hc ⊢
  cases ha : g.advanced with
  | false =>
    rw [ha] at hg hc
    simp only [Bool.false_eq_true, if_false] at hg hc ⊢
    exact hg.stay hz hs hle hc
  | true =>
    rw [ha] at hg hc
    simp only [if_true] at hg hc ⊢
    obtain ⟨c1, c2⟩ := (Spin.can5_iff hg.1 hg.2 hz hs _).1 hc
    exact (Spin.can5_iff hg.1 hg.2 hz hs _).2 ⟨hg.1.stay hz hs hle c1, hg.2.stay hz hs hle c2⟩

/-- C97. If what a goal needs arrives in time (in the first `I` steps, after which the listener's thread makes
`402 (L + 2) + 3` steps by step `K`) and the clock does not reach its deadline before step `K`, then its result, if it gets one,
is the transform: that of one state of the buffer, or of two for the two halves of a goal with two times. The client returns
it. -/
theorem C97_result (hg : GoalInTime D (heard now ops) (heard now (ops.take I)).length par depth g) (hz : InterpZero X) (hIK : I ≤ K)
    (hL : ∀ st p, POp.arrive st p ∈ ops → p.msgs.length ≤ L) (hn : 402 * (L + 2) + 3 ≤ threadCount ((ops.take K).drop I))
    (hd : (history D now ops).1.dead = false) {id : Nat}
    (ha : PEv.served (.accepted id g) ∈ (history D now ops).2)
    (hlate : ∀ p e, p <+: ops → GoalDeadline D now id g e p → e ≤ clockOf now p → K ≤ p.length)
    {res : Result X} (hr : PEv.served (.succeeded id res) ∈ (history D now ops).2) :
    ∃ q1 q2 m, q1 <+: q2 ∧ q2 <+: ops ∧
      g.lookupOver (history D now q1).1.server.buf (history D now q2).1.server.buf = .ok m ∧
      res = { transform := some m, error := NO_ERROR, text := "" } ∧ processGoal (.succeeded res) = .ret (some m) := by
  obtain ⟨q, hs⟩ := sim D now [] ops
  have hh := hs.history
  have hr' : SEv.succeeded id res ∈ (Server.history D now q).2 := by rw [hh]; exact mem_serving.2 hr
  obtain ⟨g', hacc, p, q1, q2, text, h1, h2, h3, hdue, hres⟩ := C40_due D now q id res hr'
  rw [hh] at hacc
  obtain rfl : g' = g := (sinv D now ops).once _ _ _ hacc (mem_serving.2 ha)
  obtain ⟨l2, i2, s2, -⟩ := hs.prefix h3
  obtain ⟨l1, i1, s1, -⟩ := s2.prefix h2
  obtain ⟨l0, i0, s0, -⟩ := s1.prefix h1
  have alive : ∀ {z : List (POp X)}, z <+: ops → (history D now z).1.dead = false := by
    rintro z ⟨y, rfl⟩; exact alive_before hd
  have can0 : g'.can (history D now l0).1.server.buf = .ok true := by
    rcases hdue with h | ⟨e, hp1, hp2⟩
    · rw [s0.history] at h; exact h
    · rw [s0.history] at hp2
      dsimp only at hp2
      rw [(listener_eq D now l0 (alive (i0.trans (i1.trans i2)))).2.2] at hp2
      exact available hg hz hIK hL hn hd (i0.trans (i1.trans i2)) (hlate l0 e (i0.trans (i1.trans i2)) (goal_deadline s0 hp1) hp2)
  have can1 := stays hg hz hd i0 (i1.trans i2) can0
  have can2 := stays hg hz hd i1 i2 can1
  obtain ⟨m, hm⟩ := lookupOver_ok (reachable D now l1) (reachable D now l2) can1 can2
  rw [s1.history, s2.history] at hres
  dsimp only at hres
  rw [hm] at hres
  injection hres with hres
  exact ⟨l1, l2, m, i1, i2, hm, hres.symm, by rw [← hres]; rfl⟩

/-- C97. And it gets one: when the timer's callback has run once after step `K` the goal has the transform, or was canceled. -/
theorem C97_answered (hg : GoalInTime D (heard now ops) (heard now (ops.take I)).length par depth g) (hz : InterpZero X) (hIK : I ≤ K)
    (hL : ∀ st p, POp.arrive st p ∈ ops → p.msgs.length ≤ L) (hn : 402 * (L + 2) + 3 ≤ threadCount ((ops.take K).drop I))
    (hd : (history D now ops).1.dead = false) {id : Nat} {l r : List (POp X)} (he : ops = l ++ .timer :: r) (hKl : K ≤ l.length)
    (ha : PEv.served (.accepted id g) ∈ (history D now l).2)
    (hf : (history D now l).1.free = true) (hsp : 4 * (history D now l).1.server.active.length + 4 ≤ spinCount r)
    (hlate : ∀ p e, p <+: ops → GoalDeadline D now id g e p → e ≤ clockOf now p → K ≤ p.length) :
    PEv.served (.canceled id) ∈ (history D now ops).2 ∨
    ∃ q1 q2 m, q1 <+: q2 ∧ q2 <+: ops ∧
      g.lookupOver (history D now q1).1.server.buf (history D now q2).1.server.buf = .ok m ∧
      PEv.served (.succeeded id { transform := some m, error := NO_ERROR, text := "" }) ∈ (history D now ops).2 := by
  have hres : id ∈ resolved (serving (history D now ops).2) := by
    subst he
    refine C97_timer hd hf hsp ha (.inl fun r' hr' => ?_)
    have hp : l ++ r' <+: l ++ .timer :: r := (List.prefix_append_right_inj l).2 hr'
    exact available hg hz hIK hL hn hd hp (by rw [List.length_append]; omega)
  have ha' : PEv.served (.accepted id g) ∈ (history D now ops).2 := by
    rw [he, history_append]; exact List.mem_append_left _ ha
  obtain ⟨e, h1, h2⟩ := List.mem_filterMap.1 hres
  cases e with
  | succeeded id' res =>
    injection h2 with h2; subst h2
    have hm := mem_serving.1 h1
    obtain ⟨q1, q2, m, h3, h4, h5, h6, -⟩ := C97_result hg hz hIK hL hn hd ha' hlate hm
    exact .inr ⟨q1, q2, m, h3, h4, h5, h6 ▸ hm⟩
  | canceled id' =>
    injection h2 with h2; subst h2
    exact .inl (mem_serving.1 h1)
  | escaped id' =>
    exfalso
    have := mem_serving.1 h1
    exact alive_escaped hd rfl this
  | _ => cases h2

end

/-! ### Finding and examples -/

/-- C97, finding. One client can end the process for all: a goal whose deadline cannot be represented is accepted, the sum
throws, nothing catches it; afterwards nothing happens any more, whatever goals are pending. -/
theorem C97_killed_finding [Rigid X] (D : Duration) (now : Time) (l : List (POp X)) (g : Goal) (text : String)
    (hd : (history D now l).1.dead = false) (hf : (history D now l).1.free = true)
    (ht : timeAdd (clockOf now l) g.timeout = none) :
    (history D now (l ++ [.goal g, .spin text])).1.dead = true ∧
    ∀ more, history D now (l ++ [.goal g, .spin text] ++ more) = history D now (l ++ [.goal g, .spin text]) := by
  have hi := ((free_iff _).1 hf).1
  have hnow := (listener_eq D now l hd).2.2
  have dead : (history D now (l ++ [.goal g, .spin text])).1.dead = true := by
    rw [show l ++ [.goal g, .spin text] = l ++ [.goal g] ++ [.spin text] by simp, history_snoc, history_snoc]
    generalize (history D now l).1 = s at hd hf hi hnow
    dsimp only
    have h1 : s.step (.goal g) = s.serve (.goal g) := by
      unfold Process.step
      rw [if_neg (by rw [hd]; exact fun e => by cases e)]
      dsimp only
      rw [if_pos hf]
    have h2 : (s.serve (.goal g)).1 =
        { s with server := { s.server with next := s.server.next + 1, calls := [{ id := s.server.next, goal := g, phase := .accepted }] }
                 dead := false } := by
      simp [Process.serve, Server.step, Server.goal, hi.1, fatal]
    rw [h1, h2]
    unfold Process.step
    simp only [Bool.false_eq_true, if_false, hi.2, Option.isSome_none, Process.serve, Server.step, Server.goalStep,
      List.getElem?_cons_zero, hnow, ht]
    rfl
  refine ⟨dead, fun more => ?_⟩
  rw [history_append]
  generalize history D now (l ++ [.goal g, .spin text]) = s at dead
  obtain ⟨s, evs⟩ := s
  have : ∀ more : List (POp X), Process.run more s = (s, []) := by
    intro more
    induction more with
    | nil => rfl
    | cons op r ih =>
      have h : s.step op = (s, []) := by unfold Process.step; rw [if_pos dead]
      simp only [Process.run, h, ih, List.nil_append]
  rw [this more, List.append_nil]

/-- Steps of the listener's thread. -/
def threads (n : Nat) : List (POp Int) := List.replicate n .thread

/-- Steps of the main thread. -/
def spins (n : Nat) : List (POp Int) := List.replicate n (.spin "")

/-- The goal of the examples. -/
def exGoal : Goal := simpleGoal ['w'] ['a'] 15 2000

/-- A goal is accepted before anything arrives; then all it needs arrives. -/
def exArrive : List (POp Int) :=
  [.ready, .goal exGoal] ++ spins 5 ++ [.arrive false ⟨[tmsg ['b'] ['a'] 10 1], ['p']⟩] ++ threads 5 ++
  [.arrive true ⟨[tmsg ['w'] ['b'] 20 1], ['q']⟩, .arrive false ⟨[tmsg ['b'] ['a'] 20 2], ['p']⟩]

/-- For the listener this is `Spin.inTimeOps`. -/
def exBefore : List (POp Int) := exArrive ++ threads 1210

/-- The timer, and more data. -/
def exAfter : List (POp Int) := spins 8 ++ [.arrive false ⟨[tmsg ['b'] ['a'] 30 3], ['p']⟩]

theorem heard_threads (now : Time) (n : Nat) : heard now (threads n) = List.replicate n (.thread now) := by
  induction n with
  | zero => rfl
  | succ n ih => unfold threads at ih ⊢; rw [List.replicate_succ, heard, ih, List.replicate_succ]

/-- While only the listener's thread runs, nothing changes for the server but the buffer. -/
theorem threads_quiet (D : Duration) (now : Time) (l : List (POp Int)) (n : Nat) :
    (history D now (l ++ threads n)).1.server = { (history D now l).1.server with buf := (history D now (l ++ threads n)).1.server.buf } ∧
    (history D now (l ++ threads n)).1.listener.owner = (history D now l).1.listener.owner ∧
    serving (history D now (l ++ threads n)).2 = serving (history D now l).2 := by
  induction n with
  | zero => simp [threads]
  | succ n ih =>
    have e : l ++ threads (n + 1) = l ++ threads n ++ [.thread] := by
      unfold threads; rw [List.replicate_succ', List.append_assoc]
    rw [e, history_snoc]
    dsimp only
    obtain ⟨i1, i2, i3⟩ := ih
    rw [serving_append, i3]
    generalize (history D now (l ++ threads n)).1 = s at i1 i2 ⊢
    unfold Process.step
    split
    · simp only [serving_nil, List.append_nil]; exact ⟨i1, i2, trivial⟩
    · simp only [Process.listen, serving_heard, List.append_nil]
      rw [thread_owner]
      exact ⟨by rw [i1], i2, trivial⟩

theorem exHeard : heard 50 (exBefore ++ .timer :: exAfter) = Spin.inTimeOps := by
  unfold exBefore exAfter
  rw [heard_append, heard_append, heard_threads]
  rfl

theorem exClock {p : List (POp Int)} (hp : p <+: exBefore ++ .timer :: exAfter) : clockOf 50 p = 50 := by
  have hno : ∀ op ∈ exBefore ++ .timer :: exAfter, ∀ t, op ≠ POp.clock t := by
    intro op h t e
    subst e
    simp only [exBefore, exArrive, exAfter, threads, spins, List.mem_append, List.mem_cons, List.mem_replicate, List.not_mem_nil, or_false,
      reduceCtorEq, and_false] at h
  have hno' : ∀ op ∈ p, ∀ t, op ≠ POp.clock t := fun op h => hno op (hp.subset h)
  clear hno hp
  induction p with
  | nil => rfl
  | cons op r ih =>
    have := ih fun op h => hno' op (List.mem_cons_of_mem _ h)
    cases op with
    | clock t => exact absurd rfl (hno' _ List.mem_cons_self t)
    | _ => exact this

theorem exAlive : (history 100 50 (exBefore ++ .timer :: exAfter)).1.dead = false := by
  refine C97_alive _ _ _ (by rw [exHeard]; exact Spin.inTime_working.fine) fun id g p hp => ?_
  obtain ⟨a, b, text, rfl, hp, -⟩ := hp
  have hp : a ++ .goal g :: b <+: exBefore ++ .timer :: exAfter := (List.prefix_append _ _).trans hp
  have hg : POp.goal g ∈ exBefore ++ .timer :: exAfter := hp.subset (List.mem_append_right _ List.mem_cons_self)
  have : g = exGoal := by
    simpa only [exBefore, exArrive, exAfter, threads, spins, List.mem_append, List.mem_cons, List.mem_replicate, List.not_mem_nil, or_false,
      false_or, reduceCtorEq, and_false, POp.goal.injEq] using hg
  rw [exClock hp, this]
  decide

/-- The hypotheses of `C97_answered` are met. -/
example : PEv.served (.canceled 0) ∈ (history 100 50 (exBefore ++ .timer :: exAfter)).2 ∨
    ∃ q1 q2 m, q1 <+: q2 ∧ q2 <+: exBefore ++ .timer :: exAfter ∧
      exGoal.lookupOver (history 100 50 q1).1.server.buf (history 100 50 q2).1.server.buf = .ok m ∧
      PEv.served (.succeeded 0 { transform := some m, error := NO_ERROR, text := "" }) ∈
        (history 100 50 (exBefore ++ .timer :: exAfter)).2 := by
  refine C97_answered (I := 15) (K := 1225) (L := 1) (par := Spin.inTimePar) (depth := Spin.inTimeDepth) ?_ interpZero_int (by decide)
    ?_ ?_ ?_ rfl ?_ ?_ ?_ ?_ ?_
  · rw [exHeard]
    exact Spin.inTime
  · intro st p h
    simp only [exBefore, exArrive, exAfter, threads, spins, List.mem_append, List.mem_cons, List.mem_replicate, List.not_mem_nil, or_false,
      reduceCtorEq, and_false, false_or, POp.arrive.injEq] at h
    rcases h with (⟨-, rfl⟩ | ⟨-, rfl⟩ | ⟨-, rfl⟩) | ⟨-, rfl⟩ <;> exact Nat.le_refl 1
  · decide +kernel
  · exact exAlive
  · unfold exBefore threads
    rw [List.length_append, List.length_replicate]
    decide
  · have : SEv.accepted 0 exGoal ∈ serving (history 100 50 exArrive).2 := by decide +kernel
    rw [← (threads_quiet 100 50 exArrive 1210).2.2] at this
    exact mem_serving.1 this
  · have h : (history 100 50 exArrive).1.free = true := by decide +kernel
    obtain ⟨e1, e2, -⟩ := threads_quiet 100 50 exArrive 1210
    unfold Process.free at h ⊢
    unfold exBefore
    rw [e1, e2]; exact h
  · have h : (history 100 50 exArrive).1.server.active.length = 1 := by decide +kernel
    unfold exBefore
    rw [(threads_quiet 100 50 exArrive 1210).1]
    show 4 * (history 100 50 exArrive).1.server.active.length + 4 ≤ _
    rw [h]; decide
  · intro p e h2 ⟨p0, ⟨a, b, text, _, h1, _⟩, ht⟩ hle
    rw [exClock (((List.prefix_append _ _).trans h1).trans h2)] at ht
    rw [exClock h2] at hle
    have : e = 2050 := by
      have h : timeAdd 50 exGoal.timeout = some 2050 := by decide
      rw [h] at ht; injection ht with ht; exact ht.symm
    omega

/-- The hypotheses of `C97_turn` are met, for a goal and for the timer with a goal that waits. -/
example : (history 100 50 ([.ready] ++ .goal exGoal :: spins 5)).1.dead = false ∧ (history 100 50 [(.ready : POp Int)]).1.free = true ∧
    5 ≤ spinCount (spins 5) := by decide +kernel
example : let l : List (POp Int) := [.ready, .goal exGoal] ++ spins 5
    (history 100 50 (l ++ .timer :: spins 8)).1.dead = false ∧ (history 100 50 l).1.free = true ∧
    (history 100 50 l).1.server.active.length = 1 ∧ 8 ≤ spinCount (spins 8) := by decide +kernel

/-- The hypotheses of `C97_timer` are met by a deadline that has passed. -/
example : let l : List (POp Int) := [.ready, .goal exGoal] ++ spins 5 ++ [.clock 3000]
    0 ∈ resolved (serving (history 100 50 (l ++ .timer :: spins 8)).2) := by
  intro l
  refine C97_timer (g := exGoal) (by decide +kernel) (by decide +kernel) (by decide +kernel) ?_ (.inr fun e he r' hr' => ?_)
  · have : SEv.accepted 0 exGoal ∈ serving (history 100 50 l).2 := by decide +kernel
    exact mem_serving.1 this
  · have hc : clockOf 50 (l ++ r') = 3000 := by
      rw [List.prefix_iff_eq_take.1 hr']
      generalize r'.length = n
      have : ∀ n, n ≤ 9 → clockOf 50 (l ++ (POp.timer :: spins 8).take n) = 3000 := by decide
      rcases Nat.le_total n 9 with h | h
      · exact this n h
      · rw [List.take_of_length_le (show (POp.timer :: spins 8).length ≤ n from h)]; exact this 9 (Nat.le_refl _)
    have : e = 2050 := by
      obtain ⟨p0, ⟨a, b, text, _, h1, _⟩, ht⟩ := he
      have hlen : p0.length ≤ 7 := by
        have h : (p0 ++ [POp.spin text]).length ≤ 8 := h1.length_le
        rw [List.length_append] at h
        exact Nat.le_of_succ_le_succ h
      rw [List.prefix_iff_eq_take.1 ((List.prefix_append _ _).trans h1)] at ht
      have h50 : ∀ n, n ≤ 7 → clockOf 50 (l.take n) = 50 := by decide
      rw [h50 _ hlen] at ht
      have h : timeAdd 50 exGoal.timeout = some 2050 := by decide
      rw [h] at ht; injection ht with ht; exact ht.symm
    rw [hc, this]; decide

/-- The hypotheses of `C97_killed_finding` are met: simulated time 0, a negative timeout, and a goal that waits. -/
example : let l : List (POp Int) := [.ready, .goal exGoal] ++ spins 4
    (history 100 0 l).1.dead = false ∧ (history 100 0 l).1.free = true ∧ timeAdd (clockOf 0 l) (-1) = none ∧
    (history 100 0 l).1.server.listed = [0] := by decide +kernel

/-- The hypotheses of `C97_cancel` are met. -/
example : let l : List (POp Int) := [.ready, .goal exGoal] ++ spins 4
    (history 100 50 l).1.dead = false ∧ (history 100 50 l).1.free = true ∧
    SEv.accepted 0 exGoal ∈ serving (history 100 50 l).2 ∧ resolved (serving (history 100 50 l).2) = [] := by decide +kernel

end Tf2.BufProg
