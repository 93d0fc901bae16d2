import Verif.Proofs.ServerDue
import Verif.Proofs.ServerCheck
import Verif.Spec.Toy

/-!
# C40, C41: the buffer server and the buffer client
-/
namespace Tf2

variable {X : Type}

/-! ### C40 -/

/-- C40. In every program with a buffer server - any interleaving of goal callbacks, cancels, timer callbacks,
changes of the clock and of the buffer - each accepted goal is in exactly one place: in a callback that has
not returned, on the server's list, or resolved once. -/
theorem C40_conservation [Rigid X] (D : Duration) (now : Time) (ops : List (SOp X)) :
    let s := (Server.history D now ops).1
    let evs := (Server.history D now ops).2
    (s.inCallback ++ s.listed ++ resolved evs).Perm (List.range s.next) ∧
    ∀ id, id < s.next ↔ ∃ g, SEv.accepted id g ∈ evs := by
  intro s evs
  have h := SInv.history D now ops
  refine ⟨?_, h.known⟩
  rw [List.perm_iff_count]
  intro id
  have := h.acct id
  unfold Server.held at this
  simp only [List.count_append]
  exact this

/-- C40. No goal gets two terminal events. -/
theorem C40_once [Rigid X] (D : Duration) (now : Time) (ops : List (SOp X)) :
    (resolved (Server.history D now ops).2).Nodup := by
  have h := (C40_conservation D now ops).1
  have := (h.nodup_iff).2 List.nodup_range
  exact (List.nodup_append.1 this).2.1

/-- C40. A goal that succeeds was due: its transform was available or its deadline reached at some moment;
and its result is the lookup's outcome after that moment (for the five-argument lookup: the outcome of its two
lookups at two moments after it). -/
theorem C40_due [Rigid X] (D : Duration) (now : Time) (ops : List (SOp X)) (id : Nat) (r : Result X)
    (h : SEv.succeeded id r ∈ (Server.history D now ops).2) :
    ∃ g, SEv.accepted id g ∈ (Server.history D now ops).2 ∧ ∃ p q1 q2 text, p <+: q1 ∧ q1 <+: q2 ∧ q2 <+: ops ∧
      Due D now g id p ∧
      serverResult (g.lookupOver (Server.history D now q1).1.buf (Server.history D now q2).1.buf) text = some r :=
  (JInv.history D now ops).done id r h

/-- C40. The deadline of a goal on the list is its timeout added to what the clock showed when its callback began; there
is only one. -/
theorem C40_deadline [Rigid X] (D : Duration) (now : Time) (ops : List (SOp X)) :
    (∀ a ∈ (Server.history D now ops).1.active, SEv.accepted a.id a.goal ∈ (Server.history D now ops).2 ∧
      Deadline D now a.goal a.id a.endTime ops) ∧
    ∀ g id e e', Deadline D now g id e ops → Deadline D now g id e' ops → e = e' :=
  ⟨fun a ha => (JInv.history D now ops).active a ha, fun _ _ _ _ h h' => h.once h'⟩

/-- C40. On one state of the buffer the two lookups are the lookup the goal asks for. -/
theorem C40_lookup [Rigid X] (g : Goal) (b : Buf X) : g.lookupOver b b = g.lookup b := Goal.lookupOver_self g b

/-- C40. A complete run of the timer callback, whatever other threads do to the buffer and the clock meanwhile:
every goal that was on the list is resolved, or stays because at a moment during the run its transform was
not available and at a later moment its deadline had not passed. So a goal that is available throughout, or
whose deadline has passed, is resolved. -/
theorem C40_check [Rigid X] (D : Duration) (now : Time) (pre ops : List (SOp X)) (a : Active) :
    let s := (Server.history D now pre).1
    CompleteCheck s ops → a ∈ s.active →
    (∃ r, SEv.succeeded a.id r ∈ (Server.run ops s []).2) ∨
    (a ∈ (Server.run ops s []).1.active ∧ ∃ p p', p <+: p' ∧ p' <+: ops ∧
      a.goal.can (Server.run p s []).1.buf = .ok false ∧ ¬ a.endTime < (Server.run p' s []).1.now) := by
  intro s hc ha
  exact complete_check (history_reach D now pre) hc ha

/-- C40. A timer callback that is not interrupted resolves exactly the goals whose transform is available or
whose deadline has passed, in order, each with the outcome of its lookup, and keeps the others in order. -/
theorem C40_check_uninterrupted [Rigid X] (D : Duration) (now : Time) (pre : List (SOp X)) (text : String) :
    let s := (Server.history D now pre).1
    s.check = none → ∃ due : Active → Bool,
    (∀ a, due a = true ↔ a.goal.can s.buf = .ok true ∨ a.endTime < s.now) ∧
    s.checkWhole text = ({ s with active := s.active.filter (fun a => !due a) },
      (s.active.filter due).filterMap (fun a => (serverResult (a.goal.lookup s.buf) text).map (.succeeded a.id))) ∧
    ∀ a : Active, ∃ r, serverResult (a.goal.lookup s.buf) text = some r := by
  intro s hc
  have hr : Reachable D s.buf := history_reach D now pre
  refine ⟨fun a => a.due s.buf s.now, fun a => Active.due_iff .., ?_, fun a => ?_⟩
  · have hs : s.checkStart.1 = { s with check := some { pos := 0, phase := .fresh } } := by
      unfold Server.checkStart; rw [hc]
    unfold Server.checkWhole
    rw [hs]
    have := checkRest_whole (D := D) text s.active { s with check := some { pos := 0, phase := .fresh } } [] [] 0 hr rfl rfl
    rw [Nat.add_zero] at this
    rw [this]
    simp only [List.nil_append, ← hc]
    rfl
  · rw [← Goal.lookupOver_self]
    unfold Goal.lookupOver
    rcases Goal.look1_total hr a.goal with ⟨m1, h⟩ | ⟨r, h, hs⟩
    · rw [h]; exact serverResult_some _ text (Goal.look2_total hr a.goal m1)
    · rw [h]; exact serverResult_some r text hs

/-- C40. A goal callback that is not interrupted (and whose deadline is representable): if the transform is
available or the timeout is not positive, the goal succeeds at once with the lookup's outcome; else it goes on the
list with its deadline. -/
theorem C40_goal_uninterrupted [Rigid X] (D : Duration) (now : Time) (pre : List (SOp X)) (text : String) (g : Goal) (e : Time) :
    let s := (Server.history D now pre).1
    let run := Server.run (.goal g :: List.replicate 5 (.goalStep s.calls.length text)) s []
    s.check = none → timeAdd s.now g.timeout = some e →
    (g.can s.buf = .ok true ∨ g.timeout ≤ 0 → ∃ r, serverResult (g.lookup s.buf) text = some r ∧
      run = ({ s with next := s.next + 1 }, [.accepted s.next g, .succeeded s.next r])) ∧
    (g.can s.buf ≠ .ok true ∧ 0 < g.timeout → (e : Int) = s.now + g.timeout ∧
      run = ({ s with next := s.next + 1, active := s.active ++ [{ id := s.next, goal := g, endTime := e }] },
        [.accepted s.next g])) := by
  intro s run hc ht
  have hr : Reachable D s.buf := history_reach D now pre
  let n := s.calls.length
  let st : GPhase X → Server X := fun p => { s with next := s.next + 1, calls := s.calls ++ [{ id := s.next, goal := g, phase := p }] }
  have hget : ∀ p, (st p).calls[n]? = some { id := s.next, goal := g, phase := p } := by intro p; simp [st, n]
  have hset : ∀ p q, (st p).calls.set n { id := s.next, goal := g, phase := q } = (st q).calls := by
    intro p q; simp [st, n]
  have herase : ∀ p, (st p).calls.eraseIdx n = s.calls := by
    intro p; simp [st, n, List.eraseIdx_append_of_length_le]
  have h1 : (st .accepted).goalStep n text = (st (.ending e), []) := by
    unfold Server.goalStep; simp only [hget]
    have : timeAdd (st .accepted).now g.timeout = some e := ht
    rw [this]; simp only [hset]; rfl
  have he : ((e : Nat) : Int) = s.now + g.timeout := by
    unfold timeAdd at ht
    split at ht
    · injection ht with ht; omega
    · cases ht
  have look : ∃ r, serverResult (g.lookup s.buf) text = some r ∧ ∃ k, k ≤ 1 ∧ ∀ j evs,
      Server.run (List.replicate (1 + k + j) (.goalStep n text)) (st .look) evs =
        ({ s with next := s.next + 1 }, evs ++ [.succeeded s.next r]) := by
    have idle : ∀ j (evs : List (SEv X)), Server.run (List.replicate j (.goalStep n text)) { s with next := s.next + 1 } evs =
        ({ s with next := s.next + 1 }, evs) := by
      intro j
      induction j with
      | zero => intro evs; rfl
      | succ j ih =>
        intro evs
        have e1 : ({ s with next := s.next + 1 } : Server X).goalStep n text = ({ s with next := s.next + 1 }, []) := by
          unfold Server.goalStep
          have : ({ s with next := s.next + 1 } : Server X).calls[n]? = none := by simp [n]
          rw [this]
        rw [List.replicate_succ]
        show Server.run _ (({ s with next := s.next + 1 } : Server X).goalStep n text).1 (evs ++ (({ s with next := s.next + 1 } : Server X).goalStep n text).2) = _
        rw [e1]
        simp only [List.append_nil]
        exact ih evs
    rw [← Goal.lookupOver_self]
    unfold Goal.lookupOver
    rcases Goal.look1_total hr g with ⟨m1, h⟩ | ⟨r, h, hs⟩
    · rw [h]
      obtain ⟨m, hm⟩ := serverResult_some _ text (Goal.look2_total hr g m1)
      refine ⟨m, hm, 1, by omega, fun j evs => ?_⟩
      have e1 : (st .look).goalStep n text = (st (.look2 m1), []) := by
        unfold Server.goalStep; simp only [hget]
        have : g.look1 (st .look).buf = .inr m1 := h
        rw [this]; simp only [hset]; rfl
      have e2 : (st (.look2 m1)).goalStep n text = ({ s with next := s.next + 1 }, [.succeeded s.next m]) := by
        unfold Server.goalStep; simp only [hget, Server.goalDone]
        have : serverResult (g.look2 m1 (st (.look2 m1)).buf) text = some m := hm
        rw [this]; simp only [herase]; rfl
      rw [show 1 + 1 + j = j + 1 + 1 by omega, List.replicate_succ, List.replicate_succ]
      show Server.run _ (((st .look).goalStep n text).1.goalStep n text).1 (evs ++ ((st .look).goalStep n text).2 ++ (((st .look).goalStep n text).1.goalStep n text).2) = _
      rw [e1]; simp only [e2, List.append_nil]
      exact idle j _
    · rw [h]
      obtain ⟨m, hm⟩ := serverResult_some r text hs
      refine ⟨m, hm, 0, by omega, fun j evs => ?_⟩
      have e1 : (st .look).goalStep n text = ({ s with next := s.next + 1 }, [.succeeded s.next m]) := by
        unfold Server.goalStep; simp only [hget]
        have : g.look1 (st .look).buf = .inl r := h
        rw [this]; simp only [Server.goalDone, hm, herase]; rfl
      rw [show 1 + 0 + j = j + 1 by omega, List.replicate_succ]
      show Server.run _ ((st .look).goalStep n text).1 (evs ++ ((st .look).goalStep n text).2) = _
      rw [e1]
      exact idle j _
  have hrun : run = Server.run (List.replicate 4 (.goalStep n text)) (st (.ending e)) [.accepted s.next g] := by
    show Server.run (List.replicate 4 (.goalStep n text)) ((st .accepted).goalStep n text).1 ([.accepted s.next g] ++ ((st .accepted).goalStep n text).2) = _
    rw [h1]; rfl
  obtain ⟨v, hv⟩ := Goal.can_total hr g
  have late : v = false → (st (.ending e)).goalStep n text = (st (.late e), []) := by
    intro h; subst h
    unfold Server.goalStep; simp only [hget]
    have : g.can (st (.ending e)).buf = .ok false := hv
    rw [this]; simp only [hset]; rfl
  obtain ⟨r, hr1, k, hk, hl⟩ := look
  constructor
  · intro hcond
    refine ⟨r, hr1, ?_⟩
    rw [hrun]
    cases v with
    | true =>
      have e2 : (st (.ending e)).goalStep n text = (st .look, []) := by
        unfold Server.goalStep; simp only [hget]
        have : g.can (st (.ending e)).buf = .ok true := hv
        rw [this]; simp only [hset]; rfl
      show Server.run (List.replicate 3 (.goalStep n text)) ((st (.ending e)).goalStep n text).1 ([.accepted s.next g] ++ ((st (.ending e)).goalStep n text).2) = _
      rw [e2]
      have := hl (2 - k) ([.accepted s.next g] ++ [])
      rw [show 1 + k + (2 - k) = 3 by omega] at this
      exact this
    | false =>
      have hle : e ≤ s.now := by
        rcases hcond with h | h
        · rw [hv] at h; cases h
        · omega
      have e3 : (st (.late e)).goalStep n text = (st .look, []) := by
        unfold Server.goalStep; simp only [hget]
        have : e ≤ (st (.late e)).now := hle
        rw [if_pos this]; simp only [hset]; rfl
      show Server.run (List.replicate 2 (.goalStep n text)) (((st (.ending e)).goalStep n text).1.goalStep n text).1
        ([.accepted s.next g] ++ ((st (.ending e)).goalStep n text).2 ++ (((st (.ending e)).goalStep n text).1.goalStep n text).2) = _
      rw [late rfl]; simp only [e3]
      have := hl (1 - k) ([.accepted s.next g] ++ [] ++ [])
      rw [show 1 + k + (1 - k) = 2 by omega] at this
      exact this
  · rintro ⟨hcan, hpos⟩
    refine ⟨he, ?_⟩
    have hvf : v = false := by cases v with | false => rfl | true => exact absurd hv hcan
    have hle : ¬ e ≤ s.now := by omega
    have e3 : (st (.late e)).goalStep n text = (st (.push e), []) := by
      unfold Server.goalStep; simp only [hget]
      have : ¬ e ≤ (st (.late e)).now := hle
      rw [if_neg this]; simp only [hset]; rfl
    have e4 : (st (.push e)).goalStep n text =
        ({ s with next := s.next + 1, active := s.active ++ [{ id := s.next, goal := g, endTime := e }] }, []) := by
      unfold Server.goalStep; simp only [hget]
      have : (st (.push e)).check = none := hc
      simp only [this, herase]
      simp only [st, hc]
    have e5 : ({ s with next := s.next + 1, active := s.active ++ [{ id := s.next, goal := g, endTime := e }] } : Server X).goalStep n text =
        ({ s with next := s.next + 1, active := s.active ++ [{ id := s.next, goal := g, endTime := e }] }, []) := by
      unfold Server.goalStep
      have : ({ s with next := s.next + 1, active := s.active ++ [{ id := s.next, goal := g, endTime := e }] } : Server X).calls[n]? = none := by simp [n]
      rw [this]
    rw [hrun]
    simp only [List.replicate, Server.run, Server.step, late hvf, e3, e4, e5, List.append_nil]

/-- C40. `cancel`, when the timer callback is not running: a goal on the list is taken off and canceled, the
others stay; any other goal is left alone. -/
theorem C40_cancel [Rigid X] (D : Duration) (now : Time) (pre : List (SOp X)) (id : Nat) :
    let s := (Server.history D now pre).1
    s.check = none →
    (id ∈ s.listed → (s.step (.cancel id)).2 = [.canceled id] ∧
      (s.step (.cancel id)).1 = { s with active := s.active.filter (fun a => a.id ≠ id) }) ∧
    (id ∉ s.listed → s.step (.cancel id) = (s, [])) := by
  intro s hc
  have hnd : s.listed.Nodup := by
    have h := (C40_conservation D now pre).1
    have := (h.nodup_iff).2 List.nodup_range
    exact (List.nodup_append.1 (List.nodup_append.1 this).1).2.1
  simp only [Server.step, Server.cancel, hc]
  constructor
  · intro hm
    obtain ⟨a, ha, e⟩ := List.mem_map.1 hm
    cases hf : s.active.findIdx? (fun a => decide (a.id = id)) with
    | none =>
      have := List.findIdx?_eq_none_iff.1 hf a ha
      simp [e] at this
    | some i =>
      simp only
      refine ⟨trivial, ?_⟩
      obtain ⟨hi, hp, -⟩ := List.findIdx?_eq_some_iff_getElem.1 hf
      have hid : s.active[i].id = id := by simpa using hp
      have : s.active.eraseIdx i = s.active.filter (fun a => a.id ≠ id) := by
        have key : ∀ (l : List Active) (i : Nat) (hi : i < l.length), (l.map Active.id).Nodup → l[i].id = id →
            l.eraseIdx i = l.filter (fun a => a.id ≠ id) := by
          intro l
          induction l with
          | nil => intro i hi; simp at hi
          | cons x r ih =>
            intro i hi hn he
            rw [List.map_cons, List.nodup_cons] at hn
            cases i with
            | zero =>
              simp at he
              simp only [List.eraseIdx_zero, List.tail_cons, List.filter_cons, he, ne_eq, not_true, decide_false, Bool.false_eq_true, if_false]
              refine (List.filter_eq_self.2 fun y hy => ?_).symm
              have : y.id ≠ id := fun e => hn.1 (by rw [he, ← e]; exact List.mem_map.2 ⟨y, hy, rfl⟩)
              simpa using this
            | succ i =>
              simp only [List.getElem_cons_succ] at he
              have hx : x.id ≠ id := fun e => hn.1 (by rw [e, ← he]; exact List.mem_map.2 ⟨_, List.getElem_mem _, rfl⟩)
              rw [List.eraseIdx_cons_succ, List.filter_cons, ih i (by simpa using hi) hn.2 he]
              simp [hx]
        exact key s.active i hi hnd hid
      rw [this]
  · intro hm
    cases hf : s.active.findIdx? (fun a => decide (a.id = id)) with
    | none => rfl
    | some i =>
      obtain ⟨hi, hp, -⟩ := List.findIdx?_eq_some_iff_getElem.1 hf
      have hid : s.active[i].id = id := by simpa using hp
      exact absurd (List.mem_map.2 ⟨_, List.getElem_mem hi, hid⟩) hm

/-- C40. Exceptions leave a callback only from the addition of the timeout to the clock; there is no undefined
behaviour. -/
theorem C40_no_escape [Rigid X] (D : Duration) (now : Time) (ops : List (SOp X)) :
    SEv.undefined ∉ (Server.history D now ops).2 ∧ SEv.checkEscaped ∉ (Server.history D now ops).2 ∧
    ∀ id, SEv.escaped id ∈ (Server.history D now ops).2 → ∃ g p, SEv.accepted id g ∈ (Server.history D now ops).2 ∧
      FirstStep D now g id p ops ∧ timeAdd (Server.history D now p).1.now g.timeout = none :=
  ⟨(JInv.history D now ops).clean.1, (JInv.history D now ops).clean.2, (JInv.history D now ops).out⟩

/-- Goals: `w` from `a` (available), `w` from `b` (not yet), and an advanced one. -/
def srvOps : List (SOp Int) :=
  [.buffer (put ['w'] ['a'] 10 1), .buffer (put ['w'] ['a'] 20 3), .goal (simpleGoal ['w'] ['a'] 15 5),
   .goalStep 0 "", .goal (simpleGoal ['w'] ['b'] 15 5), .goalStep 0 "", .goalStep 0 "",
   .goalStep 0 "", .goalStep 0 "", .goalStep 0 "", .goalStep 0 "",
   .goal (advancedGoal ['a'] 10 ['a'] 20 ['w'] 50), .goalStep 0 "", .goalStep 0 "", .goalStep 0 "", .goalStep 0 "",
   .goal (simpleGoal ['w'] ['c'] 15 500), .goalStep 0 "", .goalStep 0 "", .goalStep 0 "", .goalStep 0 ""]

example : let s := (Server.history 100 1000 srvOps).1
    (Server.history 100 1000 srvOps).2 =
      [.accepted 0 (simpleGoal ['w'] ['a'] 15 5), .accepted 1 (simpleGoal ['w'] ['b'] 15 5),
       .succeeded 0 ⟨some (tmsg ['w'] ['a'] 15 2), 0, ""⟩, .accepted 2 (advancedGoal ['a'] 10 ['a'] 20 ['w'] 50),
       .succeeded 2 ⟨some (tmsg ['a'] ['a'] 10 2), 0, ""⟩, .accepted 3 (simpleGoal ['w'] ['c'] 15 500)] ∧
    s.listed = [1, 3] ∧ s.active.map (·.endTime) = [1005, 1500] ∧ s.check = none ∧
    (s.step (.cancel 1)).2 = [.canceled 1] ∧
    ({ s with now := 1005 }.checkWhole "no b").2 = [] ∧
    ({ s with now := 1006 }.checkWhole "no b").2 = [.succeeded 1 ⟨none, 1, "no b"⟩] := by decide +kernel

/-- A complete check during which the transform of the second goal arrives. -/
def srvCheck : List (SOp Int) :=
  [.checkStart, .checkStep "", .checkStep "", .buffer (put ['w'] ['c'] 15 7), .checkStep "", .checkStep "", .checkStep ""]

example : let s := (Server.history 100 1000 srvOps).1
    CompleteCheck s srvCheck ∧ (Server.run srvCheck s []).1.listed = [1] ∧
    (Server.run srvCheck s []).2 = [.succeeded 3 ⟨some (tmsg ['w'] ['c'] 15 7), 0, ""⟩] := by
  intro s
  refine ⟨⟨by decide +kernel, _, rfl, ?_, by decide +kernel⟩, by decide +kernel, by decide +kernel⟩
  intro p q h hq
  have hp : p = srvCheck.tail.take p.length := by
    show p = List.take p.length _
    rw [show srvCheck.tail = p ++ q from h]; simp
  have hl : p.length < 6 := by
    have : srvCheck.tail.length = 6 := rfl
    rw [show srvCheck.tail = p ++ q from h, List.length_append] at this
    have : q.length ≠ 0 := by simpa using hq
    omega
  have key : ∀ k, k < 6 → ((Server.run (.checkStart :: srvCheck.tail.take k) s []).1.check.isSome) = true := by
    decide +kernel
  have := key p.length hl
  rw [← hp] at this
  intro hn
  rw [hn] at this
  cases this

/-- C40 finding: a cancel that arrives while the goal callback has accepted the goal but not yet put it on the
list is lost: the goal is pursued and succeeds later. -/
theorem C40_cancel_lost_finding : ∃ ops : List (SOp Int),
    SOp.cancel 0 ∈ ops ∧ SEv.accepted 0 (simpleGoal ['w'] ['a'] 15 5) ∈ (Server.history 100 1000 (ops.take 3)).2 ∧
    ops[3]? = some (.cancel 0) ∧ resolved (Server.history 100 1000 ops).2 = [0] ∧
    SEv.succeeded 0 ⟨none, 1, "unknown"⟩ ∈ (Server.history 100 1000 ops).2 :=
  ⟨[.goal (simpleGoal ['w'] ['a'] 15 5), .goalStep 0 "", .goalStep 0 "", .cancel 0, .goalStep 0 "", .goalStep 0 "",
    .clock 2000, .checkStart, .checkStep "", .checkStep "", .checkStep "unknown", .checkStep ""],
   by simp, by decide +kernel, rfl, by decide +kernel, by decide +kernel⟩

/-- C40 finding: if the deadline is not representable (a negative timeout beyond the clock's value, e.g. any
negative timeout at simulated time 0, or a huge one), `goalCB` throws after accepting the goal, which then
gets neither result nor cancel. -/
theorem C40_overflow_finding [Rigid X] (D : Duration) (now : Time) (g : Goal) (text : String) (h : timeAdd now g.timeout = none) :
    Server.history (X := X) D now [.goal g, .goalStep 0 text] =
      ({ Server.init D now with next := 1 }, [.accepted 0 g, .escaped 0]) := by
  simp [Server.history, Server.run, Server.step, Server.goal, Server.goalStep, Server.init, h]

example : timeAdd 0 (simpleGoal ['w'] ['a'] 15 (-1)).timeout = none := by decide

/-! ### C41 -/

/-- C41. What the client sees of a result: the server's outcome. A tf2 exception comes back with the same class
and text, a transform comes back as it was. -/
theorem C41_round_trip (r : Res (Msg X)) (text : String) :
    (∀ m, r = .ok m → ∃ res, serverResult r text = some res ∧ processGoal (.succeeded res) = .ret (some m) ∧
      clientCan (.succeeded res) = some true) ∧
    (∀ e, r = .throw e → e ≠ .runtime → ∃ res, serverResult r text = some res ∧
      processGoal (.succeeded res) = .raise e text ∧ clientCan (.succeeded res) = some false) ∧
    (r = .throw .runtime → serverResult r text = none) := by
  refine ⟨?_, ?_, ?_⟩
  · rintro m rfl; exact ⟨_, rfl, rfl, rfl⟩
  · rintro e rfl h
    cases e <;> first | exact ⟨_, rfl, rfl, rfl⟩ | exact absurd rfl h
  · rintro rfl; rfl

/-- C41. If no result arrives in time or the goal did not succeed, the client throws `TimeoutException`. -/
theorem C41_no_result (a : ActionOut X) (h : ∀ r, a ≠ .succeeded r) :
    (∃ text, processGoal a = .raise .timeout text) ∧ clientCan a = some false := by
  cases a with
  | noResult => exact ⟨⟨_, rfl⟩, rfl⟩
  | notSucceeded => exact ⟨⟨_, rfl⟩, rfl⟩
  | succeeded r => exact absurd rfl (h r)

/-- C41, end to end: whenever a goal succeeded, the client gets the outcome of a lookup on the server's buffer -
for the three-argument lookup, of one state of it; for the five-argument one, of two successive states. -/
theorem C41_end_to_end [Rigid X] (D : Duration) (now : Time) (ops : List (SOp X)) (id : Nat) (res : Result X)
    (h : SEv.succeeded id res ∈ (Server.history D now ops).2) :
    ∃ g, SEv.accepted id g ∈ (Server.history D now ops).2 ∧ ∃ q1 q2 text, q1 <+: q2 ∧ q2 <+: ops ∧
      (match g.lookupOver (Server.history D now q1).1.buf (Server.history D now q2).1.buf with
       | .ok m => processGoal (.succeeded res) = .ret (some m)
       | .throw e => processGoal (.succeeded res) = .raise e text
       | .ub => False) ∧
      (g.advanced = false → g.lookupOver (Server.history D now q1).1.buf (Server.history D now q2).1.buf =
        (Server.history D now q1).1.buf.lookupTransform g.target g.source g.stime) := by
  obtain ⟨g, hg, p, q1, q2, text, h1, h2, h3, -, h4⟩ := C40_due D now ops id res h
  refine ⟨g, hg, q1, q2, text, h2, h3, ?_, ?_⟩
  · generalize g.lookupOver (Server.history D now q1).1.buf (Server.history D now q2).1.buf = r at h4
    cases r with
    | ub => cases h4
    | ok m =>
      obtain ⟨r', e1, e2, -⟩ := (C41_round_trip (.ok m) text).1 m rfl
      rw [h4] at e1; injection e1 with e1; subst e1; exact e2
    | throw e =>
      by_cases hr : e = .runtime
      · subst hr; cases h4
      · obtain ⟨r', e1, e2, -⟩ := (C41_round_trip (X := X) (.throw e) text).2.1 e rfl hr
        rw [h4] at e1; injection e1 with e1; subst e1; exact e2
  · intro ha
    unfold Goal.lookupOver Goal.look1
    rw [ha]; rfl

/-- C41. The goals a client sends ask for what its caller asked for: the two availability checks and lookups the server
makes for them are those of the client's arguments (for the five-argument lookup, when no other call comes between
its two halves), and the deadline is the caller's timeout. -/
theorem C41_goals [Rigid X] (target source fixed : Name) (time ttime stime : Time) (timeout : Duration) (b b' : Buf X) :
    (simpleGoal target source time timeout).can b = b.canTransform target source time ∧
    (simpleGoal target source time timeout).lookupOver b b' = b.lookupTransform target source time ∧
    (simpleGoal target source time timeout).timeout = timeout ∧
    (advancedGoal target ttime source stime fixed timeout).can b = b.canTransform5 target ttime source stime fixed ∧
    (advancedGoal target ttime source stime fixed timeout).lookupOver b b =
      b.lookupTransform5 target ttime source stime fixed ∧
    (advancedGoal target ttime source stime fixed timeout).timeout = timeout := by
  refine ⟨rfl, rfl, rfl, rfl, ?_, rfl⟩
  unfold Goal.lookupOver Goal.look1 Goal.look2 advancedGoal Buf.lookupTransform5
  dsimp only
  rw [if_pos rfl]
  cases b.validateFrameId target with
  | ub => rfl
  | throw e => rfl
  | ok i =>
    dsimp only
    cases b.validateFrameId source with
    | ub => rfl
    | throw e => rfl
    | ok j =>
      dsimp only
      cases b.validateFrameId fixed with
      | ub => rfl
      | throw e => rfl
      | ok k =>
        dsimp only
        cases b.lookupTransform fixed source stime with
        | ub => rfl
        | throw e => rfl
        | ok m =>
          dsimp only
          cases b.lookupTransform target fixed ttime <;> rfl

example : serverResult (exBuf.lookupTransform ['z'] ['w'] 15) "t" = some ⟨none, 2, "t"⟩ ∧
    processGoal (.succeeded (⟨none, 2, "t"⟩ : Result Int)) = .raise .connectivity "t" ∧
    serverResult (exBuf.lookupTransform ['w'] ['a'] 15) "" = some ⟨some (tmsg ['w'] ['a'] 15 2), 0, ""⟩ := by decide +kernel

end Tf2
