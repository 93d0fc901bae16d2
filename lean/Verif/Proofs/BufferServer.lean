import Verif.Spec.BufferServer
import Verif.Proofs.MessageFilter
import Verif.Props.Lookup

/-!
# Buffer server: lemmas
-/
namespace Tf2

variable {X : Type}

theorem codeExc_ne (c : Code) : Buf.codeExc c ≠ .runtime := by cases c <;> simp [Buf.codeExc]

theorem lookup_outcome [Rigid X] {D : Duration} {b : Buf X} (hw : WF D b) (t s : Name) (tm : Time) :
    (∃ m, b.lookupTransform t s tm = .ok m) ∨ ∃ e, b.lookupTransform t s tm = .throw e ∧ e ≠ .runtime := by
  unfold Buf.lookupTransform
  split
  · exact .inl ⟨_, rfl⟩
  · rcases validate_cases b t with ⟨l1, i1, h1, e1⟩ | ⟨_, e1⟩ | ⟨_, _, e1⟩
    · rw [e1]
      rcases validate_cases b s with ⟨l2, i2, h2, e2⟩ | ⟨_, e2⟩ | ⟨_, _, e2⟩
      · rw [e2]
        simp only
        have := walk_ne_ub hw (t := tm) (tgt := i1) (src := i2) h2.1
        cases hk : b.walk transformAccum TAcc.init tm i1 i2 with
        | ub => exact absurd hk this
        | err c => exact .inr ⟨_, rfl, codeExc_ne c⟩
        | done a l => exact .inl ⟨_, rfl⟩
      · rw [e2]; exact .inr ⟨_, rfl, by simp⟩
      · rw [e2]; exact .inr ⟨_, rfl, by simp⟩
    · rw [e1]; exact .inr ⟨_, rfl, by simp⟩
    · rw [e1]; exact .inr ⟨_, rfl, by simp⟩

theorem serverResult_some (r : Res (Msg X)) (text : String) (h : (∃ m, r = .ok m) ∨ ∃ e, r = .throw e ∧ e ≠ .runtime) :
    ∃ m, serverResult r text = some m := by
  rcases h with ⟨m, rfl⟩ | ⟨e, rfl, h⟩
  · exact ⟨_, rfl⟩
  · cases e <;> first | exact ⟨_, rfl⟩ | exact absurd rfl h

theorem Goal.can_total [Rigid X] {D : Duration} {b : Buf X} (hr : Reachable D b) (g : Goal) : ∃ v, g.can b = .ok v := by
  unfold Goal.can
  split
  · obtain ⟨v, h, -⟩ := C14_canTransform_fixed_iff hr g.target g.ttime g.source g.stime g.fixed; exact ⟨v, h⟩
  · obtain ⟨v, h, -⟩ := C13_canTransform_iff hr g.target g.source g.stime; exact ⟨v, h⟩

theorem Goal.can_iff [Rigid X] {D : Duration} {b : Buf X} (hr : Reachable D b) (g : Goal) :
    g.can b = .ok true ↔ ∃ m, g.lookup b = .ok m := by
  unfold Goal.can Goal.lookup
  split
  · obtain ⟨v, h, h'⟩ := C14_canTransform_fixed_iff hr g.target g.ttime g.source g.stime g.fixed
    rw [h, ← h']; simp
  · obtain ⟨v, h, h'⟩ := C13_canTransform_iff hr g.target g.source g.stime
    rw [h, ← h']; simp

/-- The shape of the first half of a lookup. -/
theorem Goal.look1_total [Rigid X] {D : Duration} {b : Buf X} (hr : Reachable D b) (g : Goal) :
    (∃ m1, g.look1 b = .inr m1) ∨ ∃ r, g.look1 b = .inl r ∧ ((∃ m, r = .ok m) ∨ ∃ e, r = .throw e ∧ e ≠ .runtime) := by
  have hw := hr.wf
  unfold Goal.look1
  split
  · rcases validate_cases b g.target with ⟨l1, i1, h1, e1⟩ | ⟨_, e1⟩ | ⟨_, _, e1⟩
    · rw [e1]
      rcases validate_cases b g.source with ⟨l2, i2, h2, e2⟩ | ⟨_, e2⟩ | ⟨_, _, e2⟩
      · rw [e2]
        rcases validate_cases b g.fixed with ⟨l3, i3, h3, e3⟩ | ⟨_, e3⟩ | ⟨_, _, e3⟩
        · rw [e3]
          rcases lookup_outcome hw g.fixed g.source g.stime with ⟨m, e⟩ | ⟨e, h, hn⟩
          · rw [e]; exact .inl ⟨_, rfl⟩
          · rw [h]; exact .inr ⟨_, rfl, .inr ⟨_, rfl, hn⟩⟩
        · rw [e3]; exact .inr ⟨_, rfl, .inr ⟨_, rfl, by simp⟩⟩
        · rw [e3]; exact .inr ⟨_, rfl, .inr ⟨_, rfl, by simp⟩⟩
      · rw [e2]; exact .inr ⟨_, rfl, .inr ⟨_, rfl, by simp⟩⟩
      · rw [e2]; exact .inr ⟨_, rfl, .inr ⟨_, rfl, by simp⟩⟩
    · rw [e1]; exact .inr ⟨_, rfl, .inr ⟨_, rfl, by simp⟩⟩
    · rw [e1]; exact .inr ⟨_, rfl, .inr ⟨_, rfl, by simp⟩⟩
  · exact .inr ⟨_, rfl, lookup_outcome hw ..⟩

theorem Goal.look2_total [Rigid X] {D : Duration} {b : Buf X} (hr : Reachable D b) (g : Goal) (m1 : Msg X) :
    (∃ m, g.look2 m1 b = .ok m) ∨ ∃ e, g.look2 m1 b = .throw e ∧ e ≠ .runtime := by
  unfold Goal.look2
  rcases lookup_outcome hr.wf g.target g.fixed g.ttime with ⟨m, e⟩ | ⟨e, h, hn⟩
  · rw [e]; exact .inl ⟨_, rfl⟩
  · rw [h]; exact .inr ⟨_, rfl, hn⟩

/-- On one state of the buffer the two halves are the buffer's `lookupTransform`. -/
theorem Goal.lookupOver_self [Rigid X] (g : Goal) (b : Buf X) : g.lookupOver b b = g.lookup b := by
  unfold Goal.lookupOver Goal.lookup Goal.look1 Goal.look2 Buf.lookupTransform5
  cases g.advanced with
  | false => rfl
  | true =>
    simp only [if_true]
    cases b.validateFrameId g.target with
    | throw e => rfl
    | ub => rfl
    | ok a =>
      simp only
      cases b.validateFrameId g.source with
      | throw e => rfl
      | ub => rfl
      | ok a =>
        simp only
        cases b.validateFrameId g.fixed with
        | throw e => rfl
        | ub => rfl
        | ok a =>
          simp only
          cases b.lookupTransform g.fixed g.source g.stime with
          | throw e => rfl
          | ub => rfl
          | ok m1 => rfl

/-! ### Steps -/

/-- What a step can do when the buffer is reachable. -/
inductive SOut [Rigid X] (s : Server X) : Server X × List (SEv X) → Prop
  | idle : SOut s (s, [])
  | goal (g : Goal) : SOut s ({ s with next := s.next + 1, calls := s.calls ++ [{ id := s.next, goal := g, phase := .accepted }] },
      [.accepted s.next g])
  | ending (i : Nat) (c : GCall X) (hc : s.calls[i]? = some c) (e : Time) (hp : c.phase = .accepted)
      (ht : timeAdd s.now c.goal.timeout = some e) :
      SOut s ({ s with calls := s.calls.set i { c with phase := .ending e } }, [])
  | overflow (i : Nat) (c : GCall X) (hc : s.calls[i]? = some c) (hp : c.phase = .accepted)
      (ht : timeAdd s.now c.goal.timeout = none) :
      SOut s ({ s with calls := s.calls.eraseIdx i }, [.escaped c.id])
  | avail (i : Nat) (c : GCall X) (hc : s.calls[i]? = some c) (e : Time) (hp : c.phase = .ending e)
      (ha : c.goal.can s.buf = .ok true) :
      SOut s ({ s with calls := s.calls.set i { c with phase := .look } }, [])
  | unavail (i : Nat) (c : GCall X) (hc : s.calls[i]? = some c) (e : Time) (hp : c.phase = .ending e)
      (ha : c.goal.can s.buf = .ok false) :
      SOut s ({ s with calls := s.calls.set i { c with phase := .late e } }, [])
  | expired (i : Nat) (c : GCall X) (hc : s.calls[i]? = some c) (e : Time) (hp : c.phase = .late e) (he : e ≤ s.now) :
      SOut s ({ s with calls := s.calls.set i { c with phase := .look } }, [])
  | toPush (i : Nat) (c : GCall X) (hc : s.calls[i]? = some c) (e : Time) (hp : c.phase = .late e) (he : ¬ e ≤ s.now) :
      SOut s ({ s with calls := s.calls.set i { c with phase := .push e } }, [])
  | half (i : Nat) (c : GCall X) (hc : s.calls[i]? = some c) (m1 : Msg X) (hp : c.phase = .look) (hl : c.goal.look1 s.buf = .inr m1) :
      SOut s ({ s with calls := s.calls.set i { c with phase := .look2 m1 } }, [])
  | done1 (i : Nat) (c : GCall X) (hc : s.calls[i]? = some c) (r : Res (Msg X)) (hp : c.phase = .look)
      (hl : c.goal.look1 s.buf = .inl r) (text : String) (m : Result X) (hm : serverResult r text = some m) :
      SOut s ({ s with calls := s.calls.eraseIdx i }, [.succeeded c.id m])
  | done2 (i : Nat) (c : GCall X) (hc : s.calls[i]? = some c) (m1 : Msg X) (hp : c.phase = .look2 m1) (text : String) (m : Result X)
      (hm : serverResult (c.goal.look2 m1 s.buf) text = some m) :
      SOut s ({ s with calls := s.calls.eraseIdx i }, [.succeeded c.id m])
  | push (i : Nat) (c : GCall X) (hc : s.calls[i]? = some c) (e : Time) (hp : c.phase = .push e) (hk : s.check = none) :
      SOut s ({ s with calls := s.calls.eraseIdx i
                       active := s.active ++ [{ id := c.id, goal := c.goal, endTime := e }] }, [])
  | cancel (i : Nat) (a : Active) (ha : s.active[i]? = some a) (hk : s.check = none) :
      SOut s ({ s with active := s.active.eraseIdx i }, [.canceled a.id])
  | checkStart (hk : s.check = none) : SOut s ({ s with check := some { pos := 0, phase := .fresh } }, [])
  | checkEnd (c : Check X) (hk : s.check = some c) (ha : s.active[c.pos]? = none) : SOut s ({ s with check := none }, [])
  | cAvail (c : Check X) (hk : s.check = some c) (a : Active) (ha : s.active[c.pos]? = some a) (hp : c.phase = .fresh)
      (hv : a.goal.can s.buf = .ok true) : SOut s ({ s with check := some { c with phase := .look } }, [])
  | cUnavail (c : Check X) (hk : s.check = some c) (a : Active) (ha : s.active[c.pos]? = some a) (hp : c.phase = .fresh)
      (hv : a.goal.can s.buf = .ok false) : SOut s ({ s with check := some { c with phase := .late } }, [])
  | cExpired (c : Check X) (hk : s.check = some c) (a : Active) (ha : s.active[c.pos]? = some a) (hp : c.phase = .late)
      (he : a.endTime < s.now) : SOut s ({ s with check := some { c with phase := .look } }, [])
  | cNext (c : Check X) (hk : s.check = some c) (a : Active) (ha : s.active[c.pos]? = some a) (hp : c.phase = .late)
      (he : ¬ a.endTime < s.now) : SOut s ({ s with check := some { pos := c.pos + 1, phase := .fresh } }, [])
  | cHalf (c : Check X) (hk : s.check = some c) (a : Active) (ha : s.active[c.pos]? = some a) (hp : c.phase = .look) (m1 : Msg X)
      (hl : a.goal.look1 s.buf = .inr m1) : SOut s ({ s with check := some { c with phase := .look2 m1 } }, [])
  | cDone1 (c : Check X) (hk : s.check = some c) (a : Active) (ha : s.active[c.pos]? = some a) (hp : c.phase = .look)
      (r : Res (Msg X)) (hl : a.goal.look1 s.buf = .inl r) (text : String) (m : Result X) (hm : serverResult r text = some m) :
      SOut s ({ s with active := s.active.eraseIdx c.pos, check := some { c with phase := .fresh } }, [.succeeded a.id m])
  | cDone2 (c : Check X) (hk : s.check = some c) (a : Active) (ha : s.active[c.pos]? = some a) (m1 : Msg X) (hp : c.phase = .look2 m1)
      (text : String) (m : Result X) (hm : serverResult (a.goal.look2 m1 s.buf) text = some m) :
      SOut s ({ s with active := s.active.eraseIdx c.pos, check := some { c with phase := .fresh } }, [.succeeded a.id m])
  | clock (t : Time) : SOut s ({ s with now := t }, [])
  | buffer (op : Op X) : SOut s ({ s with buf := s.buf.step op }, [])

theorem Server.step_out [Rigid X] {D : Duration} {s : Server X} (hr : Reachable D s.buf) (op : SOp X) : SOut s (s.step op) := by
  cases op with
  | goal g => exact .goal g
  | clock t => exact .clock t
  | buffer op => exact .buffer op
  | checkStart =>
    simp only [Server.step, Server.checkStart]
    cases hk : s.check with
    | none => exact .checkStart hk
    | some c => exact .idle
  | cancel id =>
    simp only [Server.step, Server.cancel]
    cases hk : s.check with
    | some c => exact .idle
    | none =>
      simp only
      cases hf : s.active.findIdx? (fun a => decide (a.id = id)) with
      | none => exact .idle
      | some i =>
        simp only
        obtain ⟨hi, hp, -⟩ := List.findIdx?_eq_some_iff_getElem.1 hf
        have : s.active[i].id = id := by simpa using hp
        rw [← this]
        have h' := SOut.cancel i _ (List.getElem?_eq_getElem hi) hk
        rw [hk] at h'; exact h'
  | goalStep i text =>
    simp only [Server.step, Server.goalStep]
    cases hc : s.calls[i]? with
    | none => exact .idle
    | some c =>
      simp only
      cases hp : c.phase with
      | accepted =>
        simp only
        cases ht : timeAdd s.now c.goal.timeout with
        | none => exact .overflow i c hc hp ht
        | some e => exact .ending i c hc e hp ht
      | ending e =>
        simp only
        obtain ⟨v, hv⟩ := Goal.can_total hr c.goal
        rw [hv]
        cases v with
        | true => exact .avail i c hc e hp hv
        | false => exact .unavail i c hc e hp hv
      | late e =>
        simp only
        split
        · next h => exact .expired i c hc e hp h
        · next h => exact .toPush i c hc e hp h
      | look =>
        simp only
        rcases Goal.look1_total hr c.goal with ⟨m1, h⟩ | ⟨r, h, hs⟩
        · rw [h]; exact .half i c hc m1 hp h
        · rw [h]
          obtain ⟨m, hm⟩ := serverResult_some r text hs
          simp only [Server.goalDone, hm]
          exact .done1 i c hc r hp h text m hm
      | look2 m1 =>
        obtain ⟨m, hm⟩ := serverResult_some _ text (Goal.look2_total hr c.goal m1)
        simp only [Server.goalDone, hm]
        exact .done2 i c hc m1 hp text m hm
      | push e =>
        simp only
        cases hk : s.check with
        | some k => exact .idle
        | none => have h' := SOut.push i c hc e hp hk; rw [hk] at h'; exact h'
  | checkStep text =>
    simp only [Server.step, Server.checkStep]
    cases hk : s.check with
    | none => exact .idle
    | some c =>
      simp only
      cases ha : s.active[c.pos]? with
      | none => exact .checkEnd c hk ha
      | some a =>
        simp only
        cases hp : c.phase with
        | fresh =>
          simp only
          obtain ⟨v, hv⟩ := Goal.can_total hr a.goal
          rw [hv]
          cases v with
          | true => exact .cAvail c hk a ha hp hv
          | false => exact .cUnavail c hk a ha hp hv
        | late =>
          simp only
          split
          · next h => exact .cExpired c hk a ha hp h
          · next h => exact .cNext c hk a ha hp h
        | look =>
          simp only
          rcases Goal.look1_total hr a.goal with ⟨m1, h⟩ | ⟨r, h, hs⟩
          · rw [h]; exact .cHalf c hk a ha hp m1 h
          · rw [h]
            obtain ⟨m, hm⟩ := serverResult_some r text hs
            simp only [Server.checkDone, hm]
            exact .cDone1 c hk a ha hp r h text m hm
        | look2 m1 =>
          obtain ⟨m, hm⟩ := serverResult_some _ text (Goal.look2_total hr a.goal m1)
          simp only [Server.checkDone, hm]
          exact .cDone2 c hk a ha m1 hp text m hm

theorem Server.step_buf [Rigid X] {D : Duration} {s : Server X} (hr : Reachable D s.buf) (op : SOp X) :
    Reachable D (s.step op).1.buf := by
  have ho := Server.step_out hr op
  generalize s.step op = r at ho ⊢
  cases ho with
  | buffer op =>
    obtain ⟨ops, h⟩ := hr
    exact ⟨ops ++ [op], by simp [Buf.run, h]⟩
  | _ => exact hr

theorem srun_append [Rigid X] (p q : List (SOp X)) : ∀ (s : Server X) (evs : List (SEv X)),
    Server.run (p ++ q) s evs = Server.run q (Server.run p s evs).1 (Server.run p s evs).2 := by
  induction p with
  | nil => intro s evs; rfl
  | cons a r ih => intro s evs; exact ih _ _

theorem srun_evs [Rigid X] (p : List (SOp X)) : ∀ (s : Server X) (evs : List (SEv X)),
    Server.run p s evs = ((Server.run p s []).1, evs ++ (Server.run p s []).2) := by
  induction p with
  | nil => intro s evs; simp [Server.run]
  | cons a r ih =>
    intro s evs
    show Server.run r (s.step a).1 (evs ++ (s.step a).2) = _
    rw [ih]
    show _ = ((Server.run r (s.step a).1 ([] ++ (s.step a).2)).1, evs ++ (Server.run r (s.step a).1 ([] ++ (s.step a).2)).2)
    rw [ih (s.step a).1 ([] ++ (s.step a).2)]
    simp

theorem history_snoc [Rigid X] (D : Duration) (now : Time) (ops : List (SOp X)) (op : SOp X) :
    Server.history D now (ops ++ [op]) =
      (((Server.history D now ops).1.step op).1, (Server.history D now ops).2 ++ ((Server.history D now ops).1.step op).2) := by
  unfold Server.history
  rw [srun_append]; rfl

theorem snocInd {α : Type} {P : List α → Prop} (h0 : P []) (h : ∀ l a, P l → P (l ++ [a])) (l : List α) : P l := by
  have : ∀ r : List α, P r.reverse := by
    intro r
    induction r with
    | nil => exact h0
    | cons a r ih => rw [List.reverse_cons]; exact h _ _ ih
  simpa using this l.reverse

theorem history_reach [Rigid X] (D : Duration) (now : Time) (ops : List (SOp X)) :
    Reachable D (Server.history D now ops).1.buf := by
  induction ops using snocInd with
  | h0 => exact ⟨[], rfl⟩
  | h l a ih => rw [history_snoc]; exact Server.step_buf ih a

/-! ### Accounting -/

theorem resolved_append (a b : List (SEv X)) : resolved (a ++ b) = resolved a ++ resolved b := List.filterMap_append ..

@[simp] theorem resolved_nil : resolved ([] : List (SEv X)) = [] := rfl
@[simp] theorem resolved_accepted (i : Nat) (g : Goal) (r : List (SEv X)) : resolved (.accepted i g :: r) = resolved r := rfl
@[simp] theorem resolved_succeeded (i : Nat) (m : Result X) (r : List (SEv X)) : resolved (.succeeded i m :: r) = i :: resolved r := rfl
@[simp] theorem resolved_canceled (i : Nat) (r : List (SEv X)) : resolved (.canceled i :: r) = i :: resolved r := rfl
@[simp] theorem resolved_escaped (i : Nat) (r : List (SEv X)) : resolved (.escaped i :: r) = i :: resolved r := rfl

/-- How often a goal is in progress. -/
def Server.held (s : Server X) (id : Nat) : Nat := s.inCallback.count id + s.listed.count id

theorem SOut.held [Rigid X] {s : Server X} {r : Server X × List (SEv X)} (h : SOut s r) :
    (r.1.next = s.next ∧ ∀ id, r.1.held id + (resolved r.2).count id = s.held id) ∨
    (∃ g, r.2 = [.accepted s.next g] ∧ r.1.next = s.next + 1 ∧
      ∀ id, r.1.held id = s.held id + [s.next].count id) := by
  have setc : ∀ (i : Nat) (c : GCall X), s.calls[i]? = some c → ∀ p, (s.calls.set i { c with phase := p }).map GCall.id = s.calls.map GCall.id :=
    fun i c hc p => set_map GCall.id hc rfl
  cases h with
  | goal g =>
    refine .inr ⟨g, rfl, rfl, fun id => ?_⟩
    simp [Server.held, Server.inCallback, Server.listed, List.count_append]; omega
  | ending i c hc e | avail i c hc e | unavail i c hc e | expired i c hc e | toPush i c hc e | half i c hc m1 =>
    refine .inl ⟨rfl, fun id => ?_⟩
    simp [Server.held, Server.inCallback, Server.listed, setc i c hc]
  | overflow i c hc | done1 i c hc | done2 i c hc =>
    refine .inl ⟨rfl, fun id => ?_⟩
    have := eraseIdx_count GCall.id hc id
    simp only [Server.held, Server.inCallback, Server.listed, resolved_succeeded, resolved_escaped, resolved_nil] at *
    omega
  | push i c hc =>
    refine .inl ⟨rfl, fun id => ?_⟩
    have := eraseIdx_count GCall.id hc id
    simp only [Server.held, Server.inCallback, Server.listed, resolved_nil, List.map_append, List.count_append, List.map_cons, List.map_nil, List.count_nil] at *
    omega
  | cancel i a ha | cDone1 i a b ha | cDone2 i a b ha =>
    refine .inl ⟨rfl, fun id => ?_⟩
    have := eraseIdx_count Active.id ha id
    simp only [Server.held, Server.inCallback, Server.listed, resolved_succeeded, resolved_canceled, resolved_nil] at *
    omega
  | _ => exact .inl ⟨rfl, fun id => by simp [Server.held, Server.inCallback, Server.listed]⟩

/-- Accounting and numbering. -/
structure SInv (s : Server X) (evs : List (SEv X)) : Prop where
  acct : ∀ id, s.held id + (resolved evs).count id = (List.range s.next).count id
  known : ∀ id, id < s.next ↔ ∃ g, SEv.accepted id g ∈ evs
  once : ∀ id g g', SEv.accepted id g ∈ evs → SEv.accepted id g' ∈ evs → g = g'

theorem SOut.sinv [Rigid X] {s : Server X} {evs : List (SEv X)} (hi : SInv s evs) {r : Server X × List (SEv X)} (h : SOut s r) :
    SInv r.1 (evs ++ r.2) := by
  rcases h.held with ⟨h1, h2⟩ | ⟨g, h1, h2, h3⟩
  · have hna : ∀ id g, SEv.accepted id g ∉ r.2 := by
      cases h with
      | goal g => exact absurd h1 (by simp)
      | _ => simp
    refine ⟨fun id => ?_, fun id => ?_, fun id g g' => ?_⟩
    · rw [resolved_append, List.count_append, h1]; have := h2 id; have := hi.acct id; omega
    · rw [h1, hi.known]; simp [hna]
    · simp only [List.mem_append, hna, or_false]; exact hi.once id g g'
  · rw [h1]
    refine ⟨fun id => ?_, fun id => ?_, fun id g1 g2 => ?_⟩
    · rw [resolved_append, h2, h3, List.range_succ, List.count_append]
      have := hi.acct id
      simp only [List.count_append, resolved_accepted, resolved_nil, List.count_nil]; omega
    · have := hi.known id
      rw [h2]
      constructor
      · intro hlt
        by_cases he : id = s.next
        · exact ⟨g, by simp [he]⟩
        · obtain ⟨g', hg⟩ := this.1 (by omega); exact ⟨g', by simp [hg]⟩
      · rintro ⟨g', hg⟩
        rcases List.mem_append.1 hg with hg | hg
        · have := this.2 ⟨g', hg⟩; omega
        · simp at hg; omega
    · have hn : ∀ g', SEv.accepted s.next g' ∉ evs := fun g' hm => by
        have := (hi.known s.next).2 ⟨g', hm⟩; omega
      intro h1 h2
      rcases List.mem_append.1 h1 with h1 | h1 <;> rcases List.mem_append.1 h2 with h2 | h2
      · exact hi.once id _ _ h1 h2
      · simp at h2; rw [h2.1] at h1; exact absurd h1 (hn _)
      · simp at h1; rw [h1.1] at h2; exact absurd h2 (hn _)
      · simp at h1 h2; rw [h1.2, h2.2]

theorem SInv.history [Rigid X] (D : Duration) (now : Time) (ops : List (SOp X)) :
    SInv (Server.history D now ops).1 (Server.history D now ops).2 := by
  induction ops using snocInd with
  | h0 => exact ⟨fun id => by simp [Server.history, Server.run, Server.init, Server.held, Server.inCallback, Server.listed],
      fun id => by simp [Server.history, Server.run, Server.init], by simp [Server.history, Server.run]⟩
  | h l a ih => rw [history_snoc]; exact (Server.step_out (history_reach D now l) a).sinv ih

end Tf2
