import Verif.Spec.PyListener
import Verif.Props.PyTime

/-!
# C69: the Python transform listener
-/
namespace Tf2.Py

variable {X : Type} {fl : ℚ → ℚ} [Rigid X]

/-- What a step can do. -/
inductive PyLOut (fl : ℚ → ℚ) (s : PyListener X) : PyListener X → List (PyLEv X) → Prop where
  | idle : PyLOut fl s s []
  | receive (msgs : List (Msg X)) (cid : Option Name) (st : Bool) :
      PyLOut fl s { s with next := s.next + 1,
                           cbs := s.update s.next (some { checked := false, rest := msgs, who := whoOf cid, isStatic := st }) }
        [.started s.next msgs cid st]
  | jump {id : Nat} {c : PyCb X} (hc : s.cbs id = some c) (hn : c.checked = false) {now : Time} (h : now < s.last) :
      PyLOut fl s { s with buf := s.buf.clear, last := now, cbs := s.update id (some { c with checked := true }) }
        [.checked id now, .did id .clear]
  | keep {id : Nat} {c : PyCb X} (hc : s.cbs id = some c) (hn : c.checked = false) {now : Time} (h : s.last ≤ now) :
      PyLOut fl s { s with last := now, cbs := s.update id (some { c with checked := true }) } [.checked id now]
  | finish {id : Nat} {c : PyCb X} (hc : s.cbs id = some c) (hn : c.checked = true) (hr : c.rest = []) :
      PyLOut fl s { s with cbs := s.update id none } [.finished id]
  | store {id : Nat} {c : PyCb X} (hc : s.cbs id = some c) (hn : c.checked = true) {m : Msg X} {ms : List (Msg X)}
      (hr : c.rest = m :: ms) {b : Buf X} (hb : stepCore fl s.buf (.set m c.who c.isStatic) = some b) :
      PyLOut fl s { s with buf := b, cbs := s.update id (some { c with rest := ms }) } [.did id (.set m c.who c.isStatic)]
  | other {op : Op X} {b : Buf X} (hb : stepCore fl s.buf op = some b) : PyLOut fl s { s with buf := b } [.other op]

theorem step_out {s s' : PyListener X} {op : PyLOp X} {e : List (PyLEv X)} (h : s.step fl op = some (s', e)) :
    PyLOut fl s s' e := by
  cases op with
  | receive msgs cid st =>
    cases h
    exact .receive msgs cid st
  | check id now =>
    unfold PyListener.step at h
    dsimp only at h
    cases hc : s.cbs id with
    | none => rw [hc] at h; cases h; exact .idle
    | some c =>
      rw [hc] at h
      dsimp only at h
      cases hn : c.checked with
      | true => rw [hn] at h; cases h; exact .idle
      | false =>
        rw [hn, if_neg (by simp)] at h
        have h := Option.some.inj h
        unfold PyListener.check at h
        dsimp only at h
        by_cases hl : now < s.last
        · rw [if_pos hl] at h; cases h; exact .jump hc hn hl
        · rw [if_neg hl] at h; cases h; exact .keep hc hn (not_lt.1 hl)
  | store id =>
    unfold PyListener.step at h
    dsimp only at h
    cases hc : s.cbs id with
    | none => rw [hc] at h; cases h; exact .idle
    | some c =>
      rw [hc] at h
      dsimp only at h
      cases hn : c.checked with
      | false => rw [hn, if_neg (by simp)] at h; cases h; exact .idle
      | true =>
        rw [hn, if_pos rfl] at h
        unfold PyListener.store at h
        cases hr : c.rest with
        | nil => rw [hr] at h; cases h; exact .finish hc hn hr
        | cons m ms =>
          rw [hr] at h
          dsimp only at h
          cases hb : stepCore fl s.buf (.set m c.who c.isStatic) with
          | none => rw [hb] at h; cases h
          | some b => rw [hb] at h; cases h; exact .store hc hn hr hb
  | other op =>
    unfold PyListener.step at h
    dsimp only at h
    cases hb : stepCore fl s.buf op with
    | none => rw [hb] at h; cases h
    | some b => rw [hb] at h; cases h; exact .other hb

/-- Invariants of histories. -/
theorem run_inv {P : PyListener X → List (PyLEv X) → Prop}
    (hstep : ∀ {s s' evs e}, P s evs → PyLOut fl s s' e → P s' (evs ++ e)) :
    ∀ (ops : List (PyLOp X)) {s s' : PyListener X} {evs evs' : List (PyLEv X)}, P s evs →
      PyListener.run fl ops s evs = some (s', evs') → P s' evs' := by
  intro ops
  induction ops with
  | nil => intro s s' evs evs' hp h; cases h; exact hp
  | cons op r ih =>
    intro s s' evs evs' hp h
    unfold PyListener.run at h
    cases hs : s.step fl op with
    | none => rw [hs] at h; cases h
    | some p =>
      obtain ⟨s1, e1⟩ := p
      rw [hs] at h
      exact ih (hstep hp (step_out hs)) h

omit [Rigid X] in
theorem pyCalls_append (a b : List (PyLEv X)) : pyCalls (a ++ b) = pyCalls a ++ pyCalls b := by
  induction a with
  | nil => rfl
  | cons e r ih => cases e <;> simp only [List.cons_append, pyCalls, ih]

omit [Rigid X] in
theorem setsBy_append (id : Nat) (a b : List (PyLEv X)) : setsBy id (a ++ b) = setsBy id a ++ setsBy id b := by
  induction a with
  | nil => rfl
  | cons e r ih =>
    cases e with
    | did j op =>
      cases op with
      | set m au st =>
        simp only [List.cons_append, setsBy, ih]
        split <;> simp
      | clear => simp only [List.cons_append, setsBy, ih]
    | _ => simp only [List.cons_append, setsBy, ih]

omit [Rigid X] in
theorem clearsMade_append (a b : List (PyLEv X)) : clearsMade (a ++ b) = clearsMade a ++ clearsMade b := by
  induction a with
  | nil => rfl
  | cons e r ih =>
    cases e with
    | did j op => cases op <;> simp only [List.cons_append, clearsMade, ih]
    | _ => simp only [List.cons_append, clearsMade, ih]

/-- The last reading of the clock. -/
def lastReading : Time → List (PyLEv X) → Time
  | t, [] => t
  | _, .checked _ now :: r => lastReading now r
  | t, _ :: r => lastReading t r

omit [Rigid X] in
theorem jumpsSeen_append (a b : List (PyLEv X)) : ∀ t, jumpsSeen t (a ++ b) = jumpsSeen t a ++ jumpsSeen (lastReading t a) b := by
  induction a with
  | nil => intro t; rfl
  | cons e r ih =>
    intro t
    cases e with
    | checked j now =>
      simp only [List.cons_append, jumpsSeen, lastReading, ih]
      split <;> simp
    | _ => simp only [List.cons_append, jumpsSeen, lastReading, ih]

omit [Rigid X] in
theorem lastReading_append (a b : List (PyLEv X)) : ∀ t, lastReading t (a ++ b) = lastReading (lastReading t a) b := by
  induction a with
  | nil => intro t; rfl
  | cons e r ih => intro t; cases e <;> simp only [List.cons_append, lastReading, ih]

theorem runCore_append (a c : List (Op X)) : ∀ {b b' : Buf X}, runCore fl a b = some b' →
    runCore fl (a ++ c) b = runCore fl c b' := by
  induction a with
  | nil => intro b b' h; cases h; rfl
  | cons o r ih =>
    intro b b' h
    unfold runCore at h
    show (match stepCore fl b o with | none => none | some b' => runCore fl (r ++ c) b') = _
    cases hs : stepCore fl b o with
    | none => rw [hs] at h; cases h
    | some b1 => rw [hs] at h; exact ih h

/-- **C69.** The buffer is what all calls made of it - the listener's and everybody else's - in the order of the events
make of an empty one. -/
theorem C69_effect {D : Duration} {now : Time} {ops : List (PyLOp X)} {s : PyListener X} {evs : List (PyLEv X)}
    (h : pyHistory fl D now ops = some (s, evs)) : runCore fl (pyCalls evs) (Buf.init D) = some s.buf := by
  refine run_inv (fl := fl) (P := fun s evs => runCore fl (pyCalls evs) (Buf.init D) = some s.buf) ?_ ops rfl h
  intro s s' evs e hp ho
  rw [pyCalls_append, runCore_append _ _ hp]
  cases ho with
  | idle => rfl
  | receive msgs cid st => rfl
  | jump hc hn h => rfl
  | keep hc hn h => rfl
  | finish hc hn hr => rfl
  | store hc hn hr hb => simp only [pyCalls, runCore, hb]
  | other hb => simp only [pyCalls, runCore, hb]

/-- **C69.** The listener clears the buffer exactly when, in the order in which callbacks read the clock, a reading is
earlier than the one before it; the first reading is compared with the time at which the listener was made. -/
theorem C69_clears {D : Duration} {now : Time} {ops : List (PyLOp X)} {s : PyListener X} {evs : List (PyLEv X)}
    (h : pyHistory fl D now ops = some (s, evs)) : clearsMade evs = jumpsSeen now evs := by
  have := run_inv (fl := fl) (P := fun s evs => clearsMade evs = jumpsSeen now evs ∧ s.last = lastReading now evs) ?_ ops
    ⟨rfl, rfl⟩ h
  · exact this.1
  intro s s' evs e hp ho
  obtain ⟨h1, h2⟩ := hp
  rw [clearsMade_append, jumpsSeen_append, lastReading_append, ← h2, h1]
  cases ho with
  | idle => exact ⟨by simp [clearsMade, jumpsSeen], rfl⟩
  | receive msgs cid st => exact ⟨by simp [clearsMade, jumpsSeen], rfl⟩
  | jump hc hn h => exact ⟨by simp [clearsMade, jumpsSeen, h], rfl⟩
  | keep hc hn h => exact ⟨by simp [clearsMade, jumpsSeen, not_lt.2 h], rfl⟩
  | finish hc hn hr => exact ⟨by simp [clearsMade, jumpsSeen], rfl⟩
  | store hc hn hr hb => exact ⟨by simp [clearsMade, jumpsSeen], rfl⟩
  | other hb => exact ⟨by simp [clearsMade, jumpsSeen], rfl⟩

/-- What is known of callback `id`, started with the message `d`. -/
structure CbInv (id : Nat) (msgs : List (Msg X)) (cid : Option Name) (st : Bool) (s : PyListener X)
    (evs : List (PyLEv X)) : Prop where
  run : ∀ c, s.cbs id = some c → PyLEv.finished id ∉ evs ∧ c.who = whoOf cid ∧ c.isStatic = st ∧
    setsBy id evs ++ c.rest.map (fun m => .set m (whoOf cid) st) = msgs.map (fun m => .set m (whoOf cid) st) ∧
    (c.checked = false → setsBy id evs = []) ∧ (c.checked = true → ∃ now, PyLEv.checked id now ∈ evs)
  done : s.cbs id = none → PyLEv.finished id ∈ evs ∧ setsBy id evs = msgs.map (fun m => .set m (whoOf cid) st) ∧
    ∃ now, PyLEv.checked id now ∈ evs

/-- Facts about all callbacks. -/
structure LInv (s : PyListener X) (evs : List (PyLEv X)) : Prop where
  fresh : ∀ id, s.next ≤ id → s.cbs id = none ∧ setsBy id evs = [] ∧ PyLEv.finished id ∉ evs ∧
    (∀ msgs cid st, PyLEv.started id msgs cid st ∉ evs)
  all : ∀ id, id < s.next → ∃ msgs cid st, PyLEv.started id msgs cid st ∈ evs
  known : ∀ id msgs cid st, PyLEv.started id msgs cid st ∈ evs → CbInv id msgs cid st s evs

/-- A step that touches only some running callbacks. -/
theorem LInv.advance {s s' : PyListener X} {evs e : List (PyLEv X)} (hp : LInv s evs) (Q : Nat → Prop)
    (hQ : ∀ j, Q j → j < s.next) (hnext : s'.next = s.next) (hcbs : ∀ j, ¬ Q j → s'.cbs j = s.cbs j)
    (hst : ∀ j m c st, PyLEv.started j m c st ∉ e) (hsets : ∀ j, ¬ Q j → setsBy j e = [])
    (hfin : ∀ j, ¬ Q j → PyLEv.finished j ∉ e)
    (hown : ∀ j, Q j → ∀ msgs cid st, CbInv j msgs cid st s evs → CbInv j msgs cid st s' (evs ++ e)) :
    LInv s' (evs ++ e) := by
  constructor
  · intro id hid
    rw [hnext] at hid
    have hq : ¬ Q id := fun h => absurd (hQ id h) (Nat.not_lt.2 hid)
    obtain ⟨a1, a2, a3, a4⟩ := hp.fresh id hid
    refine ⟨by rw [hcbs id hq, a1], by rw [setsBy_append, a2, hsets id hq]; rfl, ?_, ?_⟩
    · intro hm; rcases List.mem_append.1 hm with h | h
      · exact a3 h
      · exact hfin id hq h
    · intro m2 c2 s2 hm; rcases List.mem_append.1 hm with h | h
      · exact a4 _ _ _ h
      · exact hst _ _ _ _ h
  · intro id hid
    rw [hnext] at hid
    obtain ⟨m2, c2, s2, h2⟩ := hp.all id hid
    exact ⟨m2, c2, s2, List.mem_append_left _ h2⟩
  · intro id m2 c2 s2 hm
    have hm' : PyLEv.started id m2 c2 s2 ∈ evs := by
      rcases List.mem_append.1 hm with h | h
      · exact h
      · exact absurd h (hst _ _ _ _)
    have hk := hp.known id m2 c2 s2 hm'
    by_cases hq : Q id
    · exact hown id hq _ _ _ hk
    · constructor
      · intro c hc
        rw [hcbs id hq] at hc
        obtain ⟨a1, a2, a3, a4, a5, a6⟩ := hk.run c hc
        refine ⟨?_, a2, a3, ?_, ?_, ?_⟩
        · intro hm; rcases List.mem_append.1 hm with h | h
          · exact a1 h
          · exact hfin id hq h
        · rw [setsBy_append, hsets id hq, List.append_nil]; exact a4
        · intro h; rw [setsBy_append, a5 h, hsets id hq]; rfl
        · intro h; obtain ⟨t, ht⟩ := a6 h; exact ⟨t, List.mem_append_left _ ht⟩
      · intro hc
        rw [hcbs id hq] at hc
        obtain ⟨a1, a2, t, a3⟩ := hk.done hc
        exact ⟨List.mem_append_left _ a1, by rw [setsBy_append, a2, hsets id hq, List.append_nil], t,
          List.mem_append_left _ a3⟩

/-- Passing `check_for_reset`. -/
theorem CbInv.check {id : Nat} {msgs : List (Msg X)} {cid : Option Name} {st : Bool} {s s' : PyListener X}
    {evs e : List (PyLEv X)} (hk : CbInv id msgs cid st s evs) {c : PyCb X} (hc : s.cbs id = some c)
    (hn : c.checked = false) (hc' : s'.cbs id = some { c with checked := true }) (he : setsBy id e = [])
    (hf : PyLEv.finished id ∉ e) {now : Time} (hin : PyLEv.checked id now ∈ e) : CbInv id msgs cid st s' (evs ++ e) := by
  obtain ⟨a1, a2, a3, a4, a5, a6⟩ := hk.run c hc
  constructor
  · intro c1 h1
    rw [hc'] at h1
    have := Option.some.inj h1
    subst this
    refine ⟨?_, a2, a3, ?_, ?_, ?_⟩
    · intro hm; rcases List.mem_append.1 hm with h | h
      · exact a1 h
      · exact hf h
    · rw [setsBy_append, he, List.append_nil]; exact a4
    · intro h; cases h
    · intro _; exact ⟨now, List.mem_append_right _ hin⟩
  · intro h1
    rw [hc'] at h1
    cases h1

theorem linv {D : Duration} {now : Time} {ops : List (PyLOp X)} {s : PyListener X} {evs : List (PyLEv X)}
    (h : pyHistory fl D now ops = some (s, evs)) : LInv s evs := by
  refine run_inv (fl := fl) (P := LInv) ?_ ops ⟨?_, ?_, ?_⟩ h
  rotate_left
  · intro id _; exact ⟨rfl, rfl, by simp, by simp⟩
  · intro id h; exact absurd h (Nat.not_lt_zero id)
  · intro id msgs cid st h; cases h
  intro s s' evs e hp ho
  have lt_of : ∀ {id c}, s.cbs id = some c → id < s.next := by
    intro id c hc
    by_contra hge
    rw [(hp.fresh id (not_lt.1 hge)).1] at hc
    cases hc
  cases ho with
  | idle => rw [List.append_nil]; exact hp
  | receive msgs cid st =>
    constructor
    · intro id hid
      have hid' : s.next < id := hid
      obtain ⟨a1, a2, a3, a4⟩ := hp.fresh id (Nat.le_of_lt hid')
      refine ⟨?_, ?_, ?_, ?_⟩
      · show (if id = s.next then _ else s.cbs id) = none
        rw [if_neg (Nat.ne_of_gt hid'), a1]
      · rw [setsBy_append, a2]; rfl
      · intro hm; rcases List.mem_append.1 hm with h | h
        · exact a3 h
        · simp at h
      · intro m2 c2 s2 hm; rcases List.mem_append.1 hm with h | h
        · exact a4 _ _ _ h
        · simp only [List.mem_singleton, PyLEv.started.injEq] at h; omega
    · intro id hid
      rcases Nat.lt_succ_iff_lt_or_eq.1 (show id < s.next + 1 from hid) with h | rfl
      · obtain ⟨m2, c2, s2, h2⟩ := hp.all id h
        exact ⟨m2, c2, s2, List.mem_append_left _ h2⟩
      · exact ⟨msgs, cid, st, by simp⟩
    · intro id m2 c2 s2 hm
      rcases List.mem_append.1 hm with h | h
      · have hne : id ≠ s.next := by
          rintro rfl
          exact (hp.fresh _ (Nat.le_refl _)).2.2.2 _ _ _ h
        have hk := hp.known id m2 c2 s2 h
        constructor
        · intro c hc
          have hc' : (if id = s.next then _ else s.cbs id) = some c := hc
          rw [if_neg hne] at hc'
          obtain ⟨a1, a2, a3, a4, a5, a6⟩ := hk.run c hc'
          refine ⟨?_, a2, a3, ?_, ?_, ?_⟩
          · intro hm; rcases List.mem_append.1 hm with h | h
            · exact a1 h
            · simp at h
          · rw [setsBy_append]; simpa [setsBy] using a4
          · intro h; rw [setsBy_append, a5 h]; rfl
          · intro h; obtain ⟨t, ht⟩ := a6 h; exact ⟨t, List.mem_append_left _ ht⟩
        · intro hc
          have hc' : (if id = s.next then _ else s.cbs id) = none := hc
          rw [if_neg hne] at hc'
          obtain ⟨a1, a2, t, a3⟩ := hk.done hc'
          exact ⟨List.mem_append_left _ a1, by rw [setsBy_append, a2]; simp [setsBy], t, List.mem_append_left _ a3⟩
      · simp only [List.mem_singleton, PyLEv.started.injEq] at h
        obtain ⟨rfl, rfl, rfl, rfl⟩ := h
        obtain ⟨a1, a2, a3, a4⟩ := hp.fresh _ (Nat.le_refl _)
        constructor
        · intro c hc
          have hc' : (if s.next = s.next then _ else s.cbs s.next) = some c := hc
          rw [if_pos rfl] at hc'
          have hcc := Option.some.inj hc'
          subst hcc
          refine ⟨?_, rfl, rfl, ?_, ?_, ?_⟩
          · intro hm; rcases List.mem_append.1 hm with h | h
            · exact a3 h
            · simp at h
          · rw [setsBy_append, a2]; rfl
          · intro _; rw [setsBy_append, a2]; rfl
          · intro h; cases h
        · intro hc
          have hc' : (if s.next = s.next then _ else s.cbs s.next) = none := hc
          rw [if_pos rfl] at hc'
          cases hc'
  | @jump id0 c0 hc hn now h =>
    refine hp.advance (· = id0) (fun j h => h ▸ lt_of hc) rfl ?_ (by simp) ?_ (by simp) ?_
    · intro j hj; exact if_neg hj
    · intro j hj; rfl
    · intro j hj msgs cid st hk
      subst hj
      exact hk.check hc hn (if_pos rfl) rfl (by simp) (now := now) (by simp)
  | @keep id0 c0 hc hn now h =>
    refine hp.advance (· = id0) (fun j h => h ▸ lt_of hc) rfl ?_ (by simp) ?_ (by simp) ?_
    · intro j hj; exact if_neg hj
    · intro j hj; rfl
    · intro j hj msgs cid st hk
      subst hj
      exact hk.check hc hn (if_pos rfl) rfl (by simp) (now := now) (by simp)
  | @finish id0 c0 hc hn hr =>
    refine hp.advance (· = id0) (fun j h => h ▸ lt_of hc) rfl ?_ (by simp) ?_ ?_ ?_
    · intro j hj; exact if_neg hj
    · intro j hj; rfl
    · intro j hj; simpa using hj
    · intro j hj msgs cid st hk
      subst hj
      obtain ⟨a1, a2, a3, a4, a5, a6⟩ := hk.run c0 hc
      constructor
      · intro c h1
        have h1' : (if j = j then none else s.cbs j) = some c := h1
        rw [if_pos rfl] at h1'
        cases h1'
      · intro _
        obtain ⟨t, ht⟩ := a6 hn
        refine ⟨by simp, ?_, t, List.mem_append_left _ ht⟩
        rw [hr, List.map_nil, List.append_nil] at a4
        rw [setsBy_append, a4]
        simp [setsBy]
  | @store id0 c0 hc hn m ms hr b hb =>
    refine hp.advance (· = id0) (fun j h => h ▸ lt_of hc) rfl ?_ (by simp) ?_ (by simp) ?_
    · intro j hj; exact if_neg hj
    · intro j hj; exact if_neg (fun h => hj h.symm)
    · intro j hj msgs cid st hk
      subst hj
      obtain ⟨a1, a2, a3, a4, a5, a6⟩ := hk.run c0 hc
      constructor
      · intro c h1
        have h1' : (if j = j then some { c0 with rest := ms } else s.cbs j) = some c := h1
        rw [if_pos rfl] at h1'
        have := Option.some.inj h1'
        subst this
        refine ⟨?_, a2, a3, ?_, ?_, ?_⟩
        · intro hm; rcases List.mem_append.1 hm with h | h
          · exact a1 h
          · simp at h
        · rw [setsBy_append, ← a4, hr, a2, a3]
          simp [setsBy]
        · intro h
          have : c0.checked = false := h
          rw [hn] at this
          cases this
        · intro h; obtain ⟨t, ht⟩ := a6 hn; exact ⟨t, List.mem_append_left _ ht⟩
      · intro h1
        have h1' : (if j = j then some { c0 with rest := ms } else s.cbs j) = none := h1
        rw [if_pos rfl] at h1'
        cases h1'
  | other hb =>
    refine hp.advance (fun _ => False) (fun j h => h.elim) rfl (fun j _ => rfl) (by simp) (fun j _ => rfl) (by simp)
      (fun j h => h.elim)

theorem whoOf_eq (cid : Option Name) : whoOf cid = publisherName cid := by cases cid <;> rfl

/-- **C69.** Whatever the schedule of the callbacks: each offers to the buffer an initial part of the transforms of its
message, in their order and unaltered, under the name of the publisher and as static or not by its topic; a callback
that has returned has offered them all; none before `check_for_reset`. -/
theorem C69_callback {D : Duration} {now : Time} {ops : List (PyLOp X)} {s : PyListener X} {evs : List (PyLEv X)}
    (h : pyHistory fl D now ops = some (s, evs)) {id : Nat} {msgs : List (Msg X)} {cid : Option Name} {st : Bool}
    (hs : PyLEv.started id msgs cid st ∈ evs) :
    setsBy id evs <+: msgs.map (fun m => .set m (publisherName cid) st) ∧
    (PyLEv.finished id ∈ evs → setsBy id evs = msgs.map (fun m => .set m (publisherName cid) st)) ∧
    (setsBy id evs ≠ [] → ∃ now, PyLEv.checked id now ∈ evs) := by
  rw [← whoOf_eq]
  have hk := (linv h).known id msgs cid st hs
  cases hc : s.cbs id with
  | none =>
    obtain ⟨a1, a2, a3⟩ := hk.done hc
    exact ⟨by rw [a2], fun _ => a2, fun _ => a3⟩
  | some c =>
    obtain ⟨a1, a2, a3, a4, a5, a6⟩ := hk.run c hc
    refine ⟨⟨_, a4⟩, fun h => absurd h a1, fun hne => ?_⟩
    cases hch : c.checked with
    | false => exact absurd (a5 hch) hne
    | true => exact a6 hch

omit [Rigid X] in
theorem mem_setsBy {id : Nat} {m : Msg X} {a : Name} {st : Bool} : ∀ {evs : List (PyLEv X)},
    PyLEv.did id (.set m a st) ∈ evs → Op.set m a st ∈ setsBy id evs := by
  intro evs
  induction evs with
  | nil => intro h; cases h
  | cons e r ih =>
    intro h
    rcases List.mem_cons.1 h with h | h
    · subst h
      simp [setsBy]
    · have := ih h
      cases e with
      | did j op =>
        cases op with
        | set m' a' s' =>
          simp only [setsBy]
          split
          · exact List.mem_cons_of_mem _ this
          · exact this
        | clear => exact this
      | _ => exact this

/-- **C69.** And nothing is made up: every transform the listener offered was in a message it received. -/
theorem C69_nothing_else {D : Duration} {now : Time} {ops : List (PyLOp X)} {s : PyListener X} {evs : List (PyLEv X)}
    (h : pyHistory fl D now ops = some (s, evs)) {id : Nat} {m : Msg X} {a : Name} {st : Bool}
    (hd : PyLEv.did id (.set m a st) ∈ evs) :
    ∃ msgs cid, PyLEv.started id msgs cid st ∈ evs ∧ m ∈ msgs ∧ a = publisherName cid := by
  have hl := linv h
  have hmem := mem_setsBy hd
  have hlt : id < s.next := by
    by_contra hge
    rw [(hl.fresh id (not_lt.1 hge)).2.1] at hmem
    cases hmem
  obtain ⟨msgs, cid, st', hs⟩ := hl.all id hlt
  have := (C69_callback h hs).1.subset hmem
  obtain ⟨m', hm', he⟩ := List.mem_map.1 this
  injection he with e1 e2 e3
  subst e1 e3
  exact ⟨msgs, cid, hs, hm', e2.symm⟩

/-! ### One message at a time -/

theorem store_all {id : Nat} {who : Name} {st : Bool} {r : List (PyLOp X)} {x : PyListener X × List (PyLEv X)} :
    ∀ (ms : List (Msg X)) {s : PyListener X} {evs : List (PyLEv X)},
      s.cbs id = some { checked := true, rest := ms, who := who, isStatic := st } →
      PyListener.run fl (List.replicate (ms.length + 1) (.store id) ++ r) s evs = some x →
      ∃ s1 e1, PyListener.run fl r s1 (evs ++ e1) = some x ∧ s1.next = s.next ∧ s1.last = s.last ∧
        pyCalls e1 = ms.map (fun m => .set m who st) := by
  intro ms
  induction ms with
  | nil =>
    intro s evs hc h
    have e : s.step fl (.store id) = some ({ s with cbs := s.update id none }, [.finished id]) := by
      unfold PyListener.step
      dsimp only
      rw [hc]
      rfl
    have h' : PyListener.run fl (.store id :: r) s evs = some x := h
    unfold PyListener.run at h'
    rw [e] at h'
    exact ⟨_, _, h', rfl, rfl, rfl⟩
  | cons m ms ih =>
    intro s evs hc h
    have h' : PyListener.run fl (.store id :: (List.replicate (ms.length + 1) (.store id) ++ r)) s evs = some x := h
    unfold PyListener.run at h'
    cases hb : stepCore fl s.buf (.set m who st) with
    | none =>
      have e : s.step fl (.store id) = none := by
        unfold PyListener.step
        dsimp only
        rw [hc]
        unfold PyListener.store
        dsimp only
        rw [if_pos rfl, hb]
      rw [e] at h'
      cases h'
    | some b =>
      have e : s.step fl (.store id) = some ({ s with buf := b, cbs := s.update id (some
          { checked := true, rest := ms, who := who, isStatic := st }) }, [.did id (.set m who st)]) := by
        unfold PyListener.step
        dsimp only
        rw [hc]
        unfold PyListener.store
        dsimp only
        rw [if_pos rfl, hb]
      rw [e] at h'
      obtain ⟨s1, e1, h1, h2, h3, h4⟩ := ih (if_pos rfl) h'
      refine ⟨s1, _, by rw [← List.append_assoc]; exact h1, h2, h3, ?_⟩
      rw [pyCalls_append, h4]
      rfl

theorem handle_one {d : Time × List (Msg X) × Option Name × Bool} {r : List (PyLOp X)}
    {x : PyListener X × List (PyLEv X)} {s : PyListener X} {evs : List (PyLEv X)}
    (h : PyListener.run fl (handle s.next d ++ r) s evs = some x) :
    ∃ s1 e1, PyListener.run fl r s1 (evs ++ e1) = some x ∧ s1.next = s.next + 1 ∧ s1.last = d.1 ∧
      (pyCalls e1).map asROp = callsOf s.last d.1 d.2.1 (whoOf d.2.2.1) d.2.2.2 := by
  obtain ⟨now, msgs, cid, st⟩ := d
  have h1 : PyListener.run fl (.receive msgs cid st :: .check s.next now ::
      (List.replicate (msgs.length + 1) (.store s.next) ++ r)) s evs = some x := h
  unfold PyListener.run at h1
  have e1 : s.step fl (.receive msgs cid st) = some ({ s with next := s.next + 1, cbs := s.update s.next (some
      { checked := false, rest := msgs, who := whoOf cid, isStatic := st }) }, [.started s.next msgs cid st]) := rfl
  rw [e1] at h1
  dsimp only at h1
  unfold PyListener.run at h1
  unfold PyListener.step at h1
  dsimp only at h1
  have hc : ∀ (s' : PyListener X) (c : PyCb X), s'.update s.next (some c) s.next = some c := fun s' c => if_pos rfl
  rw [hc] at h1
  dsimp only at h1
  rw [if_neg (by simp)] at h1
  unfold PyListener.check at h1
  dsimp only at h1
  by_cases hl : now < s.last
  · simp only [if_pos hl] at h1
    obtain ⟨s1, e, h2, h3, h4, h5⟩ := store_all (who := whoOf cid) (st := st) msgs (if_pos rfl) h1
    refine ⟨s1, _, by rw [← List.append_assoc, ← List.append_assoc]; exact h2, h3, h4, ?_⟩
    rw [pyCalls_append, pyCalls_append, h5]
    simp [pyCalls, callsOf, hl, asROp, Function.comp_def]
  · simp only [if_neg hl] at h1
    obtain ⟨s1, e, h2, h3, h4, h5⟩ := store_all (who := whoOf cid) (st := st) msgs (if_pos rfl) h1
    refine ⟨s1, _, by rw [← List.append_assoc, ← List.append_assoc]; exact h2, h3, h4, ?_⟩
    rw [pyCalls_append, pyCalls_append, h5]
    simp [pyCalls, callsOf, hl, asROp, Function.comp_def]

/-- **C69.** Callbacks that run one after the other make exactly the calls the C++ listener makes for the same messages at
the same times (it compares its first reading with the zero time, the Python listener with the time at which it was
made). -/
theorem C69_one_at_a_time {D : Duration} {now : Time} {ds : List (Time × List (Msg X) × Option Name × Bool)}
    {s : PyListener X} {evs : List (PyLEv X)} (h : pyHistory fl D now (handleAll 0 ds) = some (s, evs)) :
    (pyCalls evs).map asROp = callsDue now (ds.map asReceived) := by
  have key : ∀ (ds : List (Time × List (Msg X) × Option Name × Bool)) {s0 : PyListener X} {evs0 : List (PyLEv X)},
      PyListener.run fl (handleAll s0.next ds) s0 evs0 = some (s, evs) →
      (pyCalls evs).map asROp = (pyCalls evs0).map asROp ++ callsDue s0.last (ds.map asReceived) := by
    intro ds
    induction ds with
    | nil =>
      intro s0 evs0 h
      cases h
      simp [callsDue]
    | cons d r ih =>
      intro s0 evs0 h
      obtain ⟨s1, e1, h1, h2, h3, h4⟩ := handle_one h
      rw [← h2] at h1
      rw [ih h1, pyCalls_append, List.map_append, h4, h3, List.append_assoc]
      rw [whoOf_eq]; rfl
  have := key ds (s0 := PyListener.init D now) (evs0 := []) h
  simp only [pyCalls, List.map_nil, List.nil_append] at this
  exact this

/-! ### Examples and finding -/

/-- A listener made at 100: a dynamic message, a static message after the clock was set back to 5, another dynamic
message. -/
def exDeliveries : List (Time × List (Msg Int) × Option Name × Bool) :=
  [(100, [tmsg ['w'] ['a'] 99 1], some ['p'], false), (5, [tmsg ['w'] ['c'] 0 7], none, true),
   (6, [tmsg ['w'] ['a'] 6 2], some ['p'], false)]

/-- The same callbacks with the first stopped between `check_for_reset` and its loop. -/
def raceOps : List (PyLOp Int) :=
  [.receive [tmsg ['w'] ['a'] 99 1] (some ['p']) false, .check 0 100,
   .receive [tmsg ['w'] ['c'] 0 7] none true, .check 1 5, .store 1, .store 1, .store 0, .store 0,
   .receive [tmsg ['w'] ['a'] 6 2] (some ['p']) false, .check 2 6, .store 2, .store 2]

/-- A call whose stamp passes unchanged and which the buffer answers. -/
theorem stepCore_same {b : Buf Int} {m : Msg Int} {a : Name} {st : Bool} (ht : timeIn fl m.stamp = some m.stamp)
    (h1 : (b.setTransform m a st).2 ≠ .threw) (h2 : (b.setTransform m a st).2 ≠ .ub) :
    stepCore fl b (.set m a st) = some (b.setTransform m a st).1 := by
  unfold stepCore setCore
  dsimp only
  rw [ht]
  have hm : ({ m with stamp := m.stamp } : Msg Int) = m := rfl
  dsimp only
  cases hs : b.setTransform m a st with
  | mk b' r =>
    rw [hs] at h1 h2
    cases r <;> first | rfl | exact absurd rfl h1 | exact absurd rfl h2

theorem exDeliveries_runs (h : IsFl fl) : (pyHistory fl 10 100 (handleAll 0 exDeliveries)).map (fun r =>
    (r.1.buf.canTransform ['w'] ['a'] 6, clearsMade r.2, r.1.buf.canTransform ['c'] ['a'] 6)) =
      some (.ok true, [1], .ok true) := by
  have e : ∀ t, t < 100 → timeIn fl t = some t := fun t ht => small h (by omega)
  let m0 := tmsg ['w'] ['a'] 99 1
  let m1 := tmsg ['w'] ['c'] 0 7
  let m2 := tmsg ['w'] ['a'] 6 2
  let b1 := ((Buf.init 10).setTransform m0 ['p'] false).1
  let b2 := (b1.clear.setTransform m1 (whoOf none) true).1
  have h0 : stepCore fl (Buf.init 10) (.set m0 ['p'] false) = some b1 :=
    stepCore_same (e 99 (by decide)) (by decide +kernel) (by decide +kernel)
  have h1 : stepCore fl b1.clear (.set m1 (whoOf none) true) = some b2 :=
    stepCore_same (e 0 (by decide)) (by decide +kernel) (by decide +kernel)
  have h2 : stepCore fl b2 (.set m2 ['p'] false) = some (b2.setTransform m2 ['p'] false).1 :=
    stepCore_same (e 6 (by decide)) (by decide +kernel) (by decide +kernel)
  have key : ∃ cbs, pyHistory fl 10 100 (handleAll 0 exDeliveries) = some
      ({ buf := (b2.setTransform m2 ['p'] false).1, last := 6, next := 3, cbs := cbs },
      [.started 0 [m0] (some ['p']) false, .checked 0 100, .did 0 (.set m0 ['p'] false), .finished 0,
       .started 1 [m1] none true, .checked 1 5, .did 1 .clear, .did 1 (.set m1 (whoOf none) true), .finished 1,
       .started 2 [m2] (some ['p']) false, .checked 2 6, .did 2 (.set m2 ['p'] false), .finished 2]) := by
    simp [pyHistory, handleAll, handle, exDeliveries, List.replicate, PyListener.run, PyListener.step, PyListener.check,
      PyListener.store, PyListener.update, PyListener.init, show whoOf (some ['p']) = ['p'] from rfl,
      show tmsg ['w'] ['a'] 99 1 = m0 from rfl, show tmsg ['w'] ['c'] 0 7 = m1 from rfl, show tmsg ['w'] ['a'] 6 2 = m2 from rfl,
      h0, h1, h2]
  obtain ⟨cbs, key⟩ := key
  rw [key, Option.map_some]
  dsimp only
  clear key
  decide +kernel

example (h : IsFl fl) : ∃ s evs, pyHistory fl 10 100 (handleAll 0 exDeliveries) = some (s, evs) := by
  have := exDeliveries_runs h
  cases hr : pyHistory fl 10 100 (handleAll 0 exDeliveries) with
  | none => rw [hr] at this; cases this
  | some r => exact ⟨r.1, r.2, rfl⟩

/-- **C69, finding.** A callback that has passed `check_for_reset` can store its transforms after another callback has seen
the clock set back and cleared the buffer. The buffer then holds a transform from the future, all new ones for that
frame are refused as too old, and lookups fail that succeed when the callbacks do not overlap. -/
theorem C69_race_finding (h : IsFl fl) :
    raceOps.Perm (handleAll 0 exDeliveries) ∧
    (pyHistory fl 10 100 raceOps).map (fun r => (r.1.buf.canTransform ['w'] ['a'] 6, clearsMade r.2)) =
      some (.ok false, [1]) ∧
    (pyHistory fl 10 100 (handleAll 0 exDeliveries)).map (fun r => (r.1.buf.canTransform ['w'] ['a'] 6, clearsMade r.2)) =
      some (.ok true, [1]) := by
  have e : ∀ t, t < 100 → timeIn fl t = some t := fun t ht => small h (by omega)
  refine ⟨?_, ?_, ?_⟩
  · refine List.Perm.cons _ (List.Perm.cons _ ?_)
    show List.Perm ([_, _, _, _] ++ [_, _] ++ [_, _, _, _]) ([_, _] ++ [_, _, _, _] ++ [_, _, _, _])
    exact List.Perm.append_right _ List.perm_append_comm
  · let m0 := tmsg ['w'] ['a'] 99 1
    let m1 := tmsg ['w'] ['c'] 0 7
    let m2 := tmsg ['w'] ['a'] 6 2
    let b1 := ((Buf.init 10).clear.setTransform m1 (whoOf none) true).1
    let b2 := (b1.setTransform m0 ['p'] false).1
    have h0 : stepCore fl (Buf.init 10).clear (.set m1 (whoOf none) true) = some b1 :=
      stepCore_same (e 0 (by decide)) (by decide +kernel) (by decide +kernel)
    have h1 : stepCore fl b1 (.set m0 ['p'] false) = some b2 :=
      stepCore_same (e 99 (by decide)) (by decide +kernel) (by decide +kernel)
    have h2 : stepCore fl b2 (.set m2 ['p'] false) = some (b2.setTransform m2 ['p'] false).1 :=
      stepCore_same (e 6 (by decide)) (by decide +kernel) (by decide +kernel)
    have key : ∃ cbs, pyHistory fl 10 100 raceOps = some
      ({ buf := (b2.setTransform m2 ['p'] false).1, last := 6, next := 3, cbs := cbs },
        [.started 0 [m0] (some ['p']) false, .checked 0 100, .started 1 [m1] none true, .checked 1 5, .did 1 .clear,
         .did 1 (.set m1 (whoOf none) true), .finished 1, .did 0 (.set m0 ['p'] false), .finished 0,
         .started 2 [m2] (some ['p']) false, .checked 2 6, .did 2 (.set m2 ['p'] false), .finished 2]) := by
      simp [pyHistory, raceOps, PyListener.run, PyListener.step, PyListener.check,
        PyListener.store, PyListener.update, PyListener.init, show whoOf (some ['p']) = ['p'] from rfl,
        show tmsg ['w'] ['a'] 99 1 = m0 from rfl, show tmsg ['w'] ['c'] 0 7 = m1 from rfl, show tmsg ['w'] ['a'] 6 2 = m2 from rfl,
        h0, h1, h2]
    obtain ⟨cbs, key⟩ := key
    rw [key, Option.map_some]
    dsimp only
    clear key
    decide +kernel
  · have := exDeliveries_runs h
    cases hr : pyHistory fl 10 100 (handleAll 0 exDeliveries) with
    | none => rw [hr] at this; cases this
    | some r =>
      rw [hr] at this
      simp only [Option.map_some, Option.some.injEq, Prod.mk.injEq] at this ⊢
      exact ⟨this.1, this.2.1⟩

end Tf2.Py
