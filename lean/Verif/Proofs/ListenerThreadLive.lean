import Verif.Proofs.ListenerThreadEnd

/-!
# Lemmas: no message waits for ever
-/
namespace Tf2.Spin

variable {X : Type}

/-- How many messages of a topic are past. -/
def past (st : Bool) (evs : List (Ev X)) : Nat := (handled st evs).length + (dropped st evs).length

theorem past_append (st : Bool) (a c : List (Ev X)) : past st (a ++ c) = past st a + past st c := by
  unfold past; rw [handled_append, dropped_append]; simp; omega

/-- Steps left after a step. -/
def left (op : Op X) (n : Nat) : Nat :=
  match op with
  | .thread _ => n - 1
  | _ => n

/-- Steps of the thread until the entries of the callback queue have been worked off. -/
def rank (L Q : Nat) (s : St X) : Nat :=
  match s.phase with
  | .calling => curCost s + s.batch.length * (L + 2) + 3 + Q
  | .test => 2 + Q
  | _ => 1 + Q

/-- At most `n` more steps of the thread and `A` messages of the topic are past, unless the thread ends. -/
inductive Due (A : Nat) (st : Bool) (L Q : Nat) (n : Nat) (s : St X) (evs : List (Ev X)) : Prop where
  | past (h : A ≤ past st evs)
  | over (h : s.keep = false ∨ s.phase = .crashed)
  | batch (old new : List Bool) (hp : s.phase = .calling) (hb : s.batch = old ++ new)
      (h : A ≤ Spin.past st evs + old.count st) (hn : curCost s + s.batch.length * (L + 2) ≤ n)
  | queue (old new : List Bool) (hp : s.phase ≠ .ended) (hq : s.queue = old ++ new)
      (h : A ≤ Spin.past st evs + s.batch.count st + old.count st) (hn : rank L Q s ≤ n)

theorem past_did [Rigid X] (l : Listener X) (op : LOp X) (st : Bool) (h : ∀ now ms a st', op = .receive now ms a st' → False) :
    past st ((l.step op).2.map .did) = 0 := by
  unfold past
  rw [handled_step, dropped_did]
  cases op with
  | receive now ms a st' => exact (h _ _ _ _ rfl).elim
  | apply => rfl
  | other op => rfl

theorem Due.step [Rigid X] {D : Duration} {A L Q n : Nat} {st : Bool} {s : St X} {evs : List (Ev X)} (h : Inv D s evs)
    (hs : Small L s) (hQ : 200 * (L + 2) ≤ Q) (op : Op X) (hd : Due A st L Q n s evs) :
    Due A st L Q (left op n) (s.step op).1 (evs ++ (s.step op).2) := by
  cases hd with
  | past h => exact .past (by rw [past_append]; omega)
  | over h' =>
    refine .over ?_
    rcases h' with h' | h'
    · exact .inl (cost_step h hs h' op).1
    · right
      have ho := sout s op
      generalize s.step op = x at ho ⊢
      cases ho <;> simp_all
  | batch old new hp hb hA hn =>
    have ho := sout s op
    generalize s.step op = x at ho ⊢
    have hx (e : ∀ now, op = .thread now → False) : (left op n) = n := by
      unfold left; split <;> first | rfl | exact (e _ rfl).elim
    cases ho with
    | nothing _ hop =>
      rw [hx fun now e => by have := hop now e; rw [hp] at this; rcases this with x | x <;> cases x]
      simp only [List.append_nil]
      exact .batch old new hp hb hA hn
    | @full st' p q qs ho hp' hw hl =>
      refine .batch old new (by simpa using hp) (by simpa using hb) ?_ ?_
      · rw [past_append]; omega
      · simpa [curCost, left] using hn
    | @push st' p ho hp' hl =>
      refine .batch old new (by simpa using hp) (by simpa using hb) ?_ ?_
      · rw [past_append]; omega
      · simpa [curCost, left] using hn
    | go hp' => rw [hp] at hp'; cases hp'
    | stop hp' => rw [hp] at hp'; cases hp'
    | timeout hp' => rw [hp] at hp'; cases hp'
    | grab hp' => rw [hp] at hp'; cases hp'
    | @work now c hp' hc =>
      have hw := work_cost s c hc
      rcases after_phase s (s.lis.step .apply) with e | e
      · refine .batch old new (e.trans hp) hb ?_ ?_
        · rw [past_append]; omega
        · show curCost (s.after (s.lis.step .apply)).1 + s.batch.length * (L + 2) ≤ n - 1
          omega
      · exact .over (.inr e)
    | done hp' hc hb' =>
      rw [hb'] at hb
      have : old = [] := (List.append_eq_nil_iff.1 hb.symm).1
      subst this
      exact .past (by simpa using hA)
    | @blank now st' r hp' hc hb' hw =>
      exfalso
      have := h.tokens st'
      rw [hb', hw] at this
      simp at this
    | @call now st' r p ps hp' hc hb' hw =>
      have hpl := hs.waiting st' p (by rw [hw]; exact List.mem_cons_self)
      have hcc := call_cost s ({ s with batch := r }.setWaiting st' ps) L now p.msgs p.auth st' hpl hc
      rcases after_phase ({ s with batch := r }.setWaiting st' ps) (s.lis.step (.receive now p.msgs p.auth st')) with e | e
      · cases old with
        | nil => exact .past (by rw [past_append]; simp at hA; omega)
        | cons o old =>
          rw [hb'] at hb
          injection hb with h1 h2
          subst h1
          refine .batch old new (by rw [e]; simpa using hp) (by simpa [St.after] using h2) ?_ ?_
          · rw [past_append]
            have : Spin.past st (({ s with batch := r }.setWaiting st' ps).after (s.lis.step (.receive now p.msgs p.auth st'))).2 =
                if st' = st then 1 else 0 := by
              unfold St.after Spin.past
              dsimp only
              rw [handled_step, dropped_did]
              simp only [hc, true_and]
              split <;> rfl
            rw [this]
            rw [List.count_cons] at hA
            by_cases x : st' = st
            · subst x; simp at hA ⊢; omega
            · simp [x] at hA ⊢; omega
          · have e2 : (({ s with batch := r }.setWaiting st' ps).after (s.lis.step (.receive now p.msgs p.auth st'))).1.batch = r := by
              simp [St.after]
            rw [e2]
            rw [hb'] at hn
            rw [List.length_cons, Nat.add_mul, Nat.one_mul] at hn
            show _ ≤ n - 1
            omega
      · exact .over (.inr e)
    | ready ho hp' =>
      exact .batch old new hp hb (by rw [past_append]; omega) hn
    | destroy ho hp' => exact .over (.inl rfl)
    | join ho hp' => rw [hp] at hp'; cases hp'
    | @other op hp' =>
      exact .batch old new hp hb (by rw [past_append]; omega) hn
  | queue old new hp hq hA hn =>
    have ho := sout s op
    generalize s.step op = x at ho ⊢
    have hx (e : ∀ now, op = .thread now → False) : (left op n) = n := by
      unfold left; split <;> first | rfl | exact (e _ rfl).elim
    cases ho with
    | nothing _ hop =>
      by_cases hc : s.phase = .crashed
      · exact .over (.inr hc)
      rw [hx fun now e => by have := hop now e; rcases this with x | x; exact hp x; exact hc x]
      simp only [List.append_nil]
      exact .queue old new hp hq hA hn
    | @full st' p q qs ho hp' hw hl =>
      refine .queue old new (by simpa using hp) (by simpa using hq) ?_ ?_
      · rw [past_append, setWaiting_batch]; omega
      · simpa [rank, curCost, left] using hn
    | @push st' p ho hp' hl =>
      refine .queue old (new ++ [st']) (by simpa using hp) (by simp [hq]) ?_ ?_
      · rw [past_append]; simp; omega
      · simpa [rank, curCost, left] using hn
    | @go now hp' hk =>
      refine .queue old new (fun e => by cases e) hq ?_ ?_
      · rw [past_append]; dsimp only; omega
      · simp [rank, hp', left] at hn ⊢; omega
    | stop hp' hk => exact .over (.inl hk)
    | timeout hp' hq' =>
      rw [hq'] at hq
      have h1 : old = [] := (List.append_eq_nil_iff.1 hq.symm).1
      have h2 : s.batch = [] := by
        cases e : s.batch with
        | nil => rfl
        | cons a r =>
          have := h.batch (by rw [e]; exact fun x => by cases x)
          rw [hp'] at this; rcases this with x | x <;> cases x
      subst h1
      exact .past (by rw [h2] at hA; simpa using hA)
    | @grab now hp' =>
      have h2 : s.batch = [] := by
        cases e : s.batch with
        | nil => rfl
        | cons a r =>
          have := h.batch (by rw [e]; exact fun x => by cases x)
          rw [hp'] at this; rcases this with x | x <;> cases x
      have hc : s.lis.cur = none := by
        cases hc : s.lis.cur with
        | none => rfl
        | some c => have := h.cur (by rw [hc]; exact fun e => by cases e); rw [hp'] at this; cases this
      have h1 := h.len
      have h3 : s.queue.length * (L + 2) ≤ 200 * (L + 2) := Nat.mul_le_mul_right _ (by omega)
      refine .batch old new rfl hq ?_ ?_
      · rw [past_append]; rw [h2] at hA; simp at hA ⊢; omega
      · simp [rank, curCost, hp', hc, left] at hn ⊢; omega
    | @work now c hp' hc =>
      have hw := work_cost s c hc
      rcases after_phase s (s.lis.step .apply) with e | e
      · refine .queue old new (by rw [e]; exact hp) hq ?_ ?_
        · rw [past_append]; show A ≤ _ + _ + s.batch.count st + _; omega
        · unfold rank at hn ⊢
          rw [e, hp']
          rw [hp'] at hn
          show curCost (s.after (s.lis.step .apply)).1 + s.batch.length * (L + 2) + 3 + Q ≤ n - 1
          dsimp only at hn
          omega
      · exact .over (.inr e)
    | done hp' hc hb' =>
      refine .queue old new (fun e => by cases e) hq ?_ ?_
      · rw [past_append]; dsimp only; omega
      · simp [rank, curCost, hp', hc, hb', left] at hn ⊢; omega
    | @blank now st' r hp' hc hb' hw =>
      exfalso
      have := h.tokens st'
      rw [hb', hw] at this
      simp at this
    | @call now st' r p ps hp' hc hb' hw =>
      have hpl := hs.waiting st' p (by rw [hw]; exact List.mem_cons_self)
      have hcc := call_cost s ({ s with batch := r }.setWaiting st' ps) L now p.msgs p.auth st' hpl hc
      have e2 : (({ s with batch := r }.setWaiting st' ps).after (s.lis.step (.receive now p.msgs p.auth st'))).1.batch = r := by
        simp [St.after]
      rcases after_phase ({ s with batch := r }.setWaiting st' ps) (s.lis.step (.receive now p.msgs p.auth st')) with e | e
      · refine .queue old new (by rw [e]; simpa using hp) (by simpa [St.after] using hq) ?_ ?_
        · rw [past_append]
          have : Spin.past st (({ s with batch := r }.setWaiting st' ps).after (s.lis.step (.receive now p.msgs p.auth st'))).2 =
              if st' = st then 1 else 0 := by
            unfold St.after Spin.past
            dsimp only
            rw [handled_step, dropped_did]
            simp only [hc, true_and]
            split <;> rfl
          rw [this, e2]
          rw [hb', List.count_cons] at hA
          by_cases x : st' = st
          · subst x; simp at hA ⊢; omega
          · simp [x] at hA ⊢; omega
        · have hr : rank L Q (({ s with batch := r }.setWaiting st' ps).after (s.lis.step (.receive now p.msgs p.auth st'))).1 =
              curCost (({ s with batch := r }.setWaiting st' ps).after (s.lis.step (.receive now p.msgs p.auth st'))).1 +
                r.length * (L + 2) + 3 + Q := by
            unfold rank
            rw [e, setWaiting_phase]
            simp only [hp']
            rw [hp'] at e2
            rw [e2]
          rw [hr]
          simp only [rank, curCost, hp', hc, hb'] at hn
          rw [List.length_cons, Nat.add_mul, Nat.one_mul] at hn
          show _ ≤ n - 1
          omega
      · exact .over (.inr e)
    | ready ho hp' => exact .queue old new hp hq (by rw [past_append]; dsimp only; omega) hn
    | destroy ho hp' => exact .over (.inl rfl)
    | join ho hp' => exact absurd hp' hp
    | @other op hp' => exact .queue old new hp hq (by rw [past_append]; dsimp only; omega) hn

theorem Due.run [Rigid X] {D : Duration} {A L Q n : Nat} {st : Bool} (ops : List (Op X)) {s : St X} {evs : List (Ev X)}
    (h : Inv D s evs) (hs : Small L s) (hQ : 200 * (L + 2) ≤ Q) (hops : SmallOps L ops) (hd : Due A st L Q n s evs) :
    Due A st L Q (n - threadSteps ops) (St.run ops s).1 (evs ++ (St.run ops s).2) := by
  induction ops generalizing s evs n with
  | nil => simpa [St.run, threadSteps] using hd
  | cons op r ih =>
    have hr : SmallOps L r := fun st p hp => hops st p (List.mem_cons_of_mem _ hp)
    have hs' := hs.step op (fun st p e => hops st p (by rw [e]; exact List.mem_cons_self))
    have := ih (h.step op) hs' hr (hd.step h hs hQ op)
    simp only [St.run]
    rw [← List.append_assoc]
    cases op with
    | thread now =>
      simp only [threadSteps]
      have e : n - (threadSteps r + 1) = n - 1 - threadSteps r := by omega
      rw [e]; exact this
    | _ => simpa only [threadSteps, left] using this

theorem Due.zero {A L Q : Nat} {st : Bool} {s : St X} {evs : List (Ev X)} (hd : Due A st L Q 0 s evs)
    (hk : s.keep = true) (hc : s.phase ≠ .crashed) : A ≤ Spin.past st evs := by
  cases hd with
  | past h => exact h
  | over h => rcases h with h | h; · rw [hk] at h; cases h
              · exact absurd h hc
  | batch old new hp hb hA hn =>
    have : s.batch = [] := by
      cases hb' : s.batch with
      | nil => rfl
      | cons a r => rw [hb', List.length_cons, Nat.add_mul, Nat.one_mul] at hn; omega
    rw [this] at hb
    have : old = [] := (List.append_eq_nil_iff.1 hb.symm).1
    subst this
    simpa using hA
  | queue old new hp hq hA hn =>
    unfold rank at hn
    split at hn <;> omega

theorem due_start [Rigid X] {D : Duration} {L : Nat} {s : St X} {evs : List (Ev X)} (h : Inv D s evs) (hs : Small L s)
    (st : Bool) (hng : s.owner ≠ .gone) : Due (arrived st evs).length st L (200 * (L + 2)) (401 * (L + 2) + 3) s evs := by
  by_cases hk : s.keep = false
  · exact .over (.inl hk)
  by_cases hp : s.phase = .ended
  · exact .over (.inl (h.ended hp))
  refine .queue s.queue [] hp (by simp) ?_ ?_
  · obtain ⟨rest, ⟨front, h1, h2, -, -⟩, h3, h4⟩ := h.flow st
    have := h.tokens st
    rw [h1, List.length_append, h2.length_eq, h4 hng, List.length_append]
    unfold past; omega
  · have h1 := h.len
    have h2 := hs.curCost_le
    have h3 : s.batch.length * (L + 2) ≤ 200 * (L + 2) := Nat.mul_le_mul_right _ (by omega)
    unfold rank
    split <;> omega

end Tf2.Spin
