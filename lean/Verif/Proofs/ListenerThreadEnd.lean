import Verif.Proofs.ListenerThread

/-!
# Lemmas: the thread of a listener gets through its messages and ends
-/
namespace Tf2.Spin

variable {X : Type}

/-- All messages have at most `L` transforms. -/
structure Small (L : Nat) (s : St X) : Prop where
  waiting : ∀ st, ∀ p ∈ s.waiting st, p.msgs.length ≤ L
  cur : ∀ c, s.lis.cur = some c → c.1.length ≤ L

/-- The arrivals of a history have at most `L` transforms. -/
def SmallOps (L : Nat) (ops : List (Op X)) : Prop := ∀ st p, Op.arrive st p ∈ ops → p.msgs.length ≤ L

theorem step_len [Rigid X] (l : Listener X) (op : LOp X) (L : Nat) (hcur : ∀ c, l.cur = some c → c.1.length ≤ L)
    (hop : ∀ now ms a st, op = .receive now ms a st → ms.length ≤ L) :
    ∀ c, (l.step op).1.cur = some c → c.1.length ≤ L := by
  have := lout l op
  generalize l.step op = x at this ⊢
  intro c hc
  cases this with
  | busy h => exact hcur c hc
  | range h h1 h2 => exact hcur c hc
  | jump h h1 => cases hc; exact hop _ _ _ _ rfl
  | plain h h1 => cases hc; exact hop _ _ _ _ rfl
  | idle h => exact hcur c hc
  | finish h => cases hc
  | escape h h1 => cases hc
  | set h h1 => cases hc; have := hcur _ h; simp at this; dsimp only; omega
  | other => exact hcur c hc

theorem Small.step [Rigid X] {L : Nat} {s : St X} (h : Small L s) (op : Op X)
    (hop : ∀ st p, op = .arrive st p → p.msgs.length ≤ L) : Small L (s.step op).1 := by
  have ho := sout s op
  generalize s.step op = x at ho ⊢
  cases ho with
  | nothing => exact h
  | @full st p q qs ho hp hw hl =>
    refine ⟨fun st' p' hp' => ?_, by simpa using h.cur⟩
    rw [setWaiting_waiting] at hp'
    split at hp'
    · rw [List.mem_append, List.mem_singleton] at hp'
      rcases hp' with hp' | rfl
      · exact h.waiting st p' (by rw [hw]; exact List.mem_cons_of_mem _ hp')
      · exact hop _ _ rfl
    · exact h.waiting _ _ hp'
  | @push st p ho hp hl =>
    refine ⟨fun st' p' hp' => ?_, by simpa using h.cur⟩
    have hp' : p' ∈ (s.setWaiting st (s.waiting st ++ [p])).waiting st' := hp'
    rw [setWaiting_waiting] at hp'
    split at hp'
    · rw [List.mem_append, List.mem_singleton] at hp'
      rcases hp' with hp' | rfl
      · exact h.waiting st p' hp'
      · exact hop _ _ rfl
    · exact h.waiting _ _ hp'
  | @work now c hp hc =>
    exact ⟨h.waiting, step_len _ _ L h.cur (fun _ _ _ _ e => by cases e)⟩
  | @call now st r p ps hp hc hb hw =>
    refine ⟨fun st' p' hp' => ?_, step_len _ _ L h.cur (fun _ _ _ _ e => ?_)⟩
    · have hp' : p' ∈ ({ s with batch := r }.setWaiting st ps).waiting st' := hp'
      rw [setWaiting_waiting] at hp'
      split at hp'
      · exact h.waiting st p' (by rw [hw]; exact List.mem_cons_of_mem _ hp')
      · exact h.waiting st' p' hp'
    · cases e
      exact h.waiting st p (by rw [hw]; exact List.mem_cons_self)
  | join ho hp => exact ⟨fun st p hp => (by cases st <;> cases hp), h.cur⟩
  | @other op hp => exact ⟨h.waiting, step_len _ _ L h.cur (fun _ _ _ _ e => by cases e)⟩
  | _ => exact ⟨h.waiting, h.cur⟩

theorem small_history [Rigid X] (D : Duration) (L : Nat) (ops : List (Op X)) (h : SmallOps L ops) :
    Small L (history D ops).1 := by
  induction ops using snoc_cases with
  | h0 => exact ⟨fun st p hp => (by cases st <;> cases hp), fun c hc => (by cases hc)⟩
  | h1 l a ih =>
    rw [history_snoc]
    refine (ih fun st p hp => h st p (List.mem_append_left _ hp)).step a fun st p e => ?_
    subst e
    exact h st p (by simp)

theorem count_bool (l : List Bool) : l.count true + l.count false = l.length := by
  induction l with
  | nil => rfl
  | cons a r ih => cases a <;> simp [List.count_cons] <;> omega

theorem Inv.len [Rigid X] {D : Duration} {s : St X} {evs : List (Ev X)} (h : Inv D s evs) :
    s.queue.length + s.batch.length ≤ 200 := by
  have h1 := h.tokens true
  have h2 := h.tokens false
  have h3 := h.size true
  have h4 := h.size false
  have h5 := count_bool s.queue
  have h6 := count_bool s.batch
  unfold queueSize at h3 h4
  omega

/-- Steps left for the message being handled. -/
def curCost (s : St X) : Nat :=
  match s.lis.cur with
  | none => 0
  | some c => c.1.length + 1

theorem Small.curCost_le {L : Nat} {s : St X} (h : Small L s) : curCost s ≤ L + 1 := by
  unfold curCost
  split
  · omega
  · rename_i c hc; have := h.cur c hc; omega

/-- A piece of the callback takes one step off. -/
theorem work_cost [Rigid X] (s : St X) (c) (hc : s.lis.cur = some c) :
    curCost (s.after (s.lis.step .apply)).1 + 1 ≤ curCost s := by
  have := lout s.lis .apply
  have e : curCost (s.after (s.lis.step .apply)).1 = match (s.lis.step .apply).1.cur with
    | none => 0
    | some c => c.1.length + 1 := rfl
  rw [e]
  unfold curCost
  generalize s.lis.step .apply = x at this ⊢
  cases this with
  | idle h => rw [hc] at h; cases h
  | finish h => rw [h]; simp
  | escape h h1 => rw [h]; simp
  | set h h1 => rw [h]; simp

/-- Starting a callback. -/
theorem call_cost [Rigid X] (s s1 : St X) (L : Nat) (now : Time) (ms : List (Msg X)) (a : Name) (st : Bool)
    (hl : ms.length ≤ L) (hc : s.lis.cur = none) :
    curCost (s1.after (s.lis.step (.receive now ms a st))).1 ≤ L + 1 := by
  have := lout s.lis (.receive now ms a st)
  have e : curCost (s1.after (s.lis.step (.receive now ms a st))).1 =
    match (s.lis.step (.receive now ms a st)).1.cur with
    | none => 0
    | some c => c.1.length + 1 := rfl
  rw [e]
  generalize s.lis.step (.receive now ms a st) = x at this ⊢
  cases this with
  | busy h => rw [hc] at h; cases h
  | range h h1 h2 => simp [hc]
  | jump h h1 => simp; omega
  | plain h h1 => simp; omega

/-- Steps of the thread until it ends, once it has been told to. -/
def cost (L : Nat) (s : St X) : Nat :=
  match s.phase with
  | .ended => 0
  | .crashed => 0
  | .test => 1
  | .grab => 3 + 200 * (L + 2)
  | .calling => curCost s + s.batch.length * (L + 2) + 2

theorem after_phase (s : St X) (r : Listener X × List (LEv X)) :
    (s.after r).1.phase = s.phase ∨ (s.after r).1.phase = .crashed := by
  unfold St.after
  dsimp only
  split
  · exact .inr rfl
  · exact .inl rfl

theorem cost_le [Rigid X] {D : Duration} {L : Nat} {s : St X} {evs : List (Ev X)} (h : Inv D s evs) (hs : Small L s) :
    cost L s ≤ 201 * (L + 2) + 1 := by
  unfold cost
  have h1 := h.len
  have h2 := hs.curCost_le
  have h3 : s.batch.length * (L + 2) ≤ 200 * (L + 2) := Nat.mul_le_mul_right _ (by omega)
  cases s.phase <;> dsimp only <;> omega

theorem cost_step [Rigid X] {D : Duration} {L : Nat} {s : St X} {evs : List (Ev X)} (h : Inv D s evs) (hs : Small L s)
    (hk : s.keep = false) (op : Op X) :
    (s.step op).1.keep = false ∧
    (s.phase = .ended ∨ s.phase = .crashed → (s.step op).1.phase = s.phase) ∧
    (cost L (s.step op).1 ≤ cost L s) ∧
    ((∃ now, op = .thread now) → cost L (s.step op).1 + 1 ≤ cost L s ∨ s.phase = .ended ∨ s.phase = .crashed) := by
  have ho := sout s op
  have hx : ∀ x, s.step op = x → SOut s op x := fun x e => e ▸ ho
  cases hsx : s.step op with
  | mk t es =>
  replace hx := hx _ hsx
  cases hx with
  | nothing _ hop => exact ⟨hk, fun _ => rfl, Nat.le_refl _, fun ⟨now, e⟩ => .inr (hop now e)⟩
  | @full st p q qs ho hp hw hl =>
    refine ⟨by simpa using hk, fun _ => by simp, ?_, fun ⟨_, e⟩ => by cases e⟩
    unfold cost curCost; simp
  | @push st p ho hp hl =>
    refine ⟨by simpa using hk, fun _ => by simp, ?_, fun ⟨_, e⟩ => by cases e⟩
    unfold cost curCost; simp
  | go hp hk' => rw [hk] at hk'; cases hk'
  | stop hp hk' =>
    refine ⟨hk, fun e => ?_, ?_, fun _ => .inl ?_⟩
    · rw [hp] at e; rcases e with e | e <;> cases e
    · unfold cost; simp [hp]
    · unfold cost; simp [hp]
  | timeout hp hq =>
    refine ⟨hk, fun e => ?_, ?_, fun _ => .inl ?_⟩
    · rw [hp] at e; rcases e with e | e <;> cases e
    · unfold cost; simp [hp]; omega
    · unfold cost; simp [hp]; omega
  | grab hp =>
    have hc : s.lis.cur = none := by
      cases hc : s.lis.cur with
      | none => rfl
      | some c => have := h.cur (by rw [hc]; exact fun e => by cases e); rw [hp] at this; cases this
    have h1 := h.len
    have h3 : s.queue.length * (L + 2) ≤ 200 * (L + 2) := Nat.mul_le_mul_right _ (by omega)
    refine ⟨hk, fun e => ?_, ?_, fun _ => .inl ?_⟩
    · rw [hp] at e; rcases e with e | e <;> cases e
    · unfold cost curCost; simp [hp, hc]; omega
    · unfold cost curCost; simp [hp, hc]; omega
  | @work now c hp hc =>
    have hw := work_cost s c hc
    have hle : cost L (s.after (s.lis.step .apply)).1 + 1 ≤ cost L s := by
      rcases after_phase s (s.lis.step .apply) with e | e
      · unfold cost
        rw [e, hp]
        dsimp only
        have : (s.after (s.lis.step .apply)).1.batch = s.batch := rfl
        rw [this]; omega
      · unfold cost
        rw [e, hp]
        dsimp only; omega
    refine ⟨hk, fun e => ?_, Nat.le_of_succ_le hle, fun _ => .inl hle⟩
    rw [hp] at e; rcases e with e | e <;> cases e
  | done hp hc hb =>
    refine ⟨hk, fun e => ?_, ?_, fun _ => .inl ?_⟩
    · rw [hp] at e; rcases e with e | e <;> cases e
    · unfold cost curCost; simp [hp, hc, hb]
    · unfold cost curCost; simp [hp, hc, hb]
  | @blank now st r hp hc hb hw =>
    exfalso
    have := h.tokens st
    rw [hb, hw] at this
    simp at this
  | @call now st r p ps hp hc hb hw =>
    have hpl := hs.waiting st p (by rw [hw]; exact List.mem_cons_self)
    have hcc := call_cost s ({ s with batch := r }.setWaiting st ps) L now p.msgs p.auth st hpl hc
    have hle : cost L (({ s with batch := r }.setWaiting st ps).after (s.lis.step (.receive now p.msgs p.auth st))).1 + 1
        ≤ cost L s := by
      have hs0 : cost L s = (r.length + 1) * (L + 2) + 2 := by
        unfold cost curCost; simp [hp, hc, hb]
      rw [hs0, Nat.add_mul, Nat.one_mul]
      rcases after_phase ({ s with batch := r }.setWaiting st ps) (s.lis.step (.receive now p.msgs p.auth st)) with e | e
      · unfold cost
        rw [e, setWaiting_phase]
        simp only [hp]
        rw [hp] at hcc
        have : (({ s with batch := r, phase := .calling }.setWaiting st ps).after (s.lis.step (.receive now p.msgs p.auth st))).1.batch = r := by
          simp [St.after]
        rw [this]; omega
      · unfold cost
        rw [e]
        dsimp only; omega
    refine ⟨by simpa [St.after] using hk, fun e => ?_, Nat.le_of_succ_le hle, fun _ => .inl hle⟩
    rw [hp] at e; rcases e with e | e <;> cases e
  | ready ho hp => exact ⟨hk, fun _ => rfl, Nat.le_refl _, fun ⟨_, e⟩ => by cases e⟩
  | destroy ho hp => exact ⟨rfl, fun _ => rfl, Nat.le_refl _, fun ⟨_, e⟩ => by cases e⟩
  | join ho hp =>
    refine ⟨hk, fun _ => rfl, ?_, fun ⟨_, e⟩ => by cases e⟩
    unfold cost; simp [hp]
  | other hp => exact ⟨hk, fun _ => rfl, Nat.le_refl _, fun ⟨_, e⟩ => by cases e⟩

/-- Once told to stop the thread ends within its cost. -/
theorem thread_ends [Rigid X] {D : Duration} {L : Nat} (ops : List (Op X)) {s : St X} {evs : List (Ev X)}
    (h : Inv D s evs) (hs : Small L s) (hk : s.keep = false) (hops : SmallOps L ops) :
    (St.run ops s).1.phase = .ended ∨ (St.run ops s).1.phase = .crashed ∨
      cost L (St.run ops s).1 + threadSteps ops ≤ cost L s := by
  induction ops generalizing s evs with
  | nil => exact .inr (.inr (by simp [St.run, threadSteps]))
  | cons op r ih =>
    obtain ⟨k1, k2, k3, k4⟩ := cost_step h hs hk op
    have hr : SmallOps L r := fun st p hp => hops st p (List.mem_cons_of_mem _ hp)
    have hs' := hs.step op (fun st p e => hops st p (by rw [e]; exact List.mem_cons_self))
    have ih' := ih (h.step op) hs' k1 hr
    simp only [St.run]
    have stays : ∀ (l : List (Op X)) (t : St X) (es : List (Ev X)), Inv D t es → Small L t → t.keep = false →
        SmallOps L l → (t.phase = .ended ∨ t.phase = .crashed) → (St.run l t).1.phase = t.phase := by
      intro l
      induction l with
      | nil => intros; rfl
      | cons o l ihl =>
        intro t es i1 i2 i3 i4 i5
        obtain ⟨c1, c2, -, -⟩ := cost_step i1 i2 i3 o
        simp only [St.run]
        rw [ihl _ _ (i1.step o) (i2.step o (fun st p e => i4 st p (by rw [e]; exact List.mem_cons_self))) c1
          (fun st p hp => i4 st p (List.mem_cons_of_mem _ hp)) (by rw [c2 i5]; exact i5)]
        exact c2 i5
    rcases ih' with e | e | e
    · exact .inl e
    · exact .inr (.inl e)
    · cases op with
      | thread now =>
        rcases k4 ⟨now, rfl⟩ with k4 | k4
        · refine .inr (.inr ?_); simp only [threadSteps]; omega
        · have e1 := k2 k4
          have := stays r _ _ (h.step (.thread now)) hs' k1 hr (by rw [e1]; exact k4)
          rw [this, e1]
          exact k4.elim .inl (fun x => .inr (.inl x))
      | _ => refine .inr (.inr ?_); simp only [threadSteps]; omega

end Tf2.Spin
