import Verif.Spec.ListenerThread
import Verif.Props.Ros

/-!
# Lemmas: the listener with its own thread
-/
namespace Tf2.Spin

variable {X : Type}

/-! ### Lists of events -/

theorem arrived_append (st : Bool) (a c : List (Ev X)) : arrived st (a ++ c) = arrived st a ++ arrived st c := by
  induction a with
  | nil => rfl
  | cons e r ih =>
    cases e <;> simp only [List.cons_append, arrived, ih]
    split <;> simp

theorem handled_append (st : Bool) (a c : List (Ev X)) : handled st (a ++ c) = handled st a ++ handled st c := by
  induction a with
  | nil => rfl
  | cons e r ih =>
    cases e with
    | did e =>
      cases e <;> simp only [List.cons_append, handled, ih]
      split <;> simp
    | _ => simp only [List.cons_append, handled, ih]

theorem dropped_append (st : Bool) (a c : List (Ev X)) : dropped st (a ++ c) = dropped st a ++ dropped st c := by
  induction a with
  | nil => rfl
  | cons e r ih =>
    cases e <;> simp only [List.cons_append, dropped, ih]
    split <;> simp

theorem inner_append (a c : List (Ev X)) : inner (a ++ c) = inner a ++ inner c := by
  induction a with
  | nil => rfl
  | cons e r ih => cases e <;> simp [inner, ih]

theorem inner_did (l : List (LEv X)) : inner (l.map .did) = l := by
  induction l with
  | nil => rfl
  | cons e r ih => simp [inner, ih]

theorem arrived_did (st : Bool) (l : List (LEv X)) : arrived st (l.map .did) = [] := by
  induction l with
  | nil => rfl
  | cons e r ih => simp [arrived, ih]

theorem dropped_did (st : Bool) (l : List (LEv X)) : dropped st (l.map .did) = [] := by
  induction l with
  | nil => rfl
  | cons e r ih => simp [dropped, ih]

theorem escapes_iff (l : List (LEv X)) : escapes l = true ↔ LEv.escaped ∈ l := by
  unfold escapes
  rw [List.any_eq_true]
  constructor
  · rintro ⟨e, he, h⟩
    cases e <;> simp at h
    exact he
  · intro h; exact ⟨_, h, rfl⟩

/-! ### Setting the messages that wait -/

section
variable (s : St X) (st : Bool) (q : List (Packet X))

theorem setWaiting_waiting (st' : Bool) : (s.setWaiting st q).waiting st' = if st' = st then q else s.waiting st' := by
  cases st <;> cases st' <;> rfl

@[simp] theorem setWaiting_lis : (s.setWaiting st q).lis = s.lis := by cases st <;> rfl
@[simp] theorem setWaiting_queue : (s.setWaiting st q).queue = s.queue := by cases st <;> rfl
@[simp] theorem setWaiting_batch : (s.setWaiting st q).batch = s.batch := by cases st <;> rfl
@[simp] theorem setWaiting_phase : (s.setWaiting st q).phase = s.phase := by cases st <;> rfl
@[simp] theorem setWaiting_keep : (s.setWaiting st q).keep = s.keep := by cases st <;> rfl
@[simp] theorem setWaiting_owner : (s.setWaiting st q).owner = s.owner := by cases st <;> rfl
@[simp] theorem setWaiting_dedicated : (s.setWaiting st q).dedicated = s.dedicated := by cases st <;> rfl

end

/-! ### Steps -/

/-- What a step does. -/
inductive SOut [Rigid X] (s : St X) : Op X → St X × List (Ev X) → Prop where
  | nothing (op : Op X) (hop : ∀ now, op = .thread now → s.phase = .ended ∨ s.phase = .crashed) : SOut s op (s, [])
  | full {st p q qs} (ho : s.owner ≠ .gone) (hp : s.phase ≠ .crashed) (hw : s.waiting st = q :: qs)
      (hl : queueSize ≤ (s.waiting st).length) :
      SOut s (.arrive st p) (s.setWaiting st (qs ++ [p]), [.arrived st p, .dropped st q])
  | push {st p} (ho : s.owner ≠ .gone) (hp : s.phase ≠ .crashed) (hl : (s.waiting st).length < queueSize) :
      SOut s (.arrive st p) ({ s.setWaiting st (s.waiting st ++ [p]) with queue := s.queue ++ [st] }, [.arrived st p])
  | go {now} (hp : s.phase = .test) (hk : s.keep = true) : SOut s (.thread now) ({ s with phase := .grab }, [])
  | stop {now} (hp : s.phase = .test) (hk : s.keep = false) : SOut s (.thread now) ({ s with phase := .ended }, [])
  | timeout {now} (hp : s.phase = .grab) (hq : s.queue = []) : SOut s (.thread now) ({ s with phase := .test }, [])
  | grab {now} (hp : s.phase = .grab) :
      SOut s (.thread now) ({ s with batch := s.queue, queue := [], phase := .calling }, [])
  | work {now c} (hp : s.phase = .calling) (hc : s.lis.cur = some c) : SOut s (.thread now) (s.after (s.lis.step .apply))
  | done {now} (hp : s.phase = .calling) (hc : s.lis.cur = none) (hb : s.batch = []) :
      SOut s (.thread now) ({ s with phase := .test }, [])
  | blank {now st r} (hp : s.phase = .calling) (hc : s.lis.cur = none) (hb : s.batch = st :: r)
      (hw : s.waiting st = []) : SOut s (.thread now) ({ s with batch := r }, [])
  | call {now st r p ps} (hp : s.phase = .calling) (hc : s.lis.cur = none) (hb : s.batch = st :: r)
      (hw : s.waiting st = p :: ps) :
      SOut s (.thread now) (({ s with batch := r }.setWaiting st ps).after (s.lis.step (.receive now p.msgs p.auth st)))
  | ready (ho : s.owner = .starting) (hp : s.phase ≠ .crashed) :
      SOut s .ready ({ s with owner := .using, dedicated := true }, [])
  | destroy (ho : s.owner = .using) (hp : s.phase ≠ .crashed) :
      SOut s .destroy ({ s with owner := .joining, keep := false }, [])
  | join (ho : s.owner = .joining) (hp : s.phase = .ended) :
      SOut s .join ({ s with owner := .gone, tf := [], static := [], queue := [], batch := [] }, [.returned])
  | other {op} (hp : s.phase ≠ .crashed) :
      SOut s (.other op) ({ s with lis := (s.lis.step (.other op)).1 }, (s.lis.step (.other op)).2.map .did)

theorem sout [Rigid X] (s : St X) (op : Op X) : SOut s op (s.step op) := by
  cases op with
  | arrive st p =>
    show SOut s _ (s.arrive st p)
    unfold St.arrive
    split
    · exact .nothing _ fun _ e => (by cases e)
    · rename_i h
      have ho : s.owner ≠ .gone := fun e => h (.inl e)
      have hp : s.phase ≠ .crashed := fun e => h (.inr e)
      split
      · rename_i hl
        cases hw : s.waiting st with
        | nil => rw [hw] at hl; exact absurd hl (by simp [queueSize])
        | cons q qs => exact .full ho hp hw hl
      · rename_i hl
        simp only [setWaiting_queue]
        exact .push ho hp (Nat.lt_of_not_le hl)
  | thread now =>
    show SOut s _ (s.thread now)
    unfold St.thread
    split
    · rename_i hp
      by_cases hk : s.keep = true
      · rw [if_pos hk]; exact .go hp hk
      · rw [if_neg hk]; exact .stop hp (by simpa using hk)
    · rename_i hp
      split
      · rename_i hq; exact .timeout hp hq
      · exact .grab hp
    · rename_i hp
      cases hc : s.lis.cur with
      | some c => simp only [Option.isSome_some, if_true]; exact .work hp hc
      | none =>
        simp only [Option.isSome_none, Bool.false_eq_true, if_false]
        split
        · rename_i hb; exact .done hp hc hb
        · rename_i st r hb
          split
          · rename_i hw; exact .blank hp hc hb hw
          · rename_i p ps hw
            have e : s.lis.receive now p.msgs p.auth st = s.lis.step (.receive now p.msgs p.auth st) := by
              unfold Listener.step; simp only [hc, Option.isSome_none, Bool.false_eq_true, if_false]
            rw [e]
            exact .call hp hc hb hw
    · rename_i hp; exact .nothing _ fun _ _ => .inl hp
    · rename_i hp; exact .nothing _ fun _ _ => .inr hp
  | ready =>
    show SOut s _ (if _ then _ else _)
    split
    · rename_i h; exact .ready h.1 h.2
    · exact .nothing _ fun _ e => (by cases e)
  | destroy =>
    show SOut s _ (if _ then _ else _)
    split
    · rename_i h; exact .destroy h.1 h.2
    · exact .nothing _ fun _ e => (by cases e)
  | join =>
    show SOut s _ (if _ then _ else _)
    split
    · rename_i h; exact .join h.1 h.2
    · exact .nothing _ fun _ e => (by cases e)
  | other op =>
    show SOut s _ (if _ then _ else _)
    split
    · exact .nothing _ fun _ e => (by cases e)
    · rename_i h; exact .other h

theorem run_append [Rigid X] (a c : List (Op X)) (s : St X) :
    St.run (a ++ c) s = ((St.run c (St.run a s).1).1, (St.run a s).2 ++ (St.run c (St.run a s).1).2) := by
  induction a generalizing s with
  | nil => simp [St.run]
  | cons op r ih => simp only [List.cons_append, St.run, ih, List.append_assoc]

theorem history_snoc [Rigid X] (D : Duration) (ops : List (Op X)) (op : Op X) :
    history D (ops ++ [op]) =
      (((history D ops).1.step op).1, (history D ops).2 ++ ((history D ops).1.step op).2) := by
  unfold history
  rw [run_append]
  simp [St.run]

theorem snoc_cases {α : Type} {P : List α → Prop} (h0 : P []) (h1 : ∀ l a, P l → P (l ++ [a])) : ∀ l, P l := by
  intro l
  rw [← List.reverse_reverse l]
  generalize l.reverse = r
  induction r with
  | nil => exact h0
  | cons a r ih => rw [List.reverse_cons]; exact h1 _ _ ih

/-! ### The invariant -/

/-- The messages of one topic: those that arrived are those of the past and those that wait, `rest`. -/
structure Flow (A H L rest : List (Packet X)) : Prop where
  split : ∃ front, A = front ++ rest ∧ front.Perm (H ++ L) ∧ H.Sublist front ∧ L.Sublist front

theorem Flow.same {A H L rest : List (Packet X)} (h : Flow A H L rest) : Flow (A ++ []) (H ++ []) (L ++ []) rest := by
  simpa using h

theorem Flow.arrive {A H L rest : List (Packet X)} (h : Flow A H L rest) (p : Packet X) :
    Flow (A ++ [p]) (H ++ []) (L ++ []) (rest ++ [p]) := by
  obtain ⟨f, rfl, h2, h3, h4⟩ := h.split
  exact ⟨f, by simp, by simpa using h2, by simpa using h3, by simpa using h4⟩

theorem Flow.take {A H L rest : List (Packet X)} {p : Packet X} (h : Flow A H L (p :: rest)) :
    Flow (A ++ []) (H ++ [p]) (L ++ []) rest := by
  obtain ⟨f, rfl, h2, h3, h4⟩ := h.split
  refine ⟨f ++ [p], by simp, ?_, List.Sublist.append h3 (List.Sublist.refl _), ?_⟩
  · refine (h2.append_right [p]).trans ?_
    rw [List.append_nil, List.append_assoc, List.append_assoc]
    exact List.Perm.append_left _ List.perm_append_comm
  · rw [List.append_nil]; exact h4.trans (List.sublist_append_left _ _)

theorem Flow.drop {A H L rest : List (Packet X)} {p q : Packet X} (h : Flow A H L (q :: rest)) :
    Flow (A ++ [p]) (H ++ []) (L ++ [q]) (rest ++ [p]) := by
  obtain ⟨f, rfl, h2, h3, h4⟩ := h.split
  refine ⟨f ++ [q], by simp, ?_, ?_, List.Sublist.append h4 (List.Sublist.refl _)⟩
  · refine (h2.append_right [q]).trans ?_
    rw [List.append_nil, List.append_assoc]
  · rw [List.append_nil]; exact h3.trans (List.sublist_append_left _ _)

/-- What holds after every history with events `evs`. -/
structure Inv [Rigid X] (D : Duration) (s : St X) (evs : List (Ev X)) : Prop where
  refine : ∃ ops, Listener.run ops (Listener.init D) [] = (s.lis, inner evs)
  flow : ∀ st, ∃ rest, Flow (arrived st evs) (handled st evs) (dropped st evs) rest ∧ rest.length ≤ queueSize ∧
    (s.owner ≠ .gone → rest = s.waiting st)
  tokens : ∀ st, s.queue.count st + s.batch.count st = (s.waiting st).length
  size : ∀ st, (s.waiting st).length ≤ queueSize
  cur : s.lis.cur ≠ none → s.phase = .calling
  batch : s.batch ≠ [] → s.phase = .calling ∨ s.phase = .crashed
  goneEnded : s.owner = .gone → s.phase = .ended ∧ s.queue = [] ∧ s.batch = []
  keep : s.keep = true ↔ s.owner = .starting ∨ s.owner = .using
  ended : s.phase = .ended → s.keep = false
  dedicated : s.dedicated = true ↔ s.owner ≠ .starting
  crashed : s.phase = .crashed ↔ LEv.escaped ∈ inner evs

/-- A piece of the callback leaves no message being handled when an exception left. -/
theorem step_cur [Rigid X] (l : Listener X) (op : LOp X) (h : LEv.escaped ∈ (l.step op).2) : (l.step op).1.cur = none := by
  have := lout l op
  generalize l.step op = x at this h ⊢
  cases this <;> simp_all

theorem inv_init [Rigid X] (D : Duration) : Inv D (St.init D : St X) [] where
  refine := ⟨[], rfl⟩
  flow := fun st => ⟨[], ⟨[], rfl, .refl _, .refl _, .refl _⟩, Nat.zero_le _, fun _ => by cases st <;> rfl⟩
  tokens := fun st => by cases st <;> rfl
  size := fun st => by cases st <;> exact Nat.zero_le _
  cur := fun h => absurd rfl h
  batch := fun h => absurd rfl h
  goneEnded := fun h => by cases h
  keep := ⟨fun _ => .inl rfl, fun _ => rfl⟩
  ended := fun h => by cases h
  dedicated := ⟨fun h => (by cases h), fun h => absurd rfl h⟩
  crashed := ⟨fun h => (by cases h), fun h => (by cases h)⟩

/-- The events of one step of a piece of the callback, as the topics see them. -/
theorem handled_step [Rigid X] (l : Listener X) (op : LOp X) (st : Bool) :
    handled st ((l.step op).2.map .did) =
      match op with
      | .receive _ ms a st' => if l.cur = none ∧ st' = st then [⟨ms, a⟩] else []
      | _ => [] := by
  have := lout l op
  generalize l.step op = x at this ⊢
  cases this <;> simp_all [handled]
  all_goals (split <;> simp_all)

/-- The invariant after a piece of a callback of the listener, or a call of somebody else. -/
theorem Inv.after [Rigid X] {D : Duration} {s s1 : St X} {evs : List (Ev X)} (h : Inv D s evs) (op : LOp X)
    (hl : s1.lis = s.lis) (ho : s1.owner = s.owner) (hk : s1.keep = s.keep) (hd : s1.dedicated = s.dedicated)
    (hp : s1.phase = s.phase) (hpc : s.phase = .calling)
    (hflow : ∀ st, ∃ rest, Flow (arrived st evs ++ []) (handled st evs ++ handled st ((s.lis.step op).2.map .did))
      (dropped st evs ++ []) rest ∧ rest.length ≤ queueSize ∧ (s1.owner ≠ .gone → rest = s1.waiting st))
    (ht : ∀ st, s1.queue.count st + s1.batch.count st = (s1.waiting st).length)
    (hs : ∀ st, (s1.waiting st).length ≤ queueSize) :
    Inv D (s1.after (s.lis.step op)).1 (evs ++ (s1.after (s.lis.step op)).2) := by
  have hph : (s1.after (s.lis.step op)).1.phase = .calling ∨ (s1.after (s.lis.step op)).1.phase = .crashed := by
    unfold St.after
    dsimp only
    split
    · exact .inr rfl
    · rw [hp, hpc]; exact .inl rfl
  have hng : s.owner ≠ .gone := fun e => by have := (h.goneEnded e).1; rw [hpc] at this; cases this
  have hnc : LEv.escaped ∉ inner evs := fun e => by have := h.crashed.2 e; rw [hpc] at this; cases this
  constructor
  · obtain ⟨ops, e⟩ := h.refine
    refine ⟨ops ++ [op], ?_⟩
    rw [lrun_append, e]
    simp only [St.after, Listener.run, List.nil_append, inner_append, inner_did]
  · intro st
    simp only [St.after, arrived_append, handled_append, dropped_append, arrived_did, dropped_did]
    exact hflow st
  · exact ht
  · exact hs
  · intro hc
    by_cases he : LEv.escaped ∈ (s.lis.step op).2
    · exact absurd (step_cur _ _ he) hc
    · have : escapes (s.lis.step op).2 = false := by
        rw [← Bool.not_eq_true, escapes_iff]; exact he
      simp only [St.after, this, Bool.false_eq_true, if_false, hp, hpc]
  · intro _; exact hph
  · intro e
    exact absurd (ho.symm.trans e) hng
  · show s1.keep = true ↔ s1.owner = .starting ∨ s1.owner = .using
    rw [hk, ho]; exact h.keep
  · intro e; rw [e] at hph; rcases hph with h | h <;> cases h
  · show s1.dedicated = true ↔ s1.owner ≠ .starting
    rw [hd, ho]; exact h.dedicated
  · have e : inner (evs ++ (s1.after (s.lis.step op)).2) = inner evs ++ (s.lis.step op).2 := by
      simp only [St.after, inner_append, inner_did]
    rw [e, List.mem_append]
    have hx : (s1.after (s.lis.step op)).1.phase = if escapes (s.lis.step op).2 then .crashed else s1.phase := rfl
    rw [hx, hp, hpc]
    by_cases he : LEv.escaped ∈ (s.lis.step op).2
    · rw [if_pos ((escapes_iff _).2 he)]; exact ⟨fun _ => .inr he, fun _ => rfl⟩
    · rw [if_neg (fun x => he ((escapes_iff _).1 x))]
      exact ⟨fun x => (by cases x), fun x => x.elim (fun x => absurd x hnc) (fun x => absurd x he)⟩

theorem Inv.step [Rigid X] {D : Duration} {s : St X} {evs : List (Ev X)} (h : Inv D s evs) (op : Op X) :
    Inv D (s.step op).1 (evs ++ (s.step op).2) := by
  have ho := sout s op
  generalize s.step op = x at ho ⊢
  cases ho with
  | nothing => simpa using h
  | @full st p q qs ho hp hw hl =>
    constructor
    · simpa [inner_append, inner] using h.refine
    · intro st'
      obtain ⟨rest, hf, hlen, hr⟩ := h.flow st'
      simp only [arrived_append, handled_append, dropped_append, arrived, handled, dropped, setWaiting_owner]
      rw [setWaiting_waiting]
      by_cases e : st' = st
      · subst e
        rw [if_pos rfl, if_pos rfl, if_pos rfl]
        rw [hr ho, hw] at hf hlen
        exact ⟨qs ++ [p], hf.drop, by simpa using hlen, fun _ => rfl⟩
      · rw [if_neg (Ne.symm e), if_neg (Ne.symm e), if_neg e]
        exact ⟨rest, hf.same, hlen, hr⟩
    · intro st'
      simp only [setWaiting_queue, setWaiting_batch]
      rw [h.tokens, setWaiting_waiting]
      split
      · rename_i e; rw [e, hw]; simp
      · rfl
    · intro st'
      rw [setWaiting_waiting]
      split
      · have := h.size st; rw [hw] at this; simpa using this
      · exact h.size st'
    · simpa using h.cur
    · simpa using h.batch
    · simpa using h.goneEnded
    · simpa using h.keep
    · simpa using h.ended
    · simpa using h.dedicated
    · simpa [inner_append, inner] using h.crashed
  | @push st p ho hp hl =>
    constructor
    · simpa [inner_append, inner] using h.refine
    · intro st'
      obtain ⟨rest, hf, hlen, hr⟩ := h.flow st'
      simp only [arrived_append, handled_append, dropped_append, arrived, handled, dropped, setWaiting_owner]
      show ∃ rest, _ ∧ _ ∧ (s.owner ≠ .gone → rest = (s.setWaiting st (s.waiting st ++ [p])).waiting st')
      rw [setWaiting_waiting]
      by_cases e : st' = st
      · subst e
        rw [if_pos rfl, if_pos rfl]
        rw [hr ho] at hf hlen
        exact ⟨_, hf.arrive p, by simp only [List.length_append, List.length_singleton]; omega, fun _ => rfl⟩
      · rw [if_neg (Ne.symm e), if_neg e]
        exact ⟨rest, hf.same, hlen, hr⟩
    · intro st'
      show (s.queue ++ [st]).count st' + (s.setWaiting st (s.waiting st ++ [p])).batch.count st' =
        ((s.setWaiting st (s.waiting st ++ [p])).waiting st').length
      have := h.tokens st'
      rw [setWaiting_waiting, setWaiting_batch, List.count_append]
      by_cases e : st' = st
      · subst e; simp; omega
      · rw [if_neg e, List.count_singleton]; simp [Ne.symm e]; omega
    · intro st'
      show ((s.setWaiting st (s.waiting st ++ [p])).waiting st').length ≤ _
      rw [setWaiting_waiting]
      split
      · simp only [List.length_append, List.length_singleton]; omega
      · exact h.size st'
    · simpa using h.cur
    · simpa using h.batch
    · intro e; exact absurd (by simpa using e) ho
    · simpa using h.keep
    · simpa using h.ended
    · simpa using h.dedicated
    · simpa [inner_append, inner] using h.crashed
  | @go now hp hk =>
    simp only [List.append_nil]
    exact { refine := h.refine, flow := h.flow, tokens := h.tokens, size := h.size, cur := fun e => (by have := h.cur e; rw [hp] at this; cases this), batch := fun e => (by have := h.batch e; rw [hp] at this; rcases this with x | x <;> cases x), goneEnded := fun e => (by have := (h.goneEnded e).1; rw [hp] at this; cases this), keep := h.keep, ended := fun e => (by cases e), dedicated := h.dedicated, crashed := ⟨fun e => (by cases e), fun e => (by have := h.crashed.2 e; rw [hp] at this; cases this)⟩ }
  | @stop now hp hk =>
    simp only [List.append_nil]
    exact { refine := h.refine, flow := h.flow, tokens := h.tokens, size := h.size, cur := fun e => (by have := h.cur e; rw [hp] at this; cases this), batch := fun e => (by have := h.batch e; rw [hp] at this; rcases this with x | x <;> cases x), goneEnded := fun e => (by have := (h.goneEnded e).1; rw [hp] at this; cases this), keep := h.keep, ended := fun _ => hk, dedicated := h.dedicated, crashed := ⟨fun e => (by cases e), fun e => (by have := h.crashed.2 e; rw [hp] at this; cases this)⟩ }
  | @timeout now hp hq =>
    simp only [List.append_nil]
    exact { refine := h.refine, flow := h.flow, tokens := h.tokens, size := h.size, cur := fun e => (by have := h.cur e; rw [hp] at this; cases this), batch := fun e => (by have := h.batch e; rw [hp] at this; rcases this with x | x <;> cases x), goneEnded := fun e => (by have := (h.goneEnded e).1; rw [hp] at this; cases this), keep := h.keep, ended := fun e => (by cases e), dedicated := h.dedicated, crashed := ⟨fun e => (by cases e), fun e => (by have := h.crashed.2 e; rw [hp] at this; cases this)⟩ }
  | @grab now hp =>
    simp only [List.append_nil]
    have hb : s.batch = [] := by
      cases e : s.batch with
      | nil => rfl
      | cons a r =>
        have := h.batch (by rw [e]; exact fun x => by cases x)
        rw [hp] at this; rcases this with x | x <;> cases x
    have ht : ∀ st, ([] : List Bool).count st + s.queue.count st = (s.waiting st).length := by
      intro st; have := h.tokens st; rw [hb] at this; simp at this ⊢; exact this
    exact { refine := h.refine, flow := h.flow, tokens := ht, size := h.size, cur := fun _ => rfl, batch := fun e => .inl rfl, goneEnded := fun e => (by have := (h.goneEnded e).1; rw [hp] at this; cases this), keep := h.keep, ended := fun e => (by cases e), dedicated := h.dedicated, crashed := ⟨fun e => (by cases e), fun e => (by have := h.crashed.2 e; rw [hp] at this; cases this)⟩ }
  | @work now c hp hc =>
    refine h.after .apply rfl rfl rfl rfl rfl hp (fun st => ?_) h.tokens h.size
    rw [handled_step]
    obtain ⟨rest, hf, hlen, hr⟩ := h.flow st
    exact ⟨rest, hf.same, hlen, hr⟩
  | @done now hp hc hb =>
    simp only [List.append_nil]
    exact { refine := h.refine, flow := h.flow, tokens := h.tokens, size := h.size, cur := fun e => absurd hc e, batch := fun e => absurd hb e, goneEnded := fun e => (by have := (h.goneEnded e).1; rw [hp] at this; cases this), keep := h.keep, ended := fun e => (by cases e), dedicated := h.dedicated, crashed := ⟨fun e => (by cases e), fun e => (by have := h.crashed.2 e; rw [hp] at this; cases this)⟩ }
  | @blank now st r hp hc hb hw =>
    exfalso
    have := h.tokens st
    rw [hb, hw] at this
    simp at this
  | @call now st r p ps hp hc hb hw =>
    have hng : s.owner ≠ .gone := fun e => by have := (h.goneEnded e).1; rw [hp] at this; cases this
    refine h.after (s1 := { s with batch := r }.setWaiting st ps) (.receive now p.msgs p.auth st) (by simp) (by simp)
      (by simp) (by simp) (by simp) hp (fun st' => ?_) (fun st' => ?_) (fun st' => ?_)
    · rw [handled_step]
      obtain ⟨rest, hf, hlen, hr⟩ := h.flow st'
      rw [setWaiting_waiting]
      dsimp only
      by_cases e : st = st'
      · subst e
        rw [if_pos ⟨hc, rfl⟩, if_pos rfl]
        rw [hr hng, hw] at hf hlen
        exact ⟨ps, hf.take, by simp at hlen; omega, fun _ => rfl⟩
      · rw [if_neg (fun x => e x.2), if_neg (Ne.symm e)]
        exact ⟨rest, hf.same, hlen, fun x => hr (by simpa using x)⟩
    · rw [setWaiting_waiting, setWaiting_queue, setWaiting_batch]
      have := h.tokens st'
      rw [hb, List.count_cons] at this
      by_cases e : st' = st
      · subst e
        rw [hw] at this
        simp at this ⊢
        omega
      · rw [if_neg e]
        simp [Ne.symm e] at this
        exact this
    · rw [setWaiting_waiting]
      split
      · have := h.size st; rw [hw] at this; simp at this; omega
      · exact h.size st'
  | ready ho hp =>
    simp only [List.append_nil]
    exact { refine := h.refine, flow := fun st => (by obtain ⟨r, a, b, c⟩ := h.flow st; exact ⟨r, a, b, fun _ => c (by rw [ho]; exact fun x => by cases x)⟩), tokens := h.tokens, size := h.size, cur := h.cur, batch := h.batch, goneEnded := fun e => (by cases e), keep := ⟨fun _ => .inr rfl, fun _ => h.keep.2 (.inl ho)⟩, ended := h.ended, dedicated := ⟨fun _ => fun x => (by cases x), fun _ => rfl⟩, crashed := h.crashed }
  | destroy ho hp =>
    simp only [List.append_nil]
    exact { refine := h.refine, flow := fun st => (by obtain ⟨r, a, b, c⟩ := h.flow st; exact ⟨r, a, b, fun _ => c (by rw [ho]; exact fun x => by cases x)⟩), tokens := h.tokens, size := h.size, cur := h.cur, batch := h.batch, goneEnded := fun e => (by cases e), keep := ⟨fun e => (by cases e), fun e => (by rcases e with e | e <;> cases e)⟩, ended := fun _ => rfl, dedicated := ⟨fun _ => fun x => (by cases x), fun _ => h.dedicated.2 (by rw [ho]; exact fun x => by cases x)⟩, crashed := h.crashed }
  | join ho hp =>
    have hn : s.owner ≠ .gone := by rw [ho]; exact fun x => by cases x
    refine { refine := ?_, flow := fun st => ?_, tokens := fun st => (by cases st <;> rfl), size := fun st => (by cases st <;> exact Nat.zero_le _), cur := h.cur, batch := fun e => absurd rfl e, goneEnded := fun _ => ⟨hp, rfl, rfl⟩, keep := ⟨fun e => ?_, fun e => (by rcases e with e | e <;> cases e)⟩, ended := h.ended, dedicated := ⟨fun _ => fun x => (by cases x), fun _ => h.dedicated.2 (by rw [ho]; exact fun x => by cases x)⟩, crashed := ?_ }
    · simpa [inner_append, inner] using h.refine
    · obtain ⟨r, a, b, c⟩ := h.flow st
      simp only [arrived_append, handled_append, dropped_append, arrived, handled, dropped]
      exact ⟨r, a.same, b, fun x => absurd rfl x⟩
    · have := h.keep.1 e; rw [ho] at this; rcases this with e | e <;> cases e
    · simpa [inner_append, inner] using h.crashed
  | @other op hp =>
    have hstep : s.lis.step (.other op) = ({ s.lis with rb := (s.lis.rb.step op).1 }, [.other op]) := rfl
    rw [hstep]
    refine { refine := ?_, flow := fun st => ?_, tokens := h.tokens, size := h.size, cur := h.cur, batch := h.batch, goneEnded := h.goneEnded, keep := h.keep, ended := h.ended, dedicated := h.dedicated, crashed := ?_ }
    · obtain ⟨ops, e⟩ := h.refine
      refine ⟨ops ++ [.other op], ?_⟩
      rw [lrun_append, e]
      simp only [Listener.run, List.nil_append, inner_append, inner_did, hstep]
    · obtain ⟨r, a, b, c⟩ := h.flow st
      simp only [List.map, arrived_append, handled_append, dropped_append, arrived, handled, dropped]
      exact ⟨r, a.same, b, c⟩
    · simpa [inner_append, inner] using h.crashed

theorem inv_history [Rigid X] (D : Duration) (ops : List (Op X)) : Inv D (history D ops).1 (history D ops).2 := by
  induction ops using snoc_cases with
  | h0 => exact inv_init D
  | h1 l a ih => rw [history_snoc]; exact ih.step a

end Tf2.Spin
