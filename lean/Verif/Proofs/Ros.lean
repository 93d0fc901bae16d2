import Verif.Spec.Ros
import Verif.Proofs.BufferServer

/-!
# Lemmas for the ROS front end
-/
namespace Tf2

variable {X : Type}

/-! ### Static broadcaster -/

theorem netUpsert_children (l : List (Msg X)) (m : Msg X) :
    (netUpsert l m).map Msg.child = if m.child ∈ l.map Msg.child then l.map Msg.child else l.map Msg.child ++ [m.child] := by
  induction l with
  | nil => simp [netUpsert]
  | cons e r ih =>
    unfold netUpsert
    by_cases h : m.child = e.child
    · simp [h]
    · simp only [h, if_false, List.map_cons, ih, List.mem_cons, false_or]
      split <;> simp

theorem netUpsert_mem (l : List (Msg X)) (hn : (l.map Msg.child).Nodup) (m x : Msg X) :
    x ∈ netUpsert l m ↔ x = m ∨ (x ∈ l ∧ x.child ≠ m.child) := by
  induction l with
  | nil => simp [netUpsert]
  | cons e r ih =>
    simp only [List.map_cons, List.nodup_cons] at hn
    unfold netUpsert
    by_cases h : m.child = e.child
    · simp only [h, if_true, List.mem_cons]
      constructor
      · rintro (h1 | h1)
        · exact .inl h1
        · exact .inr ⟨.inr h1, fun hc => hn.1 (hc ▸ List.mem_map_of_mem h1)⟩
      · rintro (h1 | ⟨h1 | h1, h2⟩)
        · exact .inl h1
        · subst h1; exact absurd rfl h2
        · exact .inr h1
    · simp only [h, if_false, List.mem_cons, ih hn.2]
      constructor
      · rintro (h1 | h1 | ⟨h1, h2⟩)
        · subst h1; exact .inr ⟨.inl rfl, fun hc => h hc.symm⟩
        · exact .inl h1
        · exact .inr ⟨.inr h1, h2⟩
      · rintro (h1 | ⟨h1 | h1, h2⟩)
        · exact .inr (.inl h1)
        · exact .inl h1
        · exact .inr (.inr ⟨h1, h2⟩)

theorem lastSent_snoc (l : List (Msg X)) (m : Msg X) (n : Name) :
    lastSent (l ++ [m]) n = if m.child = n then some m else lastSent l n := by
  simp only [lastSent, List.reverse_append, List.reverse_cons, List.reverse_nil, List.nil_append, List.singleton_append,
    List.find?_cons]
  by_cases h : m.child = n <;> simp [h]

/-- What the accumulated message is, for the transforms sent so far. -/
structure NetIs (sent net : List (Msg X)) : Prop where
  nodup : (net.map Msg.child).Nodup
  order : net.map Msg.child = (sent.map Msg.child).foldl (fun acc n => if n ∈ acc then acc else acc ++ [n]) []
  mem : ∀ x, x ∈ net ↔ lastSent sent x.child = some x

theorem NetIs.snoc {sent net : List (Msg X)} (h : NetIs sent net) (m : Msg X) : NetIs (sent ++ [m]) (netUpsert net m) := by
  refine ⟨?_, ?_, fun x => ?_⟩
  · rw [netUpsert_children]
    split
    · exact h.nodup
    · next hn => rw [List.nodup_append]; refine ⟨h.nodup, by simp, ?_⟩; intro x hx y hy hxy; simp at hy; subst hxy; exact hn (hy ▸ hx)
  · rw [netUpsert_children, List.map_append, List.foldl_append, ← h.order]; simp
  · rw [netUpsert_mem _ h.nodup, lastSent_snoc, h.mem]
    constructor
    · rintro (h1 | ⟨h1, h2⟩)
      · subst h1; simp
      · rw [if_neg (fun hc => h2 hc.symm)]; exact h1
    · intro h1
      split at h1
      · exact .inl (by injection h1 with h1; exact h1.symm)
      · next hn => exact .inr ⟨h1, fun hc => hn hc.symm⟩

theorem NetIs.foldl {sent net : List (Msg X)} (h : NetIs sent net) (msgs : List (Msg X)) :
    NetIs (sent ++ msgs) (msgs.foldl netUpsert net) := by
  induction msgs generalizing sent net with
  | nil => simpa using h
  | cons m r ih => have := ih (h.snoc m); simpa using this

theorem NetIs.calls {sent : List (Msg X)} {b : SBroadcaster X} (h : NetIs sent b.net) (calls : List (List (Msg X))) :
    NetIs (sent ++ calls.flatten) (calls.foldl SBroadcaster.send b).net := by
  induction calls generalizing sent b with
  | nil => simpa using h
  | cons c r ih => have := ih (b := b.send c) (h.foldl c); simpa using this

theorem published_last (calls : List (List (Msg X))) (b : SBroadcaster X) (hc : calls ≠ []) :
    (calls.foldl SBroadcaster.send b).latched = some (calls.foldl SBroadcaster.send b).net := by
  induction calls generalizing b with
  | nil => exact absurd rfl hc
  | cons c r ih =>
    cases r with
    | nil => simp [SBroadcaster.send, SBroadcaster.latched]
    | cons c' r' => exact ih _ (by simp)

/-! ### Listener -/

theorem lrun_evs [Rigid X] (ops : List (LOp X)) (s : Listener X) (evs : List (LEv X)) :
    Listener.run ops s evs = ((Listener.run ops s []).1, evs ++ (Listener.run ops s []).2) := by
  induction ops generalizing s evs with
  | nil => simp [Listener.run]
  | cons op r ih =>
    simp only [Listener.run, List.nil_append]
    rw [ih _ (evs ++ _), ih _ ((s.step op).2)]
    simp

theorem lrun_append [Rigid X] (a c : List (LOp X)) (s : Listener X) :
    Listener.run (a ++ c) s [] =
      ((Listener.run c (Listener.run a s []).1 []).1,
       (Listener.run a s []).2 ++ (Listener.run c (Listener.run a s []).1 []).2) := by
  induction a generalizing s with
  | nil => simp [Listener.run]
  | cons op r ih =>
    simp only [List.cons_append, Listener.run, List.nil_append]
    rw [lrun_evs (r ++ c), lrun_evs r, ih]
    simp

theorem listenerCalls_append (a c : List (LEv X)) : listenerCalls (a ++ c) = listenerCalls a ++ listenerCalls c := by
  induction a with
  | nil => rfl
  | cons e r ih => cases e <;> simp [listenerCalls, ih]

theorem bufferCalls_append (a c : List (LEv X)) : bufferCalls (a ++ c) = bufferCalls a ++ bufferCalls c := by
  induction a with
  | nil => rfl
  | cons e r ih => cases e <;> simp [bufferCalls, ih]

theorem rbuf_evs [Rigid X] (ops : List (ROp X)) (s : RBuf X) (evs : List REv) :
    (RBuf.run ops s evs).1 = (RBuf.run ops s []).1 := by
  induction ops generalizing s evs with
  | nil => rfl
  | cons op r ih => simp only [RBuf.run]; rw [ih, ih (evs := [] ++ _)]

theorem rbuf_append [Rigid X] (a c : List (ROp X)) (s : RBuf X) :
    (RBuf.run (a ++ c) s []).1 = (RBuf.run c (RBuf.run a s []).1 []).1 := by
  induction a generalizing s with
  | nil => rfl
  | cons op r ih => simp only [List.cons_append, RBuf.run]; rw [rbuf_evs, ih, rbuf_evs r _ ([] ++ _)]

/-- What a step of a listener does. -/
inductive LOut [Rigid X] (s : Listener X) : LOp X → Listener X × List (LEv X) → Prop where
  | busy {now ms a st c} (h : s.cur = some c) : LOut s (.receive now ms a st) (s, [])
  | range {now ms a st} (h : s.cur = none) (h1 : now < s.last) (h2 : timeSub s.last now = none) :
      LOut s (.receive now ms a st) (s, [.received now ms a st, .escaped])
  | jump {now ms a st} (h : s.cur = none) (h1 : now < s.last) :
      LOut s (.receive now ms a st) ({ rb := (s.rb.step .clear).1, last := now, cur := some (ms, a, st) },
        [.received now ms a st, .did .clear])
  | plain {now ms a st} (h : s.cur = none) (h1 : ¬ now < s.last) :
      LOut s (.receive now ms a st) ({ s with last := now, cur := some (ms, a, st) }, [.received now ms a st])
  | idle (h : s.cur = none) : LOut s .apply (s, [])
  | finish {a st} (h : s.cur = some ([], a, st)) : LOut s .apply ({ s with cur := none }, [])
  | escape {m ms a st} (h : s.cur = some (m :: ms, a, st)) (h1 : setEscapes (s.rb.step (.set m a st)).2 = true) :
      LOut s .apply ({ s with rb := (s.rb.step (.set m a st)).1, cur := none }, [.did (.set m a st), .escaped])
  | set {m ms a st} (h : s.cur = some (m :: ms, a, st)) (h1 : setEscapes (s.rb.step (.set m a st)).2 = false) :
      LOut s .apply ({ s with rb := (s.rb.step (.set m a st)).1, cur := some (ms, a, st) }, [.did (.set m a st)])
  | other {op} : LOut s (.other op) ({ s with rb := (s.rb.step op).1 }, [.other op])

theorem lout [Rigid X] (s : Listener X) (op : LOp X) : LOut s op (s.step op) := by
  cases op with
  | receive now ms a st =>
    unfold Listener.step
    cases hc : s.cur with
    | some c => simp only [Option.isSome_some, if_true]; exact .busy hc
    | none =>
      simp only [Option.isSome_none, Bool.false_eq_true, if_false]
      unfold Listener.receive
      by_cases h : now < s.last
      · simp only [h, if_true]
        cases ht : timeSub s.last now with
        | none => exact .range hc h ht
        | some d => exact .jump hc h
      · simp only [h, if_false]; exact .plain hc h
  | apply =>
    unfold Listener.step Listener.apply
    cases hc : s.cur with
    | none => exact .idle hc
    | some c =>
      obtain ⟨l, a, st⟩ := c
      cases l with
      | nil => exact .finish hc
      | cons m ms =>
        simp only
        cases he : setEscapes (s.rb.setTransform m a st).2 with
        | true => simp only [if_true]; exact .escape hc he
        | false => simp only [Bool.false_eq_true, if_false]; exact .set hc he
  | other op => exact .other

theorem lrun_effect [Rigid X] (ops : List (LOp X)) (s : Listener X) :
    (Listener.run ops s []).1.rb = (RBuf.run (bufferCalls (Listener.run ops s []).2) s.rb []).1 := by
  induction ops generalizing s with
  | nil => rfl
  | cons op r ih =>
    rw [Listener.run, lrun_evs]
    simp only [List.nil_append]
    rw [bufferCalls_append, rbuf_append, ih]
    congr 2
    have h := lout s op
    generalize s.step op = x at h ⊢
    cases h <;> simp [bufferCalls, RBuf.run]

/-- Invariant: what has been called, with what remains, is what is due. -/
theorem lrun_due [Rigid X] (ops : List (LOp X)) (s : Listener X) (hne : LEv.escaped ∉ (Listener.run ops s []).2) :
    listenerCalls (Listener.run ops s []).2 ++ (Listener.run ops s []).1.remaining =
      s.remaining ++ callsDue s.last (Listener.run ops s []).2 := by
  induction ops generalizing s with
  | nil => simp [Listener.run, listenerCalls, callsDue]
  | cons op r ih =>
    rw [Listener.run, lrun_evs] at hne ⊢
    simp only [List.nil_append, List.mem_append, not_or] at hne ⊢
    have ih' := ih _ hne.2
    rw [listenerCalls_append, List.append_assoc, ih']
    have h := lout s op
    have hne' := hne.1
    generalize s.step op = x at h hne' ⊢
    cases h with
    | busy h => simp [listenerCalls]
    | range h h1 h2 => simp at hne'
    | jump h h1 => simp [listenerCalls, callsDue, Listener.remaining, h, callsOf, h1]
    | plain h h1 => simp [listenerCalls, callsDue, Listener.remaining, h, callsOf, h1]
    | idle h => simp [listenerCalls]
    | finish h => simp [listenerCalls, Listener.remaining, h]
    | escape h h1 => simp at hne'
    | set h h1 => simp [listenerCalls, callsDue, Listener.remaining, h]
    | other => simp [listenerCalls, callsDue, Listener.remaining]

/-! ### Blocking waits -/

section
variable {g : Goal} {errstr : Bool} {W : Nat → World X}

variable {ded : Bool} {w : World X} {st : Time}

theorem wstep_deadline {e : Time} (h : timeAdd st g.timeout = some e) :
    wstep g ded errstr w (.deadline st) = if w.now < e then .available st else .final st := by
  unfold wstep; dsimp only; rw [h]; rfl

theorem wstep_deadline_threw (h : timeAdd st g.timeout = none) : wstep g ded errstr w (.deadline st) = .threw := by
  unfold wstep; dsimp only; rw [h]; rfl

theorem wstep_available {v : Bool} (h : g.can w.buf = .ok v) :
    wstep g ded errstr w (.available st) = if v then .final st else .jump st := by
  unfold wstep; cases v <;> simp only [h] <;> rfl

theorem wstep_jump {e : Time} (h : timeAdd w.now threeSeconds = some e) :
    wstep g ded errstr w (.jump st) = if st ≤ e then .alive st else .final st := by
  unfold wstep; dsimp only; rw [h]; rfl

theorem wstep_jump_threw (h : timeAdd w.now threeSeconds = none) : wstep g ded errstr w (.jump st) = .threw := by
  unfold wstep; dsimp only; rw [h]; rfl

theorem wstep_alive : wstep g ded errstr w (.alive st) = if w.up then .sleeping st else .final st := by
  unfold wstep; rfl

theorem wstep_final {v : Bool} (h : g.can w.buf = .ok v) :
    wstep g ded errstr w (.final st) = if errstr then .info st v else .returned v := by
  unfold wstep; simp only [h]

theorem wstep_info {v : Bool} {d : Duration} (h : timeSub w.now st = some d) :
    wstep g ded errstr w (.info st v) = .returned v := by
  unfold wstep; simp only [h]

theorem wstep_info_threw {v : Bool} (h : timeSub w.now st = none) : wstep g ded errstr w (.info st v) = .threw := by
  unfold wstep; simp only [h]

theorem wait_step (ded : Bool) (n : Nat) : wait g ded errstr W (n + 1) = wstep g ded errstr (W n) (wait g ded errstr W n) := rfl

theorem wait_sleeping {st : Time} (k : Nat) (h0 : wait g true errstr W 1 = .deadline st)
    (h : ∀ i < k, PollSleeps g W st i) : wait g true errstr W (5 * k + 1) = .deadline st := by
  induction k with
  | zero => exact h0
  | succ k ih =>
    have e := ih (fun i hi => h i (Nat.lt_succ_of_lt hi))
    obtain ⟨⟨e1, h1, h1'⟩, h2, ⟨e3, h3, h3'⟩, h4⟩ := h k (Nat.lt_succ_self k)
    have e2 : wait g true errstr W (5 * k + 1 + 1) = .available st := by rw [wait_step, e]; rw [wstep_deadline h1, if_pos h1']
    have e3 : wait g true errstr W (5 * k + 2 + 1) = .jump st := by rw [wait_step, e2]; rw [wstep_available h2]; rfl
    have e4 : wait g true errstr W (5 * k + 3 + 1) = .alive st := by rw [wait_step, e3]; rw [wstep_jump h3, if_pos h3']
    have e5 : wait g true errstr W (5 * k + 4 + 1) = .sleeping st := by rw [wait_step, e4]; rw [wstep_alive, if_pos h4]
    have e6 : wait g true errstr W (5 * k + 5 + 1) = .deadline st := by rw [wait_step, e5]; rfl
    have : 5 * (k + 1) + 1 = 5 * k + 5 + 1 := by omega
    rw [this]; exact e6

theorem wait_stops {st : Time} {k m : Nat} (h0 : wait g true errstr W (5 * k + 1) = .deadline st)
    (h : PollStops g W st k m) : wait g true errstr W (m + 1) = .final st := by
  cases h with
  | deadline h h1 =>
    rw [wait_step, h0]; rw [wstep_deadline h, if_neg (Nat.not_lt.2 h1)]
  | available h h1 h2 =>
    have e2 : wait g true errstr W (5 * k + 1 + 1) = .available st := by rw [wait_step, h0]; rw [wstep_deadline h, if_pos h1]
    rw [wait_step, e2]; rw [wstep_available h2]; rfl
  | jump h h1 h2 h3 h4 =>
    have e2 : wait g true errstr W (5 * k + 1 + 1) = .available st := by rw [wait_step, h0]; rw [wstep_deadline h, if_pos h1]
    have e3 : wait g true errstr W (5 * k + 2 + 1) = .jump st := by rw [wait_step, e2]; rw [wstep_available h2]; rfl
    rw [wait_step, e3]; rw [wstep_jump h3, if_neg (Nat.not_le.2 h4)]
  | down h h1 h2 h3 h4 h5 =>
    have e2 : wait g true errstr W (5 * k + 1 + 1) = .available st := by rw [wait_step, h0]; rw [wstep_deadline h, if_pos h1]
    have e3 : wait g true errstr W (5 * k + 2 + 1) = .jump st := by rw [wait_step, e2]; rw [wstep_available h2]; rfl
    have e4 : wait g true errstr W (5 * k + 3 + 1) = .alive st := by rw [wait_step, e3]; rw [wstep_jump h3, if_pos h4]
    rw [wait_step, e4]; rw [wstep_alive, h5]; rfl

/-- The call has ended. -/
def WPhase.Ended : WPhase → Prop
  | .returned _ => True
  | .threw => True
  | .ub => True
  | _ => False

theorem ended_stays {ded : Bool} {n : Nat} (h : (wait g ded errstr W n).Ended) (k : Nat) :
    wait g ded errstr W (n + k) = wait g ded errstr W n := by
  induction k with
  | zero => rfl
  | succ k ih =>
    rw [← Nat.add_assoc, wait_step, ih]
    cases hp : wait g ded errstr W n <;> rw [hp] at h <;> first | exact h.elim | rfl

theorem wait_start : wait g true errstr W 1 = .deadline (W 0).now := rfl

/-- One round from the beginning of a poll. -/
theorem round_cases [Rigid X] {D : Duration} (hr : ∀ n, Reachable D (W n).buf) (st : Time) (k : Nat)
    (h0 : wait g true errstr W (5 * k + 1) = .deadline st) :
    PollSleeps g W st k ∨ (∃ m, PollStops g W st k m) ∨
      ((timeAdd st g.timeout = none ∧ wait g true errstr W (5 * k + 1 + 1) = .threw) ∨
       (timeAdd (W (5 * k + 3)).now threeSeconds = none ∧ wait g true errstr W (5 * k + 3 + 1) = .threw)) := by
  cases ha : timeAdd st g.timeout with
  | none => exact .inr (.inr (.inl ⟨rfl, by rw [wait_step, h0]; exact wstep_deadline_threw ha⟩))
  | some e =>
    by_cases h1 : (W (5 * k + 1)).now < e
    · have e2 : wait g true errstr W (5 * k + 1 + 1) = .available st := by rw [wait_step, h0]; rw [wstep_deadline ha, if_pos h1]
      obtain ⟨v, hv⟩ := Goal.can_total (hr (5 * k + 2)) g
      cases v with
      | true => exact .inr (.inl ⟨_, .available ha h1 hv⟩)
      | false =>
        have e3 : wait g true errstr W (5 * k + 2 + 1) = .jump st := by rw [wait_step, e2]; rw [wstep_available hv]; rfl
        cases hb : timeAdd (W (5 * k + 3)).now threeSeconds with
        | none => exact .inr (.inr (.inr ⟨rfl, by rw [wait_step, e3]; exact wstep_jump_threw hb⟩))
        | some e3' =>
          by_cases h3 : st ≤ e3'
          · cases hu : (W (5 * k + 4)).up with
            | true => exact .inl ⟨⟨e, ha, h1⟩, hv, ⟨e3', hb, h3⟩, hu⟩
            | false => exact .inr (.inl ⟨_, .down ha h1 hv hb h3 hu⟩)
          · exact .inr (.inl ⟨_, .jump ha h1 hv hb (Nat.not_le.1 h3)⟩)
    · exact .inr (.inl ⟨_, .deadline ha (Nat.not_lt.1 h1)⟩)

/-- The whole call: it polls for ever, or a poll stops it, or an addition throws. -/
theorem rounds_cases [Rigid X] {D : Duration} (hr : ∀ n, Reachable D (W n).buf) (k : Nat) :
    (∀ i < k, PollSleeps g W (W 0).now i) ∨
    ∃ j < k, (∀ i < j, PollSleeps g W (W 0).now i) ∧ ((∃ m, PollStops g W (W 0).now j m) ∨
      ((timeAdd (W 0).now g.timeout = none ∧ wait g true errstr W (5 * j + 1 + 1) = .threw) ∨
       (timeAdd (W (5 * j + 3)).now threeSeconds = none ∧ wait g true errstr W (5 * j + 3 + 1) = .threw))) := by
  induction k with
  | zero => exact .inl (fun i hi => absurd hi (Nat.not_lt_zero i))
  | succ k ih =>
    rcases ih with h | ⟨j, hj, h⟩
    · rcases round_cases (errstr := errstr) hr (W 0).now k (wait_sleeping k wait_start h) with hs | hs
      · refine .inl (fun i hi => ?_)
        rcases Nat.lt_succ_iff_lt_or_eq.1 hi with hi | hi
        · exact h i hi
        · subst hi; exact hs
      · exact .inr ⟨k, Nat.lt_succ_self k, h, hs⟩
    · exact .inr ⟨j, Nat.lt_succ_of_lt hj, h⟩

theorem stops_bounds {st : Time} {k m : Nat} (h : PollStops g W st k m) : 5 * k < m ∧ m < 5 * k + 5 := by
  cases h <;> omega

end

end Tf2
