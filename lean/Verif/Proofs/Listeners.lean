import Verif.Spec.Listeners

/-!
# Lemmas about listeners
-/
namespace Tf2

variable {X : Type}

/-- Not the report of a `setTransform`. -/
def REv.Other (e : REv) : Prop := ∀ r, e ≠ .setDone r

theorem testIter_other {b : Buf X} {cbs : List Nat} {s : TestState} (hs : ∀ e ∈ s.evs, e.Other) :
    (∀ s', testIter b cbs s = .done s' → ∀ e ∈ s'.evs, e.Other) ∧
    (∀ s' x, testIter b cbs s = .threw s' x → ∀ e ∈ s'.evs, e.Other) := by
  have add : ∀ e : REv, e.Other → ∀ x ∈ s.evs ++ [e], x.Other := by
    intro e he x hx
    rcases List.mem_append.1 hx with h | h
    · exact hs x h
    · simp only [List.mem_cons, List.not_mem_nil, or_false] at h; subst h; exact he
  unfold testIter
  constructor
  · intro s' h
    split at h
    · cases h
    · simp only [] at h
      split at h
      · cases h
      · cases h
      · cases h; exact hs
      · split at h
        · cases h
        · split at h
          · split at h
            · cases h; exact add _ (fun r h => by cases h)
            · cases h
            · cases h
            · cases h
          · cases h; exact add _ (fun r h => by cases h)
  · intro s' x h
    split at h
    · cases h
    · simp only [] at h
      split at h
      · cases h
      · cases h; exact hs
      · cases h
      · split at h
        · cases h
        · split at h
          · split at h
            · cases h
            · cases h; exact hs
            · cases h; exact hs
            · cases h
          · cases h

theorem testLoop_other {b : Buf X} {cbs : List Nat} : ∀ (k : Nat) {s : TestState}, (∀ e ∈ s.evs, e.Other) →
    (∀ s', testLoop b cbs k s = .done s' → ∀ e ∈ s'.evs, e.Other) ∧
    (∀ s' x, testLoop b cbs k s = .threw s' x → ∀ e ∈ s'.evs, e.Other) := by
  intro k
  induction k with
  | zero => intro s hs; exact ⟨fun s' h => by cases h; exact hs, fun s' x h => by cases h⟩
  | succ k ih =>
    intro s hs
    have hit := testIter_other (b := b) (cbs := cbs) hs
    unfold testLoop
    split
    · cases hr : testIter b cbs s with
      | done s1 => exact ih (hit.1 s1 hr)
      | threw s1 x =>
        refine ⟨fun s' h => (by cases h), fun s' x' h => ?_⟩
        cases h
        exact hit.2 s1 x hr
      | ub => exact ⟨fun s' h => (by cases h), fun s' x h => (by cases h)⟩
    · exact ⟨fun s' h => by cases h; exact hs, fun s' x h => by cases h⟩

theorem test_other (s : RBuf X) : ∀ e ∈ s.test.2, e.Other := by
  have h := testLoop_other (b := s.buf) (cbs := s.cbs) s.reqs.length
    (s := { mem := s.reqs, size := s.reqs.length, i := 0, calls := [], locals := [], evs := [] }) (by simp)
  unfold RBuf.test
  cases hr : testRun s.buf s.cbs s.reqs with
  | done t => exact h.1 t hr
  | threw t x =>
    intro e he
    rcases List.mem_append.1 he with h' | h'
    · obtain ⟨e', _, h2⟩ := List.mem_filterMap.1 h'
      cases e' <;> simp only [REv.lost] at h2 <;> cases h2 <;> exact fun r h => by cases h
    · simp only [List.mem_cons, List.not_mem_nil, or_false] at h'; subst h'; exact fun r h => by cases h
  | ub =>
    intro e he
    simp only [List.mem_cons, List.not_mem_nil, or_false] at he; subst he; exact fun r h => by cases h

/-- The events of one call: the report of an accepted transform is the first, and only `setTransform` makes it. -/
theorem step_events [Rigid X] (s : RBuf X) (op : ROp X) :
    (∃ r, (s.step op).2 = .setDone .accepted :: r ∧ ∀ e ∈ r, e.Other) ∨ REv.setDone .accepted ∉ (s.step op).2 := by
  cases op with
  | set m a st =>
    simp only [RBuf.step, RBuf.setTransform]
    rcases hb : s.buf.setTransform m a st with ⟨b, r⟩
    cases r with
    | accepted => exact .inl ⟨_, rfl, test_other _⟩
    | ub => exact .inr (by simp)
    | _ => exact .inr (by simp)
  | clear => exact .inr (by simp [RBuf.step])
  | addCallback => refine .inr ?_; simp only [RBuf.step, RBuf.addCallback]; split <;> simp
  | removeCallback cb => exact .inr (by simp [RBuf.step, RBuf.removeCallback])
  | addRequest cb t src tm =>
    refine .inr ?_
    simp only [RBuf.step, RBuf.addRequest]
    split
    · simp
    · split
      · simp
      · simp
      · simp
      · split <;> simp
  | cancelRequest h => exact .inr (by simp [RBuf.step, RBuf.cancelRequest])
  | invoke k =>
    refine .inr ?_
    simp only [RBuf.step, RBuf.invoke]
    split
    · simp
    · simp only []; split <;> simp

theorem count_map_core (e : REv) (l : List REv) : (l.map SigEv.core).count (.core e) = l.count e := by
  induction l with
  | nil => rfl
  | cons a r ih =>
    rw [List.map_cons, List.count_cons, List.count_cons, ih]
    by_cases h : a = e
    · subst h; simp
    · have : SigEv.core a ≠ SigEv.core e := fun h' => by injection h' with h'; exact h h'
      simp [h, this]

theorem rings_map_core (c : Nat) (l : List REv) : ringsOf c (l.map SigEv.core) = 0 := by
  unfold ringsOf
  rw [List.count_eq_zero]
  intro h
  obtain ⟨_, _, h⟩ := List.mem_map.1 h
  cases h

/-- A call stores a transform and comes back normally: at most as often as transforms are accepted, and exactly as often if
nothing is thrown. -/
theorem stored_count [Rigid X] (s : RBuf X) (op : ROp X) :
    (if stored (s.step op).2 then 1 else 0) ≤ acceptedIn ((s.step op).2.map .core) ∧
    (NoThrow ((s.step op).2.map .core) → (if stored (s.step op).2 then 1 else 0) = acceptedIn ((s.step op).2.map .core)) := by
  unfold acceptedIn
  rw [count_map_core]
  rcases step_events s op with ⟨r, e, ho⟩ | h
  · rw [e]
    have hc : r.count (.setDone .accepted) = 0 := List.count_eq_zero.2 (fun h => ho _ h _ rfl)
    rw [List.count_cons, hc]
    refine ⟨by split <;> simp, ?_⟩
    rintro ⟨h1, h2⟩
    have : stored (.setDone .accepted :: r) = true := by
      unfold stored
      rw [List.all_eq_true]
      intro e' he'
      cases e' with
      | testThrew x => exact absurd (List.mem_map_of_mem (List.mem_cons_of_mem _ he')) (h1 x)
      | undefined => exact absurd (List.mem_map_of_mem (List.mem_cons_of_mem _ he')) h2
      | _ => rfl
    rw [this]; rfl
  · have hs : stored (s.step op).2 = false := by
      cases hq : stored (s.step op).2 with
      | false => rfl
      | true =>
        exfalso
        unfold stored at hq
        split at hq
        · rename_i r e; exact h (by rw [e]; exact List.mem_cons_self ..)
        · cases hq
    rw [List.count_eq_zero.2 h, hs]
    exact ⟨Nat.le_refl _, fun _ => rfl⟩

theorem run_cons [Rigid X] (op : SigOp X) (r : List (SigOp X)) (s : SigBuf X) :
    SigBuf.run (op :: r) s = ((SigBuf.run r (s.step op).1).1, (s.step op).2 ++ (SigBuf.run r (s.step op).1).2) := rfl

theorem SigBuf.run_append [Rigid X] (l1 l2 : List (SigOp X)) : ∀ (s : SigBuf X),
    SigBuf.run (l1 ++ l2) s = ((SigBuf.run l2 (SigBuf.run l1 s).1).1, (SigBuf.run l1 s).2 ++ (SigBuf.run l2 (SigBuf.run l1 s).1).2) := by
  induction l1 with
  | nil => intro s; rfl
  | cons op r ih => intro s; rw [List.cons_append, run_cons, ih, run_cons]; simp [List.append_assoc]

theorem ringsOf_append (c : Nat) (a b : List SigEv) : ringsOf c (a ++ b) = ringsOf c a + ringsOf c b := List.count_append

theorem acceptedIn_append (a b : List SigEv) : acceptedIn (a ++ b) = acceptedIn a + acceptedIn b := List.count_append

theorem NoThrow.append {a b : List SigEv} : NoThrow (a ++ b) ↔ NoThrow a ∧ NoThrow b := by
  unfold NoThrow
  simp only [List.mem_append, not_or]
  exact ⟨fun ⟨h1, h2⟩ => ⟨⟨fun e => (h1 e).1, h2.1⟩, fun e => (h1 e).2, h2.2⟩,
    fun ⟨⟨h1, h2⟩, h3, h4⟩ => ⟨fun e => ⟨h1 e, h3 e⟩, h2, h4⟩⟩

theorem count_eraseIdx {l : List Nat} {k c : Nat} (h : l[k]? = some c) (d : Nat) :
    (l.eraseIdx k).count d + (if c = d then 1 else 0) = l.count d := by
  induction l generalizing k with
  | nil => cases h
  | cons a r ih =>
    cases k with
    | zero =>
      simp only [List.getElem?_cons_zero, Option.some.injEq] at h
      subst h
      rw [List.eraseIdx_cons_zero, List.count_cons]
      simp
    | succ k =>
      simp only [List.getElem?_cons_succ] at h
      rw [List.eraseIdx_cons_succ, List.count_cons, List.count_cons]
      have := ih h
      omega

/-- Connections are numbered. -/
structure SigInv (s : SigBuf X) : Prop where
  nodup : s.slots.Nodup
  lt : ∀ c ∈ s.slots, c < s.next
  ringLt : ∀ c ∈ s.ringing, c < s.next

theorem SigInv.init (D : Duration) : SigInv (SigBuf.init D : SigBuf X) :=
  ⟨List.nodup_nil, fun c h => (by cases h), fun c h => (by cases h)⟩

theorem SigInv.step [Rigid X] {s : SigBuf X} (h : SigInv s) (op : SigOp X) : SigInv (s.step op).1 := by
  cases op with
  | core op => exact ⟨h.nodup, h.lt, h.ringLt⟩
  | listen =>
    refine ⟨?_, ?_, ?_⟩
    · show (s.slots ++ [s.next]).Nodup
      rw [List.nodup_append]
      refine ⟨h.nodup, by simp, ?_⟩
      intro a ha b hb
      simp only [List.mem_cons, List.not_mem_nil, or_false] at hb
      have := h.lt a ha
      omega
    · intro c hc
      rcases List.mem_append.1 (show c ∈ s.slots ++ [s.next] from hc) with h' | h'
      · have := h.lt c h'; show c < s.next + 1; omega
      · simp only [List.mem_cons, List.not_mem_nil, or_false] at h'; show c < s.next + 1; omega
    · intro c hc; have := h.ringLt c hc; show c < s.next + 1; omega
  | unlisten d =>
    exact ⟨List.Nodup.sublist (List.filter_sublist) h.nodup, fun c hc => h.lt c (List.mem_filter.1 hc).1, h.ringLt⟩
  | emit =>
    simp only [SigBuf.step]
    split
    · exact h
    · refine ⟨h.nodup, h.lt, ?_⟩
      intro c hc
      rcases List.mem_append.1 (show c ∈ s.ringing ++ s.slots from hc) with h' | h'
      · exact h.ringLt c h'
      · exact h.lt c h'
  | ring k =>
    simp only [SigBuf.step]
    split
    · exact h
    · exact ⟨h.nodup, h.lt, fun c hc => h.ringLt c (List.mem_of_mem_eraseIdx hc)⟩

theorem SigInv.run [Rigid X] (ops : List (SigOp X)) : ∀ {s : SigBuf X}, SigInv s → SigInv (SigBuf.run ops s).1 := by
  induction ops with
  | nil => intro s h; exact h
  | cons op r ih => intro s h; exact ih (h.step op)

/-- What one step does to the account of a connected listener that stays connected. -/
theorem step_account [Rigid X] {s : SigBuf X} (h : SigInv s) {c : Nat} (hc : c ∈ s.slots) {op : SigOp X}
    (hop : ∀ d, op = .unlisten d → d ≠ c) :
    c ∈ (s.step op).1.slots ∧
    ringsOf c (s.step op).2 + (s.step op).1.ringing.count c + (s.step op).1.due ≤
      s.ringing.count c + s.due + acceptedIn (s.step op).2 ∧
    (NoThrow (s.step op).2 → ringsOf c (s.step op).2 + (s.step op).1.ringing.count c + (s.step op).1.due =
      s.ringing.count c + s.due + acceptedIn (s.step op).2) := by
  cases op with
  | core op =>
    obtain ⟨h1, h2⟩ := stored_count s.core op
    simp only [SigBuf.step]
    rw [rings_map_core]
    refine ⟨hc, ?_, fun hn => ?_⟩
    · split
      · rename_i hs; rw [if_pos hs] at h1; omega
      · omega
    · have h2 := h2 hn
      split
      · rename_i hs; rw [if_pos hs] at h2; omega
      · rename_i hs; rw [if_neg hs] at h2; omega
  | listen =>
    have e : ringsOf c [SigEv.listening s.next] = 0 := by unfold ringsOf; rw [List.count_eq_zero]; simp
    have e' : acceptedIn [SigEv.listening s.next] = 0 := by unfold acceptedIn; rw [List.count_eq_zero]; simp
    simp only [SigBuf.step]
    rw [e, e']
    exact ⟨List.mem_append_left _ hc, by omega, fun _ => by omega⟩
  | unlisten d =>
    have e : ringsOf c [] = 0 := rfl
    have e' : acceptedIn [] = 0 := rfl
    simp only [SigBuf.step]
    rw [e, e']
    refine ⟨List.mem_filter.2 ⟨hc, ?_⟩, by omega, fun _ => by omega⟩
    simpa using (hop d rfl).symm
  | emit =>
    have e : ringsOf c [] = 0 := rfl
    have e' : acceptedIn [] = 0 := rfl
    have h1 : s.slots.count c = 1 := by
      have := List.nodup_iff_count.1 h.nodup c
      have := List.count_pos_iff.2 hc
      omega
    simp only [SigBuf.step]
    split
    · dsimp only; rw [e, e']; exact ⟨hc, by omega, fun _ => by omega⟩
    · dsimp only
      rw [e, e', List.count_append, h1]
      exact ⟨hc, by omega, fun _ => by omega⟩
  | ring k =>
    have e : ringsOf c [] = 0 := rfl
    have e' : acceptedIn [] = 0 := rfl
    simp only [SigBuf.step]
    split
    · dsimp only; rw [e, e']; exact ⟨hc, by omega, fun _ => by omega⟩
    · rename_i d hd
      have := count_eraseIdx hd c
      dsimp only
      have e2 : ∀ d, acceptedIn [SigEv.rang d] = 0 := by intro d; unfold acceptedIn; rw [List.count_eq_zero]; simp
      by_cases hdc : d = c
      · subst hdc
        rw [if_pos hc, e2]
        have e3 : ringsOf d [SigEv.rang d] = 1 := by unfold ringsOf; simp
        rw [e3]
        rw [if_pos rfl] at this
        exact ⟨hc, by omega, fun _ => by omega⟩
      · rw [if_neg hdc] at this
        have e3 : ringsOf c (if d ∈ s.slots then [SigEv.rang d] else []) = 0 := by
          unfold ringsOf; rw [List.count_eq_zero]; split <;> simp; exact fun h => hdc h.symm
        have e4 : acceptedIn (if d ∈ s.slots then [SigEv.rang d] else []) = 0 := by
          split
          · exact e2 d
          · exact e'
        rw [e3, e4]
        exact ⟨hc, by omega, fun _ => by omega⟩

end Tf2
