import Verif.Spec.Locks

/-!
# The lock order
-/
namespace Tf2

/-- The order in which locks are acquired. -/
def LockKind.rank : LockKind → Nat
  | .server => 0
  | .messages => 1
  | .targets => 2
  | .requests => 3
  | .callbacks => 4
  | .frames => 5
  | .queue => 6
  | .calling => 7
  | .failure => 8
  | .action => 9

def Lock.rank (l : Lock) : Nat := l.kind.rank

/-- Every lock acquired has rank at least `k`, and more inside. -/
def Sync.Ok : Nat → Sync → Prop
  | _, .nop => True
  | k, .lock l b => k ≤ l.rank ∧ b.Ok (l.rank + 1)
  | k, .seq a b => a.Ok k ∧ b.Ok k
  | k, .alt a b => a.Ok k ∧ b.Ok k
  | k, .loop a => a.Ok k

/-- The remaining operations of a thread that holds `h` (innermost first): an acquired lock is above all held
ones, a released lock is the innermost one, at the end nothing is held. -/
def Ordered : List Lock → List LAct → Prop
  | h, [] => h = []
  | h, .acq l :: r => (∀ x ∈ h, x.rank < l.rank) ∧ Ordered (l :: h) r
  | h, .rel l :: r => ∃ h', h = l :: h' ∧ Ordered h' r

theorem Ordered.trace {s : Sync} {t : List LAct} (ht : s.Trace t) : ∀ {k : Nat} {h : List Lock} {u : List LAct},
    s.Ok k → (∀ x ∈ h, x.rank < k) → Ordered h u → Ordered h (t ++ u) := by
  induction ht with
  | skip => intro k h u _ _ hu; exact hu
  | nop => intro k h u _ _ hu; exact hu
  | @lock l b t ht ih =>
    intro k h u hok hh hu
    refine ⟨fun x hx => Nat.lt_of_lt_of_le (hh x hx) hok.1, ?_⟩
    show Ordered (l :: h) ((t ++ [.rel l]) ++ u)
    rw [List.append_assoc]
    refine ih hok.2 ?_ ⟨h, rfl, hu⟩
    intro x hx
    rcases List.mem_cons.1 hx with rfl | hx
    · exact Nat.lt_succ_self _
    · exact Nat.lt_succ_of_lt (Nat.lt_of_lt_of_le (hh x hx) hok.1)
  | seq _ _ ih1 ih2 =>
    intro k h u hok hh hu
    rw [List.append_assoc]
    exact ih1 hok.1 hh (ih2 hok.2 hh hu)
  | left _ ih => intro k h u hok hh hu; exact ih hok.1 hh hu
  | right _ ih => intro k h u hok hh hu; exact ih hok.2 hh hu
  | stop => intro k h u _ _ hu; exact hu
  | again _ _ ih1 ih2 =>
    intro k h u hok hh hu
    rw [List.append_assoc]
    exact ih1 hok hh (ih2 hok hh hu)

theorem LibCall.ok {o : Objects} {c : Sync} (h : LibCall o c) : c.Ok 0 := by
  cases h with
  | setTransform b =>
    have : ∀ l : List (Nat × Bool), Sync.Ok 0 (l.foldr (fun f r => .alt (.filterTransformable b f.1 f.2) r) .nop) := by
      intro l
      induction l with
      | nil => trivial
      | cons f r ih =>
        refine ⟨?_, ih⟩
        cases f.2 <;>
          simp [Sync.filterTransformable, Sync.logDebug, Sync.targetsOp, Sync.Ok, Sync.opt, Sync.emit, Sync.frameOp, Sync.failureOp, Lock.rank, LockKind.rank]
    simp [Sync.setTransform, Sync.test, Sync.Ok, Sync.opt, Sync.frameOp, Lock.rank, LockKind.rank, this]
  | filterClear h =>
    next f b q =>
    cases q <;>
      simp [Sync.filterClear, Sync.logDebug, Sync.targetsOp, Sync.opt, Sync.removeCallback, Sync.addCallback, Sync.Ok, Lock.rank, LockKind.rank]
  | filterAdd h =>
    next f b q =>
    cases q <;>
      simp [Sync.filterAdd, Sync.logDebug, Sync.targetsOp, Sync.addRequest, Sync.requestsOp, Sync.opt, Sync.emit, Sync.frameOp,
        Sync.failureOp, Sync.Ok, Lock.rank, LockKind.rank]
  | _ =>
    simp [Sync.frameOp, Sync.lookup5, Sync.addCallback, Sync.removeCallback, Sync.addRequest, Sync.requestsOp,
      Sync.failureOp, Sync.targetsOp, Sync.deliver, Sync.serverCheck, Sync.serverLook, Sync.goalState,
      Sync.serverCancel, Sync.serverGoal, Sync.opt, Sync.Ok, Lock.rank, LockKind.rank]

theorem Calls.ordered {o : Objects} {t : List LAct} (h : Calls o t) : Ordered [] t := by
  induction h with
  | done => rfl
  | call hc ht _ ih => exact Ordered.trace ht hc.ok (by simp) ih

/-- Invariant of all reachable states. -/
structure LInv (ts : List LThread) : Prop where
  ordered : ∀ t ∈ ts, Ordered t.held t.todo
  excl : ∀ (i j : Nat) (t u : LThread) (l : Lock), ts[i]? = some t → ts[j]? = some u → l ∈ t.held → l ∈ u.held → i = j

theorem mem_of_get {α : Type} {l : List α} {i : Nat} {a : α} (h : l[i]? = some a) : a ∈ l :=
  List.mem_of_getElem? h

theorem LInv.step {ts us : List LThread} (h : LInv ts) (hs : LStep ts us) : LInv us := by
  cases hs with
  | @acq i hd l r hi free =>
    have ho := h.ordered _ (mem_of_get hi)
    refine ⟨?_, ?_⟩
    · intro t ht
      rcases List.mem_or_eq_of_mem_set ht with ht | rfl
      · exact h.ordered t ht
      · exact ho.2
    · have key : ∀ (j : Nat) (u : LThread) (x : Lock), (ts.set i ⟨l :: hd, r⟩)[j]? = some u → x ∈ u.held →
          (∃ u' : LThread, ts[j]? = some u' ∧ x ∈ u'.held) ∨ (j = i ∧ x = l) := by
        intro j u x hj hx
        rw [List.getElem?_set] at hj
        split at hj
        · next hij =>
          split at hj
          · injection hj with hj; subst hj
            rcases List.mem_cons.1 hx with rfl | hx
            · exact .inr ⟨hij.symm, rfl⟩
            · exact .inl ⟨_, hij ▸ hi, hx⟩
          · cases hj
        · exact .inl ⟨u, hj, hx⟩
      intro j k t u x hj hk hx hy
      rcases key j t x hj hx with ⟨t', hj', hx'⟩ | ⟨rfl, rfl⟩ <;> rcases key k u x hk hy with ⟨u', hk', hy'⟩ | ⟨rfl, hyl⟩
      · exact h.excl _ _ _ _ _ hj' hk' hx' hy'
      · subst hyl; exact absurd ⟨t', mem_of_get hj', hx'⟩ free
      · exact absurd ⟨u', mem_of_get hk', hy'⟩ free
      · rfl
  | @rel i hd l r hi =>
    obtain ⟨h', hh, ho⟩ := h.ordered _ (mem_of_get hi)
    simp only at hh
    subst hh
    refine ⟨?_, ?_⟩
    · intro t ht
      rcases List.mem_or_eq_of_mem_set ht with ht | rfl
      · exact h.ordered t ht
      · simpa using ho
    · have key : ∀ (j : Nat) (u : LThread) (x : Lock), (ts.set i ⟨(l :: h').erase l, r⟩)[j]? = some u → x ∈ u.held →
          ∃ u' : LThread, ts[j]? = some u' ∧ x ∈ u'.held := by
        intro j u x hj hx
        rw [List.getElem?_set] at hj
        split at hj
        · next hij =>
          split at hj
          · injection hj with hj; subst hj
            exact ⟨_, hij ▸ hi, List.mem_of_mem_erase hx⟩
          · cases hj
        · exact ⟨u, hj, hx⟩
      intro j k t u x hj hk hx hy
      obtain ⟨t', hj', hx'⟩ := key j t x hj hx
      obtain ⟨u', hk', hy'⟩ := key k u x hk hy
      exact h.excl _ _ _ _ _ hj' hk' hx' hy'

theorem LInv.program {o : Objects} {ts : List LThread} (h : Program o ts) : LInv ts := by
  refine ⟨fun t ht => ?_, ?_⟩
  · have := h t ht
    rw [this.1]; exact this.2.ordered
  · intro i j t u l hi hj hx
    rw [(h t (mem_of_get hi)).1] at hx; cases hx

theorem LInv.steps {o : Objects} {ts us : List LThread} (h : Program o ts) (hs : LSteps ts us) : LInv us := by
  induction hs with
  | refl => exact LInv.program h
  | tail _ h' ih => exact ih.step h'

/-- The rank a thread waits for. -/
def wantRank (ts : List LThread) (i : Nat) : Nat :=
  match ts[i]? with
  | some ⟨_, .acq l :: _⟩ => l.rank
  | _ => 100

theorem waits_rank {ts : List LThread} (h : LInv ts) {i j : Nat} (hw : Waits ts i j) : wantRank ts i < wantRank ts j := by
  obtain ⟨hd, l, r, t, hi, hj, hl⟩ := hw
  have e1 : wantRank ts i = l.rank := by unfold wantRank; rw [hi]
  have ho := h.ordered t (mem_of_get hj)
  rw [e1]
  unfold wantRank
  rw [hj]
  have hlt : l.rank < 100 := by
    unfold Lock.rank LockKind.rank; split <;> omega
  obtain ⟨held, todo⟩ := t
  cases todo with
  | nil => exact hlt
  | cons a rest =>
    cases a with
    | acq x => exact ho.1 l hl
    | rel x => exact hlt

theorem chain_rank {ts : List LThread} (h : LInv ts) {i j : Nat} (hw : WaitsChain ts i j) : wantRank ts i < wantRank ts j := by
  induction hw with
  | one h' => exact waits_rank h h'
  | more h' _ ih => exact Nat.lt_trans (waits_rank h h') ih

end Tf2
