import Verif.Proofs.Locks

/-!
# C45: the locks cannot deadlock
-/
namespace Tf2

/-- C45. Any number of threads, each making any sequence of calls on any buffers, filters and servers, in any
interleaving: no chain of waits for locks leads from a thread back to itself. -/
theorem C45_no_cycle (o : Objects) (ts us : List LThread) (hp : Program o ts) (hs : LSteps ts us) (i : Nat) :
    ¬ WaitsChain us i i :=
  fun h => Nat.lt_irrefl _ (chain_rank (LInv.steps hp hs) h)

/-- C45. ... and as long as some thread is not finished, some thread can go on. -/
theorem C45_progress (o : Objects) (ts us : List LThread) (hp : Program o ts) (hs : LSteps ts us)
    (t : LThread) (ht : t ∈ us) (hne : t.todo ≠ []) : ∃ vs, LStep us vs := by
  have inv := LInv.steps hp hs
  -- take the thread with work left that waits for the lock of highest rank
  have key : ∀ n i, 100 - wantRank us i ≤ n → (∃ u, us[i]? = some u ∧ u.todo ≠ []) → ∃ vs, LStep us vs := by
    intro n
    induction n with
    | zero =>
      rintro i hi ⟨u, hu, hne⟩
      obtain ⟨held, todo⟩ := u
      cases todo with
      | nil => exact absurd rfl hne
      | cons a r =>
        cases a with
        | rel l => exact ⟨_, .rel hu⟩
        | acq l =>
          have : wantRank us i = l.rank := by unfold wantRank; rw [hu]
          have hlt : l.rank < 100 := by
            unfold Lock.rank LockKind.rank; split <;> omega
          omega
    | succ n ih =>
      rintro i hi ⟨u, hu, hne⟩
      obtain ⟨held, todo⟩ := u
      cases todo with
      | nil => exact absurd rfl hne
      | cons a r =>
        cases a with
        | rel l => exact ⟨_, .rel hu⟩
        | acq l =>
          by_cases hf : heldBy us l
          · obtain ⟨w, hw, hl⟩ := hf
            obtain ⟨j, hj⟩ := List.getElem?_of_mem hw
            have hlt := waits_rank inv (i := i) (j := j) ⟨held, l, r, w, hu, hj, hl⟩
            refine ih j (by omega) ⟨w, hj, ?_⟩
            intro hnil
            have ho := inv.ordered w hw
            rw [hnil] at ho
            have : w.held = [] := ho
            rw [this] at hl; cases hl
          · exact ⟨_, .acq hu hf⟩
  obtain ⟨i, hi⟩ := List.getElem?_of_mem ht
  exact key _ i (Nat.le_refl _) ⟨t, hi, hne⟩

/-- C45. Mutual exclusion: a lock is held by at most one thread, and a thread never waits for a lock it holds. -/
theorem C45_exclusive (o : Objects) (ts us : List LThread) (hp : Program o ts) (hs : LSteps ts us) :
    (∀ (i j : Nat) (t u : LThread) (l : Lock), us[i]? = some t → us[j]? = some u → l ∈ t.held → l ∈ u.held → i = j) ∧
    ∀ t ∈ us, ∀ l r, t.todo = .acq l :: r → l ∉ t.held := by
  have inv := LInv.steps hp hs
  refine ⟨inv.excl, fun t ht l r he hm => ?_⟩
  have ho := inv.ordered t ht
  rw [he] at ho
  exact absurd (ho.1 l hm) (Nat.lt_irrefl _)

/-! A program in which locks are contended: a filter is cleared while another thread sets a transform that makes
one of its messages ready. -/

def exObjects : Objects := { filters := [(0, 0, true)], servers := [(0, 0)] }

/-- `clear` of the filter. -/
def exClear : List LAct :=
  [.acq ⟨.messages, 0⟩, .acq ⟨.callbacks, 0⟩, .rel ⟨.callbacks, 0⟩, .acq ⟨.requests, 0⟩, .rel ⟨.requests, 0⟩,
   .acq ⟨.callbacks, 0⟩, .rel ⟨.callbacks, 0⟩, .acq ⟨.queue, 0⟩, .rel ⟨.queue, 0⟩, .acq ⟨.calling, 0⟩,
   .rel ⟨.calling, 0⟩, .rel ⟨.messages, 0⟩]

/-- `setTransform` with one request answered and its filter's callback. -/
def exSet : List LAct :=
  [.acq ⟨.frames, 0⟩, .rel ⟨.frames, 0⟩, .acq ⟨.requests, 0⟩, .acq ⟨.frames, 0⟩, .rel ⟨.frames, 0⟩,
   .acq ⟨.callbacks, 0⟩, .rel ⟨.callbacks, 0⟩, .rel ⟨.requests, 0⟩, .acq ⟨.messages, 0⟩, .acq ⟨.targets, 0⟩,
   .acq ⟨.frames, 0⟩, .rel ⟨.frames, 0⟩, .rel ⟨.targets, 0⟩, .acq ⟨.queue, 0⟩, .rel ⟨.queue, 0⟩, .rel ⟨.messages, 0⟩]

theorem exClear_trace : (Sync.filterClear 0 0 true).Trace exClear :=
  .lock (t := exClear.tail.dropLast)
    (.seq (t := []) (.left .nop) <| .seq (t := [.acq ⟨.callbacks, 0⟩, .rel ⟨.callbacks, 0⟩, .acq ⟨.requests, 0⟩, .rel ⟨.requests, 0⟩])
      (.seq (.lock .nop) (.lock .nop))
      (.seq (t := [.acq ⟨.callbacks, 0⟩, .rel ⟨.callbacks, 0⟩]) (.lock .nop) (.seq (.lock .nop) (.lock .nop))))

theorem exProgram : Program exObjects [⟨[], exClear⟩, ⟨[], exSet⟩] := by
  intro t ht
  rcases List.mem_cons.1 ht with rfl | ht
  · refine ⟨rfl, ?_⟩
    exact .call (u := []) (.filterClear (by simp [exObjects])) exClear_trace .done
  · rcases List.mem_cons.1 ht with rfl | ht
    · refine ⟨rfl, ?_⟩
      have h1 : (Sync.frameOp 0).Trace [.acq ⟨.frames, 0⟩, .rel ⟨.frames, 0⟩] := .right (.lock .nop)
      have h2 : (Sync.loop (Sync.frameOp 0 ;; Sync.opt (.lock ⟨.callbacks, 0⟩ .nop))).Trace
          [.acq ⟨.frames, 0⟩, .rel ⟨.frames, 0⟩, .acq ⟨.callbacks, 0⟩, .rel ⟨.callbacks, 0⟩] :=
        .again (.seq h1 (.right (.lock .nop))) .stop
      have h3 : (Sync.filterTransformable 0 0 true).Trace
          [.acq ⟨.messages, 0⟩, .acq ⟨.targets, 0⟩, .acq ⟨.frames, 0⟩, .rel ⟨.frames, 0⟩, .rel ⟨.targets, 0⟩,
           .acq ⟨.queue, 0⟩, .rel ⟨.queue, 0⟩, .rel ⟨.messages, 0⟩] :=
        .lock (t := [.acq ⟨.targets, 0⟩, .acq ⟨.frames, 0⟩, .rel ⟨.frames, 0⟩, .rel ⟨.targets, 0⟩,
            .acq ⟨.queue, 0⟩, .rel ⟨.queue, 0⟩])
          (.right (.seq (t := [.acq ⟨.targets, 0⟩, .acq ⟨.frames, 0⟩, .rel ⟨.frames, 0⟩, .rel ⟨.targets, 0⟩])
            (.right (.lock (t := [.acq ⟨.frames, 0⟩, .rel ⟨.frames, 0⟩]) (.again h1 .stop))) (.seq (t := []) (.left .nop) (.lock .nop))))
      have h4 : (Sync.test 0 (exObjects.on 0)).Trace (exSet.drop 2) :=
        .seq (.lock h2) (.again (.left h3) .stop)
      have h5 : (Sync.setTransform 0 (exObjects.on 0)).Trace exSet := .right (.seq h1 (.right h4))
      exact .call (u := []) (.setTransform 0) h5 .done
    · cases ht

/-- A state of that program in which a thread has to wait. -/
example : ∃ us, LSteps [⟨[], exClear⟩, ⟨[], exSet⟩] us ∧ Waits us 0 1 := by
  refine ⟨[⟨[⟨.messages, 0⟩], exClear.drop 3⟩, ⟨[⟨.requests, 0⟩], exSet.drop 3⟩], ?_, ⟨_, _, _, _, rfl, rfl, by simp⟩⟩
  have s1 : LSteps [⟨[], exClear⟩, ⟨[], exSet⟩] [⟨[⟨.messages, 0⟩], exClear.drop 1⟩, ⟨[], exSet⟩] :=
    .tail .refl (.acq (i := 0) (h := []) rfl (by simp [heldBy]))
  have s2 : LSteps [⟨[], exClear⟩, ⟨[], exSet⟩] [⟨[⟨.callbacks, 0⟩, ⟨.messages, 0⟩], exClear.drop 2⟩, ⟨[], exSet⟩] :=
    .tail s1 (.acq (i := 0) (h := [⟨.messages, 0⟩]) rfl (by simp [heldBy]))
  have s3 : LSteps [⟨[], exClear⟩, ⟨[], exSet⟩] [⟨[⟨.messages, 0⟩], exClear.drop 3⟩, ⟨[], exSet⟩] :=
    .tail s2 (.rel (i := 0) (h := [⟨.callbacks, 0⟩, ⟨.messages, 0⟩]) (l := ⟨.callbacks, 0⟩) (r := exClear.drop 3) rfl)
  have s4 : LSteps [⟨[], exClear⟩, ⟨[], exSet⟩] [⟨[⟨.messages, 0⟩], exClear.drop 3⟩, ⟨[⟨.frames, 0⟩], exSet.drop 1⟩] :=
    .tail s3 (.acq (i := 1) (h := []) rfl (by simp [heldBy]))
  have s5 : LSteps [⟨[], exClear⟩, ⟨[], exSet⟩] [⟨[⟨.messages, 0⟩], exClear.drop 3⟩, ⟨[], exSet.drop 2⟩] :=
    .tail s4 (.rel (i := 1) (h := [⟨.frames, 0⟩]) (l := ⟨.frames, 0⟩) (r := exSet.drop 2) rfl)
  exact .tail s5 (.acq (i := 1) (h := []) rfl (by simp [heldBy]))

/-- `clear` of a filter without a callback queue. -/
def exDirect : List LAct :=
  [.acq ⟨.messages, 0⟩, .acq ⟨.callbacks, 0⟩, .rel ⟨.callbacks, 0⟩, .acq ⟨.requests, 0⟩, .rel ⟨.requests, 0⟩,
   .acq ⟨.callbacks, 0⟩, .rel ⟨.callbacks, 0⟩, .rel ⟨.messages, 0⟩]

theorem exDirect_trace : (Sync.filterClear 0 0 false).Trace exDirect :=
  .lock (t := exDirect.tail.dropLast)
    (.seq (t := []) (.left .nop) <| .seq (t := [.acq ⟨.callbacks, 0⟩, .rel ⟨.callbacks, 0⟩, .acq ⟨.requests, 0⟩, .rel ⟨.requests, 0⟩])
      (.seq (.lock .nop) (.lock .nop))
      (.seq (t := [.acq ⟨.callbacks, 0⟩, .rel ⟨.callbacks, 0⟩]) (.lock .nop) .nop))

/-- C45, finding. Without a callback queue the user's callback runs while `add` or `setTransform` holds the
filter's message mutex; if it clears the filter, the thread waits for itself. -/
theorem C45_reentrant_finding :
    ∃ us, LSteps [⟨[], .acq ⟨.messages, 0⟩ :: exDirect ++ [.rel ⟨.messages, 0⟩]⟩] us ∧
      (Sync.lock ⟨.messages, 0⟩ (.filterClear 0 0 false)).Trace (.acq ⟨.messages, 0⟩ :: exDirect ++ [.rel ⟨.messages, 0⟩]) ∧
      Waits us 0 0 ∧ ∀ vs, ¬ LStep us vs := by
  refine ⟨[⟨[⟨.messages, 0⟩], exDirect ++ [.rel ⟨.messages, 0⟩]⟩], .tail .refl (.acq (i := 0) (h := []) rfl (by simp [heldBy])),
    .lock exDirect_trace, ⟨_, _, _, _, rfl, rfl, by simp⟩, ?_⟩
  intro vs hs
  cases hs with
  | @acq i h l r hi free =>
    cases i with
    | zero =>
      simp [exDirect] at hi
      obtain ⟨rfl, rfl, -⟩ := hi
      exact free ⟨_, List.mem_singleton.2 rfl, by simp⟩
    | succ i => simp at hi
  | @rel i h l r hi =>
    cases i with
    | zero => simp [exDirect] at hi
    | succ i => simp at hi

end Tf2
