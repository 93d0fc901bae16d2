import Verif.Spec.Accesses
import Verif.Spec.Locks

/-!
# Accesses under mutexes
-/
namespace Tf2

/-- What orders the accesses to a member. -/
inductive Guarded where
  | by (k : LockKind)
  | never               -- it is never written
  | nothing
deriving DecidableEq

def MemKind.guard : MemKind → Guarded
  | .authority => .by .frames
  | .cacheTime => .never
  | .callbacks => .by .callbacks
  | .callbackCounter => .by .callbacks
  | .requests => .by .requests
  | .targetText => .by .targets
  | .messages => .by .messages
  | .warned => .by .messages
  | .successCount => .by .messages
  | .droppedCount => .by .messages
  | .failureSignal => .by .failure
  | .activeGoals => .by .server
  | _ => .nothing

/-- An access by a thread that holds `h` keeps to the rule. -/
def Allowed (h : List Lock) (x : Loc) (w : Bool) : Prop :=
  match x.kind.guard with
  | .by k => ⟨k, x.obj⟩ ∈ h
  | .never => w = false
  | .nothing => True

/-- All accesses in a piece of code run by a thread that holds `h` do. -/
def ASync.Safe : List Lock → ASync → Prop
  | _, .nop => True
  | h, .acc x w => Allowed h x w
  | h, .lock l b => b.Safe (l :: h)
  | h, .seq a b => a.Safe h ∧ b.Safe h
  | h, .alt a b => a.Safe h ∧ b.Safe h
  | h, .loop a => a.Safe h

/-- The remaining actions of a thread that holds `h` do. -/
def Disciplined : List Lock → List AAct → Prop
  | _, [] => True
  | h, .acq l :: r => Disciplined (l :: h) r
  | h, .rel l :: r => Disciplined (h.erase l) r
  | h, .acc x w :: r => Allowed h x w ∧ Disciplined h r

theorem Disciplined.trace {s : ASync} {t : List AAct} (ht : s.Trace t) : ∀ {h : List Lock} {u : List AAct},
    s.Safe h → Disciplined h u → Disciplined h (t ++ u) := by
  induction ht with
  | skip => intro h u _ hu; exact hu
  | nop => intro h u _ hu; exact hu
  | acc => intro h u hs hu; exact ⟨hs, hu⟩
  | @lock l b t ht ih =>
    intro h u hs hu
    show Disciplined (l :: h) ((t ++ [.rel l]) ++ u)
    rw [List.append_assoc]
    refine ih hs ?_
    show Disciplined ((l :: h).erase l) u
    simpa using hu
  | seq _ _ ih1 ih2 => intro h u hs hu; rw [List.append_assoc]; exact ih1 hs.1 (ih2 hs.2 hu)
  | left _ ih => intro h u hs hu; exact ih hs.1 hu
  | right _ ih => intro h u hs hu; exact ih hs.2 hu
  | stop => intro h u _ hu; exact hu
  | again _ _ ih1 ih2 => intro h u hs hu; rw [List.append_assoc]; exact ih1 hs (ih2 hs hu)

section
open ASync

theorem transformable_safe (b : Nat) (f : Nat × Bool) (h : List Lock) : (filterTransformable b f.1 f.2).Safe h := by
  cases f.2 <;>
    simp [filterTransformable, Safe, opt, query, emit, failureOp, logDebug, getTargets, rd, wr, Allowed, MemKind.guard]

theorem test_safe (b : Nat) (fs : List (Nat × Bool)) (h : List Lock) : (test b fs).Safe h := by
  have : ∀ l : List (Nat × Bool), Safe h (l.foldr (fun f r => .alt (filterTransformable b f.1 f.2) r) .nop) := by
    intro l
    induction l with
    | nil => trivial
    | cons f r ih => exact ⟨transformable_safe b f h, ih⟩
  simp [test, Safe, opt, query, findFrame, latestCommon, rd, wr, Allowed, MemKind.guard, this]

theorem setTransform_safe (b : Nat) (fs : List (Nat × Bool)) (h : List Lock) : (setTransform b fs).Safe h := by
  simp [setTransform, insertFrame, Safe, opt, rd, wr, Allowed, MemKind.guard, test_safe]

theorem receive_safe (i b : Nat) (fs : List (Nat × Bool)) (h : List Lock) : (receive i b fs).Safe h := by
  simp [receive, clear, Safe, opt, rd, wr, Allowed, MemKind.guard, setTransform_safe]

theorem safe_of_call {o : Objects} {c : ASync} (hc : ACall o c) : c.Safe [] := by
  cases hc with
  | setTransform b => exact setTransform_safe ..
  | receive i b => exact receive_safe ..
  | spinOnce i b => simp [spinOnce, Safe, rd, Allowed, MemKind.guard, receive_safe]
  | filterClear h =>
    next f b q =>
    cases q <;>
      simp [filterClear, logDebug, getTargets, removeCallback, addCallback, Safe, opt, rd, wr, Allowed, MemKind.guard]
  | filterAdd h =>
    next f b q =>
    cases q <;>
      simp [filterAdd, logDebug, getTargets, addRequest, findFrame, query, latestCommon, cancelRequest, emit, failureOp, Safe, opt,
        rd, wr, Allowed, MemKind.guard]
  | _ =>
    simp [query, clear, findFrame, lookup5, addCallback, removeCallback, addRequest, latestCommon, cancelRequest, listenersOp,
      setDedicated, isDedicated, failureOp, setTargets, getTargets, setTolerance, setQueueSize, getQueueSize, deliver, serverCheck,
      serverLook, goalState, serverCancel, serverGoal, stopListener, sendStatic, Safe, opt, rd, wr, Allowed, MemKind.guard]

end

theorem ACalls.disciplined {o : Objects} {t : List AAct} (h : ACalls o t) : Disciplined [] t := by
  induction h with
  | done => trivial
  | call hc ht _ ih => exact Disciplined.trace ht (safe_of_call hc) ih

/-! ### Executions -/

/-- Invariant of all reachable states. -/
structure AInv (ts : List AThread) : Prop where
  disc : ∀ t ∈ ts, Disciplined t.held t.todo
  excl : ∀ (i j : Nat) (t u : AThread) (l : Lock), ts[i]? = some t → ts[j]? = some u → l ∈ t.held → l ∈ u.held → i = j

theorem get_set {ts : List AThread} {i j : Nat} {t0 t u : AThread} (_hi : ts[i]? = some t0) (hj : (ts.set i t)[j]? = some u) :
    (j = i ∧ u = t) ∨ (j ≠ i ∧ ts[j]? = some u) := by
  rw [List.getElem?_set] at hj
  split at hj
  · next hij =>
    split at hj
    · injection hj with hj
      exact .inl ⟨hij.symm, hj.symm⟩
    · cases hj
  · next hij => exact .inr ⟨fun h => hij h.symm, hj⟩

theorem AInv.step {ts us : List AThread} {e : Nat × AAct} (h : AInv ts) (hs : AStep ts e us) : AInv us := by
  have keep : ∀ {i : Nat} {t0 t : AThread} (_ : ts[i]? = some t0), (∀ l ∈ t.held, l ∈ t0.held) →
      ∀ (j k : Nat) (u v : AThread) (l : Lock), (ts.set i t)[j]? = some u → (ts.set i t)[k]? = some v → l ∈ u.held →
        l ∈ v.held → j = k := by
    intro i t0 t hi hsub j k u v l hj hk hx hy
    have key : ∀ {j : Nat} {u : AThread}, (ts.set i t)[j]? = some u → l ∈ u.held → ∃ u', ts[j]? = some u' ∧ l ∈ u'.held := by
      intro j u hj hx
      rcases get_set hi hj with ⟨rfl, rfl⟩ | ⟨_, hj⟩
      · exact ⟨t0, hi, hsub l hx⟩
      · exact ⟨u, hj, hx⟩
    obtain ⟨u', hj', hx'⟩ := key hj hx
    obtain ⟨v', hk', hy'⟩ := key hk hy
    exact h.excl _ _ _ _ _ hj' hk' hx' hy'
  have disc : ∀ {i : Nat} {t : AThread}, Disciplined t.held t.todo → ∀ u ∈ ts.set i t, Disciplined u.held u.todo := by
    intro i t ht u hu
    rcases List.mem_or_eq_of_mem_set hu with hu | rfl
    · exact h.disc u hu
    · exact ht
  cases hs with
  | @acq i hd l r hi free =>
    have hd' := h.disc _ (List.mem_of_getElem? hi)
    refine ⟨disc (t := ⟨l :: hd, r⟩) hd', ?_⟩
    intro j k u v x hj hk hx hy
    rcases get_set hi hj with ⟨rfl, rfl⟩ | ⟨_, hj'⟩
    · rcases get_set hi hk with ⟨rfl, rfl⟩ | ⟨_, hk'⟩
      · rfl
      · rcases List.mem_cons.1 hx with rfl | hx
        · exact absurd ⟨v, List.mem_of_getElem? hk', hy⟩ free
        · exact h.excl _ _ _ _ _ hi hk' hx hy
    · rcases get_set hi hk with ⟨rfl, rfl⟩ | ⟨_, hk'⟩
      · rcases List.mem_cons.1 hy with rfl | hy
        · exact absurd ⟨u, List.mem_of_getElem? hj', hx⟩ free
        · exact h.excl _ _ _ _ _ hj' hi hx hy
      · exact h.excl _ _ _ _ _ hj' hk' hx hy
  | @rel i hd l r hi =>
    have hd' := h.disc _ (List.mem_of_getElem? hi)
    exact ⟨disc (t := ⟨hd.erase l, r⟩) hd', keep hi (fun x hx => List.mem_of_mem_erase hx)⟩
  | @acc i hd x w r hi =>
    exact ⟨disc (h.disc _ (List.mem_of_getElem? hi)).2, keep hi (fun x hx => hx)⟩

theorem AInv.exec {ts us : List AThread} {e : List (Nat × AAct)} (hs : AExec ts e us) (h : AInv ts) : AInv us := by
  induction hs with
  | done => exact h
  | step h1 _ ih => exact ih (h.step h1)

theorem AInv.program {o : Objects} {ts : List AThread} (h : AProgram o ts) : AInv ts := by
  refine ⟨fun t ht => ?_, ?_⟩
  · rw [(h t ht).1]; exact (h t ht).2.disciplined
  · intro i j t u l hi _ hx
    rw [(h t (List.mem_of_getElem? hi)).1] at hx; cases hx

theorem AExec.append {ts us vs : List AThread} {e f : List (Nat × AAct)} (h : AExec ts e us) (h' : AExec us f vs) :
    AExec ts (e ++ f) vs := by
  induction h with
  | done => exact h'
  | step h1 _ ih => exact .step h1 (ih h')

theorem AExec.split {ts vs : List AThread} {e f : List (Nat × AAct)} (h : AExec ts (e ++ f) vs) :
    ∃ us, AExec ts e us ∧ AExec us f vs := by
  induction e generalizing ts with
  | nil => exact ⟨ts, .done, h⟩
  | cons a r ih =>
    cases h with
    | step h1 h2 =>
      obtain ⟨us, h3, h4⟩ := ih h2
      exact ⟨us, .step h1 h3, h4⟩

/-- Thread `i` holds `l`. -/
def Holds (ts : List AThread) (i : Nat) (l : Lock) : Prop := ∃ t, ts[i]? = some t ∧ l ∈ t.held

/-- How what a thread holds changes. -/
theorem holds_step {ts us : List AThread} {e : Nat × AAct} (hs : AStep ts e us) (j : Nat) (l : Lock) :
    (Holds us j l → Holds ts j l ∨ e = (j, .acq l)) ∧ (Holds ts j l → Holds us j l ∨ e = (j, .rel l)) := by
  have put : ∀ {i : Nat} {t0 t : AThread}, ts[i]? = some t0 → (ts.set i t)[i]? = some t := by
    intro i t0 t hi
    have : i < ts.length := by
      rw [List.getElem?_eq_some_iff] at hi
      exact hi.1
    simp [this]
  have stay : ∀ {i : Nat} {t0 t u : AThread}, ts[i]? = some t0 → j ≠ i → ts[j]? = some u → (ts.set i t)[j]? = some u := by
    intro i t0 t u _ hne hj
    rw [List.getElem?_set, if_neg (fun h => hne h.symm)]
    exact hj
  cases hs with
  | @acq i hd l' r hi free =>
    refine ⟨?_, ?_⟩
    · rintro ⟨u, hu, hl⟩
      rcases get_set hi hu with ⟨rfl, rfl⟩ | ⟨_, hu⟩
      · rcases List.mem_cons.1 hl with rfl | hl
        · exact .inr rfl
        · exact .inl ⟨_, hi, hl⟩
      · exact .inl ⟨u, hu, hl⟩
    · rintro ⟨u, hu, hl⟩
      by_cases hji : j = i
      · subst hji
        rw [hi] at hu; injection hu with hu; subst hu
        exact .inl ⟨_, put hi, List.mem_cons_of_mem _ hl⟩
      · exact .inl ⟨u, stay hi hji hu, hl⟩
  | @rel i hd l' r hi =>
    refine ⟨?_, ?_⟩
    · rintro ⟨u, hu, hl⟩
      rcases get_set hi hu with ⟨rfl, rfl⟩ | ⟨_, hu⟩
      · exact .inl ⟨_, hi, List.mem_of_mem_erase hl⟩
      · exact .inl ⟨u, hu, hl⟩
    · rintro ⟨u, hu, hl⟩
      by_cases hji : j = i
      · subst hji
        rw [hi] at hu; injection hu with hu; subst hu
        by_cases hll : l = l'
        · subst hll; exact .inr rfl
        · exact .inl ⟨_, put hi, (List.mem_erase_of_ne hll).2 hl⟩
      · exact .inl ⟨u, stay hi hji hu, hl⟩
  | @acc i hd x w r hi =>
    refine ⟨?_, ?_⟩
    · rintro ⟨u, hu, hl⟩
      rcases get_set hi hu with ⟨rfl, rfl⟩ | ⟨_, hu⟩
      · exact .inl ⟨_, hi, hl⟩
      · exact .inl ⟨u, hu, hl⟩
    · rintro ⟨u, hu, hl⟩
      by_cases hji : j = i
      · subst hji
        rw [hi] at hu; injection hu with hu; subst hu
        exact .inl ⟨_, put hi, hl⟩
      · exact .inl ⟨u, stay hi hji hu, hl⟩

/-- Who did not hold a lock and does now has acquired it. -/
theorem acquired {ts us : List AThread} {e : List (Nat × AAct)} (h : AExec ts e us) {j : Nat} {l : Lock} (h1 : ¬ Holds ts j l)
    (h2 : Holds us j l) : ∃ q r, e = q ++ (j, .acq l) :: r := by
  induction h with
  | done => exact absurd h2 h1
  | @step ts e us es vs hs hx ih =>
    by_cases hu : Holds us j l
    · rcases (holds_step hs j l).1 hu with h | h
      · exact absurd h h1
      · exact ⟨[], es, by rw [h]; rfl⟩
    · obtain ⟨q, r, rfl⟩ := ih hu h2
      exact ⟨e :: q, r, rfl⟩

/-- A lock held by one thread, and later by another, was handed over. -/
theorem handed_over {ts us : List AThread} {e : List (Nat × AAct)} (h : AExec ts e us) (hinv : AInv ts) {i j : Nat} {l : Lock}
    (hne : i ≠ j) (h1 : Holds ts i l) (h2 : Holds us j l) :
    ∃ p q r, e = p ++ (i, .rel l) :: q ++ (j, .acq l) :: r := by
  have only : ∀ {ts}, AInv ts → Holds ts i l → ¬ Holds ts j l := by
    rintro ts hinv ⟨t, a1, a2⟩ ⟨u, b1, b2⟩
    exact hne (hinv.excl _ _ _ _ _ a1 b1 a2 b2)
  induction h with
  | done => exact absurd h2 (only hinv h1)
  | @step ts e us es vs hs hx ih =>
    rcases (holds_step hs i l).2 h1 with hu | rfl
    · obtain ⟨p, q, r, rfl⟩ := ih (hinv.step hs) hu h2
      exact ⟨e :: p, q, r, rfl⟩
    · have hj : ¬ Holds us j l := by
        intro hj
        rcases (holds_step hs j l).1 hj with h | h
        · exact only hinv h1 h
        · cases h
      obtain ⟨q, r, rfl⟩ := acquired hx hj h2
      exact ⟨[], q, r, rfl⟩

/-- Who makes an access keeps to the rule. -/
theorem access_allowed {ts us : List AThread} {i : Nat} {x : Loc} {w : Bool} (hinv : AInv ts) (h : AStep ts (i, .acc x w) us) :
    ∃ t : AThread, ts[i]? = some t ∧ Allowed t.held x w := by
  cases h with
  | acc hi => exact ⟨_, hi, (hinv.disc _ (List.mem_of_getElem? hi)).1⟩

theorem guard_of {k : MemKind} (h : k ∉ unprotected) : k.guard ≠ .nothing := by
  revert h
  cases k <;> decide

/-! ### The locks of C45 -/

/-- The locking structure. -/
def ASync.locks : ASync → Sync
  | .nop => .nop
  | .acc _ _ => .nop
  | .lock l b => .lock l b.locks
  | .seq a b => .seq a.locks b.locks
  | .alt a b => .alt a.locks b.locks
  | .loop a => .loop a.locks

theorem lockOps_append (t u : List AAct) : lockOps (t ++ u) = lockOps t ++ lockOps u := by
  unfold lockOps; rw [List.filterMap_append]

theorem ASync.Trace.locks {a : ASync} {t : List AAct} (h : a.Trace t) : a.locks.Trace (lockOps t) := by
  induction h with
  | skip => exact .skip
  | nop => exact .nop
  | acc => exact .nop
  | @lock l b t _ ih =>
    have : lockOps (.acq l :: t ++ [.rel l]) = .acq l :: lockOps t ++ [.rel l] := by
      show LAct.acq l :: lockOps (t ++ [.rel l]) = _
      rw [lockOps_append]; rfl
    rw [this]
    exact .lock ih
  | seq _ _ ih1 ih2 => rw [lockOps_append]; exact .seq ih1 ih2
  | left _ ih => exact .left ih
  | right _ ih => exact .right ih
  | stop => exact .stop
  | again _ _ ih1 ih2 => rw [lockOps_append]; exact .again ih1 ih2

/-- Nothing. -/
def Sync.isNop : Sync → Bool
  | .nop => true
  | _ => false

/-- Without the parts that do nothing. -/
def Sync.norm : Sync → Sync
  | .nop => .nop
  | .lock l b => .lock l b.norm
  | .seq a b => if a.norm.isNop then b.norm else if b.norm.isNop then a.norm else .seq a.norm b.norm
  | .alt a b => if a.norm.isNop then b.norm else if b.norm.isNop then a.norm else .alt a.norm b.norm
  | .loop a => if a.norm.isNop then .nop else .loop a.norm

theorem isNop_nop : Sync.nop.isNop = true := rfl
theorem isNop_lock (l : Lock) (b : Sync) : (Sync.lock l b).isNop = false := rfl
theorem isNop_seq (a b : Sync) : (Sync.seq a b).isNop = false := rfl
theorem isNop_loop (a : Sync) : (Sync.loop a).isNop = false := rfl

theorem Sync.isNop_iff {a : Sync} : a.isNop = true ↔ a = .nop := by
  cases a <;> simp [Sync.isNop]

theorem Sync.Trace.nop_nil {t : List LAct} (h : Sync.nop.Trace t) : t = [] := by
  cases h <;> rfl

theorem Sync.Trace.norm {a : Sync} {t : List LAct} (h : a.Trace t) : a.norm.Trace t := by
  induction h with
  | skip => exact .skip
  | nop => exact .nop
  | lock _ ih => exact .lock ih
  | @seq a b t u _ _ ih1 ih2 =>
    simp only [Sync.norm]
    split
    · next h =>
      rw [Sync.isNop_iff.1 h] at ih1
      rw [ih1.nop_nil]
      exact ih2
    · split
      · next h =>
        rw [Sync.isNop_iff.1 h] at ih2
        rw [ih2.nop_nil, List.append_nil]
        exact ih1
      · exact .seq ih1 ih2
  | @left a b t _ ih =>
    simp only [Sync.norm]
    split
    · next h =>
      rw [Sync.isNop_iff.1 h] at ih
      rw [ih.nop_nil]
      exact .skip
    · split
      · exact ih
      · exact .left ih
  | @right a b t _ ih =>
    simp only [Sync.norm]
    split
    · exact ih
    · split
      · next h =>
        rw [Sync.isNop_iff.1 h] at ih
        rw [ih.nop_nil]
        exact .skip
      · exact .right ih
  | stop => exact .skip
  | @again a t u _ _ ih1 ih2 =>
    simp only [Sync.norm] at ih2 ⊢
    split at ih2
    · next h =>
      rw [if_pos h]
      rw [Sync.isNop_iff.1 h] at ih1
      rw [ih1.nop_nil]
      exact ih2
    · next h =>
      rw [if_neg h]
      exact .again ih1 ih2

theorem Sync.Trace.seq_inv {a b : Sync} {t : List LAct} (h : (Sync.seq a b).Trace t) :
    ∃ u v, t = u ++ v ∧ a.Trace u ∧ b.Trace v := by
  cases h with
  | skip => exact ⟨[], [], rfl, .skip, .skip⟩
  | seq h1 h2 => exact ⟨_, _, rfl, h1, h2⟩

theorem Sync.Trace.alt_inv {a b : Sync} {t : List LAct} (h : (Sync.alt a b).Trace t) : a.Trace t ∨ b.Trace t := by
  cases h with
  | skip => exact .inl .skip
  | left h => exact .inl h
  | right h => exact .inr h

theorem Sync.Trace.loop_sub {a b : Sync} (hab : ∀ t, a.Trace t → b.Trace t) {t : List LAct} (h : (Sync.loop a).Trace t) :
    (Sync.loop b).Trace t := by
  generalize hc : Sync.loop a = c at h
  induction h with
  | skip => exact .skip
  | stop => exact .stop
  | @again a' t u h1 _ _ ih =>
    injection hc with hc
    subst hc
    exact .again (hab _ h1) (ih rfl)
  | _ => cases hc

theorem Sync.Trace.of_norm : ∀ {a : Sync} {t : List LAct}, a.norm.Trace t → a.Trace t
  | .nop, _, h => h
  | .lock l b, t, h => by
    have h' : (Sync.lock l b.norm).Trace t := h
    cases h' with
    | skip => exact .skip
    | lock h' => exact .lock (Sync.Trace.of_norm h')
  | .seq a b, t, h => by
    simp only [Sync.norm] at h
    split at h
    · exact .seq (t := []) .skip (Sync.Trace.of_norm h)
    · split at h
      · have := Sync.Trace.seq (b := b) (Sync.Trace.of_norm h) .skip
        rwa [List.append_nil] at this
      · obtain ⟨u, v, rfl, h1, h2⟩ := h.seq_inv
        exact .seq (Sync.Trace.of_norm h1) (Sync.Trace.of_norm h2)
  | .alt a b, t, h => by
    simp only [Sync.norm] at h
    split at h
    · exact .right (Sync.Trace.of_norm h)
    · split at h
      · exact .left (Sync.Trace.of_norm h)
      · rcases h.alt_inv with h | h
        · exact .left (Sync.Trace.of_norm h)
        · exact .right (Sync.Trace.of_norm h)
  | .loop a, t, h => by
    simp only [Sync.norm] at h
    split at h
    · rw [h.nop_nil]; exact .skip
    · exact h.loop_sub fun _ h => Sync.Trace.of_norm h

theorem Calls.append {o : Objects} {t u : List LAct} (h : Calls o t) (h' : Calls o u) : Calls o (t ++ u) := by
  induction h with
  | done => exact h'
  | call hc ht _ ih => rw [List.append_assoc]; exact .call hc ht ih

/-- What this piece of code does with the locks, calls do. -/
def IsCalls (o : Objects) (s : Sync) : Prop := ∀ t, s.Trace t → Calls o t

theorem IsCalls.nop {o : Objects} {s : Sync} (h : s.norm = .nop) : IsCalls o s := by
  intro t ht
  have := ht.norm
  rw [h] at this
  rw [this.nop_nil]
  exact .done

theorem IsCalls.call {o : Objects} {s c : Sync} (hc : LibCall o c) (h : s.norm = c.norm) : IsCalls o s := by
  intro t ht
  have := ht.norm
  rw [h] at this
  have := Calls.call hc this.of_norm .done
  rwa [List.append_nil] at this

theorem IsCalls.seq {o : Objects} {a b : Sync} (ha : IsCalls o a) (hb : IsCalls o b) : IsCalls o (.seq a b) := by
  intro t ht
  obtain ⟨u, v, rfl, h1, h2⟩ := ht.seq_inv
  exact (ha _ h1).append (hb _ h2)

theorem IsCalls.alt {o : Objects} {a b : Sync} (ha : IsCalls o a) (hb : IsCalls o b) : IsCalls o (.alt a b) := by
  intro t ht
  rcases ht.alt_inv with h | h
  · exact ha _ h
  · exact hb _ h

theorem IsCalls.loop {o : Objects} {a : Sync} (ha : IsCalls o a) : IsCalls o (.loop a) := by
  intro t ht
  generalize hc : Sync.loop a = c at ht
  induction ht with
  | skip => exact .done
  | stop => exact .done
  | again h1 _ _ ih =>
    injection hc with hc
    subst hc
    exact (ha _ h1).append (ih rfl)
  | _ => cases hc

section
open ASync

theorem transformable_norm (b f : Nat) (q : Bool) :
    (filterTransformable b f q).locks.norm = (Sync.filterTransformable b f q).norm := by
  cases q <;> rfl

theorem setTransform_norm (b : Nat) (fs : List (Nat × Bool)) :
    (setTransform b fs).locks.norm = (Sync.setTransform b fs).norm := by
  have : ∀ l : List (Nat × Bool), (l.foldr (fun f r => ASync.alt (filterTransformable b f.1 f.2) r) .nop).locks.norm =
      (l.foldr (fun f r => Sync.alt (Sync.filterTransformable b f.1 f.2) r) .nop).norm := by
    intro l
    induction l with
    | nil => rfl
    | cons f r ih =>
      simp only [List.foldr_cons, ASync.locks, Sync.norm, ih, transformable_norm]
  simp [setTransform, Sync.setTransform, test, Sync.test, insertFrame, findFrame, latestCommon, query, opt, Sync.opt, rd, wr,
    ASync.locks, Sync.norm, isNop_nop, isNop_lock, isNop_seq, isNop_loop, Sync.frameOp, this]

theorem receive_calls {o : Objects} (i b : Nat) : IsCalls o (receive i b (o.on b)).locks :=
  .seq (.nop rfl) (.seq (.alt (.nop rfl) (.seq (.nop rfl) (.call (.frameOp b) rfl)))
    (.seq (.nop rfl) (.loop (.call (.setTransform b) (setTransform_norm b _)))))

theorem locks_of_call {o : Objects} {c : ASync} (hc : ACall o c) : IsCalls o c.locks := by
  cases hc with
  | query b => exact .call (.frameOp b) rfl
  | clear b => exact .call (.frameOp b) rfl
  | findFrame b => exact .nop rfl
  | lookup5 b => exact .call (.lookup5 b) rfl
  | setTransform b => exact .call (.setTransform b) (setTransform_norm b _)
  | addCallback b => exact .call (.addCallback b) rfl
  | removeCallback b => exact .call (.removeCallback b) rfl
  | addRequest b => exact .call (.addRequest b) rfl
  | cancelRequest b => exact .call (.requestsOp b) rfl
  | listenersOp b => exact .call (.requestsOp b) rfl
  | setDedicated b => exact .nop rfl
  | isDedicated b => exact .nop rfl
  | failureOp f => exact .call (.failureOp f) rfl
  | setTargets f => exact .call (.targetsOp f) rfl
  | getTargets f => exact .call (.targetsOp f) rfl
  | setTolerance f => exact .call (.targetsOp f) rfl
  | setQueueSize f => exact .nop rfl
  | getQueueSize f => exact .nop rfl
  | deliver f => exact .call (.deliver f) rfl
  | @filterClear f b q h => exact .call (.filterClear h) (by cases q <;> rfl)
  | @filterAdd f b q h => exact .call (.filterAdd h) (by cases q <;> rfl)
  | serverCheck h => exact .call (.serverCheck h) rfl
  | serverCancel h => exact .call (.serverCancel h) rfl
  | serverGoal h => exact .call (.serverGoal h) rfl
  | receive i b => exact receive_calls i b
  | spinOnce i b => exact .seq (.nop rfl) (.loop (receive_calls i b))
  | stopListener i => exact .nop rfl
  | sendStatic s => exact .nop rfl

end

/-! ### Traces by choices -/

/-- A sequence of actions with nothing left out: each choice selects a branch (0: the first) or a number of iterations. -/
def ASync.gen : ASync → List Nat → List AAct × List Nat
  | .nop, c => ([], c)
  | .acc x w, c => ([.acc x w], c)
  | .lock l b, c => (.acq l :: (b.gen c).1 ++ [.rel l], (b.gen c).2)
  | .seq a b, c => ((a.gen c).1 ++ (b.gen (a.gen c).2).1, (b.gen (a.gen c).2).2)
  | .alt a b, c =>
    match c with
    | [] => a.gen []
    | n :: c => if n = 0 then a.gen c else b.gen c
  | .loop a, c =>
    match c with
    | [] => ([], [])
    | n :: c => n.rec ([], c) (fun _ r => (r.1 ++ (a.gen r.2).1, (a.gen r.2).2))

theorem ASync.Trace.snoc {a : ASync} {t u : List AAct} (h : (ASync.loop a).Trace t) (h' : a.Trace u) :
    (ASync.loop a).Trace (t ++ u) := by
  generalize hc : ASync.loop a = c at h
  induction h with
  | skip =>
    subst hc
    have := ASync.Trace.again h' .stop
    rwa [List.append_nil] at this
  | stop =>
    injection hc with hc; subst hc
    have := ASync.Trace.again h' .stop
    rwa [List.append_nil] at this
  | again h1 _ _ ih =>
    injection hc with hc; subst hc
    rw [List.append_assoc]
    exact .again h1 (ih rfl)
  | _ => cases hc

theorem gen_trace : ∀ (a : ASync) (c : List Nat), a.Trace (a.gen c).1
  | .nop, _ => .nop
  | .acc _ _, _ => .acc
  | .lock _ b, c => .lock (gen_trace b c)
  | .seq a b, c => .seq (gen_trace a c) (gen_trace b _)
  | .alt a b, c => by
    cases c with
    | nil => exact .left (gen_trace a [])
    | cons n c =>
      simp only [ASync.gen]
      split
      · exact .left (gen_trace a c)
      · exact .right (gen_trace b c)
  | .loop a, c => by
    cases c with
    | nil => exact .stop
    | cons n c =>
      induction n with
      | zero => exact .stop
      | succ n ih => exact ASync.Trace.snoc ih (gen_trace a _)

/-! ### Executions by schedules -/

/-- Runs the next action of each thread named. -/
def schedule : List AThread → List Nat → Option (List AThread × List (Nat × AAct))
  | ts, [] => some (ts, [])
  | ts, i :: r =>
    match ts[i]? with
    | some ⟨h, .acq l :: q⟩ =>
      if ts.any (fun t => decide (l ∈ t.held)) then none
      else (schedule (ts.set i ⟨l :: h, q⟩) r).map (fun p => (p.1, (i, .acq l) :: p.2))
    | some ⟨h, .rel l :: q⟩ => (schedule (ts.set i ⟨h.erase l, q⟩) r).map (fun p => (p.1, (i, .rel l) :: p.2))
    | some ⟨h, .acc x w :: q⟩ => (schedule (ts.set i ⟨h, q⟩) r).map (fun p => (p.1, (i, .acc x w) :: p.2))
    | _ => none

theorem schedule_exec {r : List Nat} : ∀ {ts us : List AThread} {e : List (Nat × AAct)}, schedule ts r = some (us, e) → AExec ts e us := by
  induction r with
  | nil =>
    intro ts us e h
    simp only [schedule, Option.some.injEq, Prod.mk.injEq] at h
    obtain ⟨rfl, rfl⟩ := h
    exact .done
  | cons i r ih =>
    intro ts us e h
    simp only [schedule] at h
    split at h
    · next hd l q hi =>
      split at h
      · cases h
      · next hf =>
        rw [Option.map_eq_some_iff] at h
        obtain ⟨⟨us', e'⟩, h1, h2⟩ := h
        simp only [Prod.mk.injEq] at h2
        obtain ⟨rfl, rfl⟩ := h2
        refine .step (.acq hi ?_) (ih h1)
        rintro ⟨t, ht, hl⟩
        exact hf (List.any_eq_true.2 ⟨t, ht, decide_eq_true hl⟩)
    · next hd l q hi =>
      rw [Option.map_eq_some_iff] at h
      obtain ⟨⟨us', e'⟩, h1, h2⟩ := h
      simp only [Prod.mk.injEq] at h2
      obtain ⟨rfl, rfl⟩ := h2
      exact .step (.rel hi) (ih h1)
    · next hd x w q hi =>
      rw [Option.map_eq_some_iff] at h
      obtain ⟨⟨us', e'⟩, h1, h2⟩ := h
      simp only [Prod.mk.injEq] at h2
      obtain ⟨rfl, rfl⟩ := h2
      exact .step (.acc hi) (ih h1)
    · cases h

/-- Two threads about to access the same member, one of them to write. -/
def raceNow : List AThread → Option Loc
  | [⟨_, .acc x w :: _⟩, ⟨_, .acc y v :: _⟩] => if x = y ∧ (w = true ∨ v = true) then some x else none
  | _ => none

theorem race_of_raceNow {us : List AThread} {x : Loc} (h : raceNow us = some x) : Race us x := by
  unfold raceNow at h
  split at h
  · next a x' w r b y v q =>
    split at h
    · next hc =>
      injection h with h
      obtain ⟨rfl, hw⟩ := hc
      subst h
      exact ⟨0, 1, a, b, w, v, r, q, by decide, rfl, rfl, hw⟩
    · cases h
  · cases h

/-- Two calls, the choices each makes, how far each gets. -/
theorem race_witness {o : Objects} {c d : ASync} (hc : ACall o c) (hd : ACall o d) (cc dc : List Nat) (n m : Nat) {x : Loc}
    (h : (schedule [⟨[], (c.gen cc).1⟩, ⟨[], (d.gen dc).1⟩] (List.replicate n 0 ++ List.replicate m 1)).bind
      (fun p => raceNow p.1) = some x) :
    ∃ ts e us, AProgram o ts ∧ AExec ts e us ∧ Race us x := by
  rw [Option.bind_eq_some_iff] at h
  obtain ⟨⟨us, e⟩, h1, h2⟩ := h
  refine ⟨_, e, us, ?_, schedule_exec h1, race_of_raceNow h2⟩
  intro t ht
  rw [List.mem_cons, List.mem_singleton] at ht
  rcases ht with rfl | rfl
  · refine ⟨rfl, ?_⟩
    have := ACalls.call hc (gen_trace c cc) .done
    rwa [List.append_nil] at this
  · refine ⟨rfl, ?_⟩
    have := ACalls.call hd (gen_trace d dc) .done
    rwa [List.append_nil] at this

/-! ### Executions without the accesses -/

/-- A thread without its accesses. -/
def AThread.locks (t : AThread) : LThread := ⟨t.held, lockOps t.todo⟩

theorem set_same {ts : List AThread} {i : Nat} {t u : AThread} (hi : ts[i]? = some t) (h : u.locks = t.locks) :
    (ts.set i u).map AThread.locks = ts.map AThread.locks := by
  apply List.ext_getElem?
  intro j
  rw [List.getElem?_map, List.getElem?_map, List.getElem?_set]
  split
  · next hij =>
    subst hij
    split
    · rw [hi]
      exact congrArg some h
    · next hlt => rw [List.getElem?_eq_none (by omega)]
  · rfl

theorem AStep.locks {ts us : List AThread} {e : Nat × AAct} (h : AStep ts e us) :
    us.map AThread.locks = ts.map AThread.locks ∨ LStep (ts.map AThread.locks) (us.map AThread.locks) := by
  cases h with
  | @acq i hd l r hi free =>
    refine .inr ?_
    rw [List.map_set]
    refine LStep.acq (i := i) (h := hd) (l := l) (r := lockOps r) ?_ ?_
    · rw [List.getElem?_map, hi]; rfl
    · rintro ⟨t, ht, hl⟩
      obtain ⟨u, hu, rfl⟩ := List.mem_map.1 ht
      exact free ⟨u, hu, hl⟩
  | @rel i hd l r hi =>
    refine .inr ?_
    rw [List.map_set]
    refine LStep.rel (i := i) (h := hd) (l := l) (r := lockOps r) ?_
    rw [List.getElem?_map, hi]; rfl
  | acc hi => exact .inl (set_same hi rfl)

theorem AExec.locks {ts us : List AThread} {e : List (Nat × AAct)} (h : AExec ts e us) :
    ∀ {vs : List LThread}, LSteps vs (ts.map AThread.locks) → LSteps vs (us.map AThread.locks) := by
  induction h with
  | done => intro vs h; exact h
  | step h1 _ ih =>
    intro vs h
    rcases h1.locks with he | hl
    · exact ih (by rw [he]; exact h)
    · exact ih (.tail h hl)

end Tf2
