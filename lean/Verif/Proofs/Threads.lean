import Verif.Spec.Threads
import Verif.Proofs.Buffer

/-!
# Helper lemmas: critical sections as atomic functions, simulation by the serial object
-/
namespace Tf2

variable {σ ρ α β ω X A : Type}

theorem Crit.run_bind (c : Crit σ α) (k : α → Crit σ β) (s : σ) :
    (c.bind k).run s = (k (c.run s).2).run (c.run s).1 := by
  induction c generalizing s with
  | ret a => rfl
  | step f g ih => simp only [Crit.bind, Crit.run, ih]

theorem Crit.run_read (g : σ → α) (s : σ) : (Crit.read g).run s = (s, g s) := rfl

/-! ### Each critical section is the sequential function -/

theorem lookupOrInsertC_run (n : Name) (b : Buf X) : (lookupOrInsertC n).run b = b.lookupOrInsertFrameNumber n := by
  unfold lookupOrInsertC Buf.lookupOrInsertFrameNumber
  simp only [Crit.run, id]
  cases h : b.frameIDs n <;> simp [Crit.run]

theorem getFrame_set_other {b : Buf X} {i : Nat} {c : Option (Cache X)} (h : ¬ i < b.frames.length) :
    ({ b with frames := b.frames.set i c } : Buf X) = b := by
  rw [List.set_eq_of_length_le (by omega)]

theorem loi_frames (b : Buf X) (n : Name) :
    (b.lookupOrInsertFrameNumber n).1.frames = b.frames ∨
      (b.lookupOrInsertFrameNumber n).1.frames = b.frames ++ [none] := by
  unfold Buf.lookupOrInsertFrameNumber
  split <;> simp

theorem loi_getFrame (b : Buf X) (n : Name) (i : Nat) :
    (b.lookupOrInsertFrameNumber n).1.getFrame i = b.getFrame i := by
  unfold Buf.getFrame
  rcases loi_frames b n with h | h <;> rw [h]
  by_cases hi : i < b.frames.length
  · rw [List.getElem?_append_left hi]
  · rw [List.getElem?_append_right (by omega), List.getElem?_eq_none (l := b.frames) (by omega)]
    cases hj : i - b.frames.length <;> simp

theorem insertC_run (cid pid : Nat) (m : Msg X) (auth : Name) (b : Buf X) (c : Cache X) (h : b.getFrame cid = some c) :
    (insertC cid pid m auth).run b =
      (match (c.insert ⟨m.stamp, pid, cid, m.xf⟩).2 with
       | .accepted =>
          ({ b with frames := b.frames.set cid (some (c.insert ⟨m.stamp, pid, cid, m.xf⟩).1),
                    authority := fun i => if i = cid then some auth else b.authority i }, .accepted)
       | .tooOld => ({ b with frames := b.frames.set cid (some (c.insert ⟨m.stamp, pid, cid, m.xf⟩).1) }, .tooOld)
       | .repeated => ({ b with frames := b.frames.set cid (some (c.insert ⟨m.stamp, pid, cid, m.xf⟩).1) }, .repeated)
       | .threw => ({ b with frames := b.frames.set cid (some (c.insert ⟨m.stamp, pid, cid, m.xf⟩).1) }, .threw)) := by
  unfold insertC
  simp only [Crit.run, h]
  cases (c.insert ⟨m.stamp, pid, cid, m.xf⟩).2 <;> simp [Crit.run]

theorem insertC_run_none (cid pid : Nat) (m : Msg X) (auth : Name) (b : Buf X) (h : b.getFrame cid = none) :
    (insertC cid pid m auth).run b = (b, .ub) := by
  unfold insertC
  simp only [Crit.run, h]

theorem setC_run [Rigid X] (m : Msg X) (auth : Name) (st : Bool) (b : Buf X) (hv : Buf.msgValid (Buf.stripMsg m) = true) :
    (setC (Buf.stripMsg m) auth st).run b = b.setTransform m auth st := by
  unfold setC Buf.setTransform
  simp only [hv, if_true, Crit.run_bind, lookupOrInsertC_run, Crit.run, id]
  generalize hb1 : b.lookupOrInsertFrameNumber (Buf.stripMsg m).child = r1
  obtain ⟨b1, cid⟩ := r1
  simp only
  by_cases hlt : cid < b1.frames.length
  · simp only [if_pos hlt]
    cases hg : b1.getFrame cid with
    | some c =>
      have hset : ({ b1 with frames := b1.frames.set cid (some c) } : Buf X) = b1 := by
        have : b1.frames.set cid (some c) = b1.frames := by
          apply List.ext_getElem? ; intro i
          rw [List.getElem?_set]
          split
          · subst_vars
            unfold Buf.getFrame at hg
            rw [List.getElem?_eq_getElem hlt] at hg ⊢
            simp at hg; simp [hlt, hg]
          · rfl
        rw [this]
      simp only [Option.getD_some, hset, Crit.run_bind, lookupOrInsertC_run]
      have hg3 : (b1.lookupOrInsertFrameNumber (Buf.stripMsg m).parent).1.getFrame cid = some c := by
        rw [loi_getFrame, hg]
      generalize b1.lookupOrInsertFrameNumber (Buf.stripMsg m).parent = r3 at hg3 ⊢
      obtain ⟨b3, pid⟩ := r3
      simp only at hg3 ⊢
      rw [insertC_run cid pid _ auth b3 c hg3]
      cases (c.insert ⟨(Buf.stripMsg m).stamp, pid, cid, (Buf.stripMsg m).xf⟩).2 <;> rfl
    | none =>
      simp only [Option.getD_none, Crit.run, Crit.run_bind, lookupOrInsertC_run]
      have hg2 : ({ b1 with frames := b1.frames.set cid (some (b1.newCache st)) } : Buf X).getFrame cid = some (b1.newCache st) := by
        unfold Buf.getFrame; simp [hlt]
      generalize ({ b1 with frames := b1.frames.set cid (some (b1.newCache st)) } : Buf X) = b2 at hg2 ⊢
      have hg3 : (b2.lookupOrInsertFrameNumber (Buf.stripMsg m).parent).1.getFrame cid = some (b1.newCache st) := by
        rw [loi_getFrame, hg2]
      generalize b2.lookupOrInsertFrameNumber (Buf.stripMsg m).parent = r3 at hg3 ⊢
      obtain ⟨b3, pid⟩ := r3
      simp only at hg3 ⊢
      rw [insertC_run cid pid _ auth b3 _ hg3]
      cases ((b1.newCache st).insert ⟨(Buf.stripMsg m).stamp, pid, cid, (Buf.stripMsg m).xf⟩).2 <;> rfl
  · simp only [if_neg hlt]
    have hg : b1.getFrame cid = none := by
      unfold Buf.getFrame; rw [List.getElem?_eq_none (by omega)]; rfl
    simp only [hg, Option.getD_none, Crit.run, Crit.run_bind, lookupOrInsertC_run, getFrame_set_other hlt]
    have hg3 : (b1.lookupOrInsertFrameNumber (Buf.stripMsg m).parent).1.getFrame cid = none := by
      rw [loi_getFrame, hg]
    rw [insertC_run_none _ _ _ _ _ hg3]

theorem modify_take {γ : Type} (f : γ → γ) (l : List γ) (i : Nat) (h : i < l.length) :
    (l.modify i f).take (i + 1) = l.take i ++ [f l[i]] := by
  apply List.ext_getElem?
  intro j
  simp only [List.getElem?_take, List.getElem?_modify, List.getElem?_append, List.length_take]
  grind

theorem clearLoopC_run (k i : Nat) (b : Buf X) (h : i + k = b.frames.length) :
    ((clearLoopC k i).run b).1 =
      { b with frames := b.frames.take i ++ (b.frames.drop i).map (Option.map Cache.clearList) } := by
  induction k generalizing i b with
  | zero =>
    have : b.frames.take i = b.frames := List.take_of_length_le (by omega)
    have h2 : b.frames.drop i = [] := List.drop_eq_nil_of_le (by omega)
    simp [clearLoopC, Crit.run, this, h2]
  | succ k ih =>
    simp only [clearLoopC, Crit.run]
    rw [ih (i + 1) _ (by simp; omega)]
    have hi : i < b.frames.length := by omega
    simp only [modify_take _ _ _ hi]
    congr 1
    rw [List.drop_eq_getElem_cons hi]
    have : (b.frames.modify i (Option.map Cache.clearList)).drop (i + 1) = b.frames.drop (i + 1) := by
      apply List.ext_getElem?
      intro j
      simp only [List.getElem?_drop, List.getElem?_modify]
      have hne : ¬ i = i + 1 + j := by omega
      cases b.frames[i + 1 + j]? <;> simp [hne]
    rw [this]
    simp only [List.append_assoc, List.singleton_append, List.map_cons]

theorem clearC_run (b : Buf X) : (clearC.run b).1 = b.clear := by
  unfold clearC Buf.clear
  simp only [Crit.run, id]
  by_cases h : b.frames = []
  · obtain ⟨ct, fr, ids, rv, au⟩ := b
    simp only at h
    subst h
    rfl
  · rw [clearLoopC_run]
    have := List.length_pos_iff.mpr h
    omega

theorem walkSourceC_run (f : Accum X A) (t : Time) (target k frame : Nat) (a : A) (chain : List Nat) (b : Buf X) :
    (walkSourceC f t target k frame a chain).run b = (b, b.walkSource f t target k frame a chain) := by
  induction k generalizing frame a chain with
  | zero =>
    unfold walkSourceC Buf.walkSource
    by_cases h0 : frame = 0
    · simp [h0, Crit.run]
    simp only [h0, if_false, Crit.run, id]
    cases b.getFrame frame with
    | none => simp [Crit.run]
    | some c =>
      simp only
      generalize f.gather c t a = g
      obtain ⟨p, a'⟩ := g
      rcases p with p | _
      · rcases p with _ | p
        · simp [Crit.run]
        · simp only; split <;> simp [Crit.run]
      · simp [Crit.run]
  | succ k ih =>
    unfold walkSourceC Buf.walkSource
    by_cases h0 : frame = 0
    · simp [h0, Crit.run]
    simp only [h0, if_false, Crit.run, id]
    cases b.getFrame frame with
    | none => simp [Crit.run]
    | some c =>
      simp only
      generalize f.gather c t a = g
      obtain ⟨p, a'⟩ := g
      rcases p with p | _
      · rcases p with _ | p
        · simp [Crit.run]
        · simp only
          split
          · simp [Crit.run]
          · rw [ih]
      · simp [Crit.run]

theorem walkTargetC_run (f : Accum X A) (t : Time) (source top k frame : Nat) (a : A) (rev : List Nat) (b : Buf X) :
    (walkTargetC f t source top k frame a rev).run b = (b, b.walkTarget f t source top k frame a rev) := by
  induction k generalizing frame a rev with
  | zero =>
    unfold walkTargetC Buf.walkTarget
    by_cases h0 : frame = top
    · simp [h0, Crit.run]
    simp only [h0, if_false, Crit.run, id]
    cases b.getFrame frame with
    | none => simp [Crit.run]
    | some c =>
      simp only
      generalize f.gather c t a = g
      obtain ⟨p, a'⟩ := g
      rcases p with p | _
      · rcases p with _ | p
        · simp [Crit.run]
        · simp only; split <;> simp [Crit.run]
      · simp [Crit.run]
  | succ k ih =>
    unfold walkTargetC Buf.walkTarget
    by_cases h0 : frame = top
    · simp [h0, Crit.run]
    simp only [h0, if_false, Crit.run, id]
    cases b.getFrame frame with
    | none => simp [Crit.run]
    | some c =>
      simp only
      generalize f.gather c t a = g
      obtain ⟨p, a'⟩ := g
      rcases p with p | _
      · rcases p with _ | p
        · simp [Crit.run]
        · simp only
          split
          · simp [Crit.run]
          · rw [ih]
      · simp [Crit.run]

theorem lctSourceC_run (target k frame : Nat) (common : Time) (lct : List (Time × Nat)) (b : Buf X) :
    (lctSourceC target k frame common lct).run b = (b, b.lctSource target k frame common lct) := by
  induction k generalizing frame common lct with
  | zero =>
    unfold lctSourceC Buf.lctSource
    by_cases h0 : frame = 0
    · simp [h0, Crit.run]
    simp only [h0, if_false, Crit.run, id]
    cases b.getFrame frame with
    | none => simp [Crit.run]
    | some c =>
      simp only
      generalize c.latestTimeAndParent = g
      rcases g with _ | ⟨lt, _ | p⟩
      · simp [Crit.run]
      · simp [Crit.run]
      · simp only; split <;> simp [Crit.run]
  | succ k ih =>
    unfold lctSourceC Buf.lctSource
    by_cases h0 : frame = 0
    · simp [h0, Crit.run]
    simp only [h0, if_false, Crit.run, id]
    cases b.getFrame frame with
    | none => simp [Crit.run]
    | some c =>
      simp only
      generalize c.latestTimeAndParent = g
      rcases g with _ | ⟨lt, _ | p⟩
      · simp [Crit.run]
      · simp [Crit.run]
      · simp only
        split
        · simp [Crit.run]
        · rw [ih]

theorem lctTargetC_run (source : Nat) (lct : List (Time × Nat)) (k frame : Nat) (common : Time) (b : Buf X) :
    (lctTargetC source lct k frame common).run b = (b, b.lctTarget source lct k frame common) := by
  induction k generalizing frame common with
  | zero =>
    unfold lctTargetC Buf.lctTarget
    simp only [Crit.run, id]
    cases b.getFrame frame with
    | none => simp [Crit.run]
    | some c =>
      simp only
      generalize c.latestTimeAndParent = g
      rcases g with _ | ⟨lt, _ | p⟩
      · simp [Crit.run]
      · simp [Crit.run]
      · simp only
        split
        · simp [Crit.run]
        · split <;> simp [Crit.run]
  | succ k ih =>
    unfold lctTargetC Buf.lctTarget
    simp only [Crit.run, id]
    cases b.getFrame frame with
    | none => simp [Crit.run]
    | some c =>
      simp only
      generalize c.latestTimeAndParent = g
      rcases g with _ | ⟨lt, _ | p⟩
      · simp [Crit.run]
      · simp [Crit.run]
      · simp only
        split
        · simp [Crit.run]
        · split
          · simp [Crit.run]
          · rw [ih]

theorem lctC_run (target source : Nat) (b : Buf X) : (lctC target source).run b = (b, b.latestCommonTime target source) := by
  unfold lctC Buf.latestCommonTime
  split
  · rfl
  split
  · rw [Crit.run_read]; cases b.getFrame source <;> rfl
  rw [Crit.run_bind, lctSourceC_run]
  simp only
  cases b.lctSource target maxGraphDepth source TIME_MAX [] with
  | ub => rfl
  | tooDeep => rfl
  | early t => rfl
  | exit lct =>
    simp only
    rw [Crit.run_bind, lctTargetC_run]
    simp only
    cases b.lctTarget source lct maxGraphDepth target TIME_MAX with
    | ub => rfl
    | tooDeep => rfl
    | early t => rfl
    | exit p c => cases p <;> rfl

theorem walkAtC_run (f : Accum X A) (a : A) (t : Time) (target source : Nat) (b : Buf X) :
    (walkAtC f a t target source).run b = (b, b.walkAt f a t target source) := by
  unfold walkAtC Buf.walkAt
  rw [Crit.run_bind, walkSourceC_run]
  simp only
  cases b.walkSource f t target maxGraphDepth source a [] with
  | ub => rfl
  | tooDeep => rfl
  | early a c => rfl
  | exit top ex a chain =>
    simp only
    rw [Crit.run_bind, walkTargetC_run]
    simp only
    cases b.walkTarget f t source top maxGraphDepth target a [] with
    | ub => rfl
    | tooDeep => rfl
    | extrap => rfl
    | early a c => rfl
    | exit fr a rev => rfl

theorem walkC_run (f : Accum X A) (a : A) (t : Time) (target source : Nat) (b : Buf X) :
    (walkC f a t target source).run b = (b, b.walk f a t target source) := by
  unfold walkC Buf.walk
  split
  · rfl
  split
  · rw [Crit.run_bind, lctC_run]
    simp only
    cases b.latestCommonTime target source with
    | ub => rfl
    | err c => rfl
    | ok t' => simp only; rw [walkAtC_run]
  · rw [walkAtC_run]

theorem lookupC_run [Rigid X] (target source : Name) (t : Time) (b : Buf X) :
    (lookupC target source t).run b = (b, b.lookupTransform target source t) := by
  unfold lookupC Buf.lookupTransform
  split
  · split
    · subst_vars
      rw [Crit.run_bind, Crit.run_read, Crit.run_read]
      simp only
      cases b.getFrame (b.lookupFrameNumber source) <;> rfl
    · rfl
  · rw [Crit.run_bind, Crit.run_read]
    simp only
    cases b.validateFrameId target with
    | throw e => rfl
    | ub => rfl
    | ok tid =>
      simp only
      rw [Crit.run_bind, Crit.run_read]
      simp only
      cases b.validateFrameId source with
      | throw e => rfl
      | ub => rfl
      | ok sid =>
        simp only
        rw [Crit.run_bind, walkC_run]
        simp only
        cases b.walk transformAccum TAcc.init t tid sid <;> rfl

theorem canNoLockC_run (tid sid : Nat) (t : Time) (b : Buf X) :
    (canNoLockC tid sid t).run b = (b, b.canTransformNoLock tid sid t) := by
  unfold canNoLockC Buf.canTransformNoLock
  split
  · rfl
  split
  · rfl
  rw [Crit.run_bind, walkC_run]
  simp only
  cases b.walk canAccum () t tid sid <;> rfl

theorem canC_run (target source : Name) (t : Time) (b : Buf X) (h1 : target ≠ source)
    (h2 : ¬ Buf.warnFrameId target = true) (h3 : ¬ Buf.warnFrameId source = true) :
    (canC target source t).run b = (b, b.canTransform target source t) := by
  unfold canC Buf.canTransform
  simp only [if_neg h1, if_neg h2, if_neg h3]
  rw [Crit.run_bind, Crit.run_read]
  simp only
  rw [Crit.run_bind, Crit.run_read]
  simp only
  split
  · rfl
  · rw [canNoLockC_run]

theorem can5C_run (target : Name) (tt : Time) (source : Name) (st : Time) (fixed : Name) (b : Buf X)
    (h1 : ¬ Buf.warnFrameId target = true) (h2 : ¬ Buf.warnFrameId source = true) (h3 : ¬ Buf.warnFrameId fixed = true) :
    (can5C target tt source st fixed).run b = (b, b.canTransform5 target tt source st fixed) := by
  unfold can5C Buf.canTransform5
  simp only [if_neg h1, if_neg h2, if_neg h3]
  rw [Crit.run_bind, Crit.run_read]
  simp only
  rw [Crit.run_bind, Crit.run_read]
  simp only
  rw [Crit.run_bind, Crit.run_read]
  simp only
  split
  · rfl
  · rw [Crit.run_bind, canNoLockC_run]
    simp only
    cases b.canTransformNoLock (b.lookupFrameNumber target) (b.lookupFrameNumber fixed) tt with
    | ok v => cases v <;> simp only <;> first | rfl | rw [canNoLockC_run]
    | throw e => rfl
    | ub => rfl

theorem getParentC_run (n : Name) (t : Time) (b : Buf X) : (getParentC n t).run b = (b, b.getParent n t) := by
  unfold getParentC Buf.getParent
  rw [Crit.run_bind, Crit.run_read]
  simp only [Crit.run, id]
  cases b.getFrame (b.lookupFrameNumber n) with
  | none => rfl
  | some c =>
    simp only
    cases c.getParent t with
    | ub => rfl
    | id p =>
      cases p with
      | zero => rfl
      | succ p =>
        simp only
        rw [Crit.run_read]
        cases b.lookupFrameString (p + 1) <;> rfl

theorem namesLoopC_run (k i : Nat) (acc : List Name) (b : Buf X) (h : i + k = b.frameIDsReverse.length) :
    (namesLoopC k i acc).run b = (b, acc ++ b.frameIDsReverse.drop i) := by
  induction k generalizing i acc with
  | zero => rw [List.drop_eq_nil_of_le (by omega)]; simp [namesLoopC, Crit.run]
  | succ k ih =>
    simp only [namesLoopC, Crit.run, id]
    rw [ih _ _ (by omega)]
    have hi : i < b.frameIDsReverse.length := by omega
    rw [List.getElem?_eq_getElem hi, List.drop_eq_getElem_cons hi]
    simp

theorem namesC_run (b : Buf X) : namesC.run b = (b, b.getFrameStrings) := by
  unfold namesC Buf.getFrameStrings
  simp only [Crit.run, id]
  by_cases h : b.frameIDsReverse = []
  · rw [h]; rfl
  · rw [namesLoopC_run]
    · simp
    · have := List.length_pos_iff.mpr h
      omega

/-! ### Simulation -/

/-- A program does what the script says: sections of code for instants. -/
inductive Impl : Prog σ ρ → Script σ ρ → Prop where
  | ret (r) : Impl (.ret r) (.ret r)
  | const (r f k) : (∀ m, f m = m ∧ k m = .ret r) → Impl (.ret r) (.atom f k)
  | locked {α : Type} (c : Crit σ α) (g f k) :
      (∀ m, (c.run m).1 = f m) → (∀ m, Impl (g (c.run m).2) (k m)) → Impl (.locked c g) (.atom f k)
  | peek (k k') : (∀ m, Impl (k m) (k' m)) → Impl (.peek k) (.look k')

/-- Threads that are not inside the critical section agree. -/
def ThrOK (p : Option (Prog σ ρ)) (q : Option (Script σ ρ)) : Prop :=
  (p = none ∧ q = none) ∨ ∃ p' q', p = some p' ∧ q = some q' ∧ Impl p' q'

/-- The machine with the mutex against the object: a thread in its critical section is already through. -/
def Sim (s : Conc σ ρ) (S : Ser σ ρ) : Prop :=
  match s.owner with
  | none => s.mem = S.mem ∧ ∀ t, ThrOK (s.thr t) (S.thr t)
  | some t =>
    (∃ (α : Type) (c : Crit σ α) (g : α → Prog σ ρ) (q : Script σ ρ),
      s.thr t = some (c.into fun a => .rel (g a)) ∧ S.thr t = some q ∧
      (c.run s.mem).1 = S.mem ∧ Impl (g (c.run s.mem).2) q) ∧
    ∀ u, u ≠ t → ThrOK (s.thr u) (S.thr u)

theorem sim_out {s : Conc σ ρ} {S : Ser σ ρ} (h : Sim s S) (t : Nat) (ht : s.owner ≠ some t) :
    ThrOK (s.thr t) (S.thr t) := by
  unfold Sim at h
  cases ho : s.owner with
  | none => rw [ho] at h; exact h.2 t
  | some u =>
    rw [ho] at h ht
    exact h.2 t (fun e => ht (by rw [e]))

/-- A thread outside the section changes only its own program. -/
theorem sim_set {s : Conc σ ρ} {S : Ser σ ρ} (h : Sim s S) (t : Nat) (ht : s.owner ≠ some t)
    (p : Option (Prog σ ρ)) (q : Option (Script σ ρ)) (hpq : ThrOK p q) :
    Sim { s with thr := setThr s.thr t p } ⟨S.mem, S.set t q⟩ := by
  unfold Sim at h ⊢
  cases ho : s.owner with
  | none =>
    rw [ho] at h
    refine ⟨h.1, fun u => ?_⟩
    simp only [setThr, Ser.set]
    split
    · exact hpq
    · exact h.2 u
  | some v =>
    rw [ho] at h ht
    obtain ⟨⟨α, c, g, q', h1, h2, h3, h4⟩, h5⟩ := h
    have hv : v ≠ t := fun e => ht (by rw [e])
    refine ⟨⟨α, c, g, q', ?_, ?_, h3, h4⟩, fun u hu => ?_⟩
    · simp only [setThr]; rw [if_neg hv]; exact h1
    · simp only [Ser.set]; rw [if_neg hv]; exact h2
    · simp only [setThr, Ser.set]
      split
      · exact hpq
      · exact h5 u hu

theorem sim_step (code : ω → Prog σ ρ) (script : ω → Script σ ρ) (hi : ∀ op, Impl (code op) (script op))
    {s : Conc σ ρ} {S : Ser σ ρ} (h : Sim s S) (op : COp ω) (hp : ∀ t, CEv.peek t true ∉ (s.step code op).2) :
    ((s.step code op).2 = [] ∧ Sim (s.step code op).1 S) ∨
      ∃ e S', (s.step code op).2 = [e] ∧ Ser.Step script S e S' ∧ Sim (s.step code op).1 S' := by
  cases op with
  | call t op =>
    by_cases ht : s.owner = some t
    · have : ∃ p, s.thr t = some p := by
        unfold Sim at h; rw [ht] at h
        obtain ⟨⟨_, _, _, _, h1, _⟩, _⟩ := h
        exact ⟨_, h1⟩
      obtain ⟨p, hpp⟩ := this
      left; simp only [Conc.step, hpp]; exact ⟨trivial, h⟩
    · rcases sim_out h t ht with ⟨h1, h2⟩ | ⟨p, q, h1, h2, h3⟩
      · right
        refine ⟨.inv t op, ⟨S.mem, S.set t (some (script op))⟩, ?_, .inv S t op h2, ?_⟩
        · simp only [Conc.step, h1]
        · simp only [Conc.step, h1]
          exact sim_set h t ht _ _ (.inr ⟨_, _, rfl, rfl, hi op⟩)
      · left; simp only [Conc.step, h1]; exact ⟨trivial, h⟩
  | go t =>
    by_cases ht : s.owner = some t
    · -- inside the section: silent
      left
      have h' := h
      unfold Sim at h'
      rw [ht] at h'
      obtain ⟨⟨α, c, g, q, h1, h2, h3, h4⟩, h5⟩ := h'
      cases c with
      | ret a =>
        simp only [Crit.into] at h1
        simp only [Conc.step, h1]
        refine ⟨trivial, ?_⟩
        unfold Sim
        refine ⟨h3, fun u => ?_⟩
        simp only [setThr]
        split
        · next e => subst e; exact .inr ⟨_, _, rfl, h2, h4⟩
        · next e => exact h5 u e
      | step f k =>
        simp only [Crit.into] at h1
        simp only [Conc.step, h1]
        refine ⟨trivial, ?_⟩
        unfold Sim
        simp only [ht]
        refine ⟨⟨α, k s.mem, g, q, ?_, h2, h3, h4⟩, fun u hu => ?_⟩
        · simp [setThr]
        · simp only [setThr]; rw [if_neg hu]; exact h5 u hu
    · rcases sim_out h t ht with ⟨h1, h2⟩ | ⟨p, q, h1, h2, h3⟩
      · left; simp only [Conc.step, h1]; exact ⟨trivial, h⟩
      · cases h3 with
        | ret r =>
          right
          refine ⟨.res t r, ⟨S.mem, S.set t none⟩, ?_, .res S t r h2, ?_⟩
          · simp only [Conc.step, h1]
          · simp only [Conc.step, h1]
            exact sim_set h t ht _ _ (.inl ⟨rfl, rfl⟩)
        | const r f k hc =>
          right
          refine ⟨.res t r, ⟨S.mem, S.set t none⟩, ?_, .const S t f k r h2 hc, ?_⟩
          · simp only [Conc.step, h1]
          · simp only [Conc.step, h1]
            exact sim_set h t ht _ _ (.inl ⟨rfl, rfl⟩)
        | locked c g f k hf hk =>
          cases ho : s.owner with
          | some u => left; simp only [Conc.step, h1, Prog.locked, ho, Option.isSome_some, if_true]; exact ⟨trivial, h⟩
          | none =>
            right
            refine ⟨.acq t, ⟨f S.mem, S.set t (some (k S.mem))⟩, ?_, .atom S t f k h2, ?_⟩
            · simp [Conc.step, h1, Prog.locked, ho]
            · simp only [Conc.step, h1, Prog.locked, ho, Option.isSome_none, Bool.false_eq_true, if_false]
              unfold Sim at h
              rw [ho] at h
              unfold Sim
              simp only
              refine ⟨⟨_, c, g, k S.mem, ?_, ?_, ?_, ?_⟩, fun u hu => ?_⟩
              · simp [setThr]
              · simp [Ser.set]
              · rw [h.1]; exact hf _
              · rw [h.1]; exact hk _
              · simp only [setThr, Ser.set]; rw [if_neg hu, if_neg hu]; exact h.2 u
        | peek k k' hk =>
          right
          have hfree : s.owner = none := by
            cases ho : s.owner with
            | none => rfl
            | some u => exact absurd (by simp [Conc.step, h1, ho]) (hp t)
          refine ⟨.peek t s.owner.isSome, ⟨S.mem, S.set t (some (k' S.mem))⟩, ?_, .look S t k' _ h2, ?_⟩
          · simp only [Conc.step, h1]
          · simp only [Conc.step, h1]
            have hm : s.mem = S.mem := by unfold Sim at h; rw [hfree] at h; exact h.1
            have hs := sim_set h t ht (some (k S.mem)) (some (k' S.mem)) (.inr ⟨_, _, rfl, rfl, hk _⟩)
            rw [hm] at hs ⊢
            exact hs

theorem conc_run_snoc (code : ω → Prog σ ρ) (ops : List (COp ω)) (op : COp ω) (s : Conc σ ρ) (evs : List (CEv ω ρ)) :
    Conc.run code (ops ++ [op]) s evs =
      (((Conc.run code ops s evs).1.step code op).1,
        (Conc.run code ops s evs).2 ++ ((Conc.run code ops s evs).1.step code op).2) := by
  induction ops generalizing s evs with
  | nil => rfl
  | cons o r ih => simp only [List.cons_append, Conc.run]; rw [ih]

theorem snocInd' {γ : Type} {motive : List γ → Prop} (h0 : motive [])
    (h : ∀ l a, motive l → motive (l ++ [a])) (l : List γ) : motive l := by
  rw [← List.reverse_reverse l]
  induction l.reverse with
  | nil => simpa using h0
  | cons a r ih => rw [List.reverse_cons]; exact h _ _ ih

theorem sim_run (code : ω → Prog σ ρ) (script : ω → Script σ ρ) (hi : ∀ op, Impl (code op) (script op))
    (m : σ) (ops : List (COp ω)) (hp : ∀ t, CEv.peek t true ∉ (Conc.run code ops (Conc.init m) []).2) :
    ∃ S, Ser.Run script (Ser.init m) (Conc.run code ops (Conc.init m) []).2 S ∧
      Sim (Conc.run code ops (Conc.init m) []).1 S := by
  induction ops using snocInd' with
  | h0 =>
    refine ⟨Ser.init m, .nil _, ?_⟩
    simp only [Conc.run, Sim, Conc.init, Ser.init]
    exact ⟨trivial, fun t => .inl ⟨rfl, rfl⟩⟩
  | h ops op ih =>
    rw [conc_run_snoc] at hp ⊢
    obtain ⟨S, hr, hs⟩ := ih (fun t ht => hp t (by simp [ht]))
    rcases sim_step code script hi hs op (fun t ht => hp t (by simp [ht])) with ⟨he, hs'⟩ | ⟨e, S', he, hst, hs'⟩
    · exact ⟨S, by simpa [he] using hr, hs'⟩
    · exact ⟨S', by rw [he]; exact .snoc _ _ _ _ _ hr hst, hs'⟩

theorem impl_one {α : Type} (c : Crit σ α) (w : α → ρ) (f : σ → σ × ρ) (h : ∀ m, (c.run m).1 = (f m).1 ∧ w (c.run m).2 = (f m).2) :
    Impl (.locked c fun r => .ret (w r)) (.one f) := by
  refine .locked c _ _ _ (fun m => (h m).1) (fun m => ?_)
  rw [(h m).2]
  exact .ret _

theorem impl_const (r : ρ) (f : σ → σ × ρ) (h : ∀ m, f m = (m, r)) : Impl (.ret r) (.one f) :=
  .const r _ _ (fun m => by rw [h m]; exact ⟨rfl, rfl⟩)

theorem impl_valid (n : Name) (k : Prog (Buf X) (Ans X)) (k' : Script (Buf X) (Ans X)) (h : Impl k k') :
    Impl (peekValid n k) (lookValid n k') := by
  refine .peek _ _ (fun b => ?_)
  cases b.validateFrameId n with
  | throw e => exact .ret _
  | ub => exact .ret _
  | ok i => exact h

theorem impl_call [Rigid X] (op : BCall X) : Impl op.code op.script := by
  cases op with
  | set m auth st =>
    simp only [BCall.code, BCall.script]
    split
    · next hv => exact impl_one _ _ _ (fun b => by rw [setC_run m auth st b hv]; exact ⟨rfl, rfl⟩)
    · next hv =>
      refine impl_const _ _ (fun b => ?_)
      simp [Buf.setTransform, hv]
  | clear => exact impl_one _ _ _ (fun b => ⟨clearC_run b, rfl⟩)
  | lookup tg src t => exact impl_one _ _ _ (fun b => by rw [lookupC_run]; exact ⟨rfl, rfl⟩)
  | can tg src t =>
    simp only [BCall.code, BCall.script]
    split
    · next h => exact impl_const _ _ (fun b => by simp [Buf.canTransform, h])
    split
    · next h h1 => exact impl_const _ _ (fun b => by simp [Buf.canTransform, h, h1])
    split
    · next h h1 h2 => exact impl_const _ _ (fun b => by simp [Buf.canTransform, h, h1, h2])
    · next h h1 h2 => exact impl_one _ _ _ (fun b => by rw [canC_run _ _ _ _ h h1 h2]; exact ⟨rfl, rfl⟩)
  | can5 tg tt src st fx =>
    simp only [BCall.code, BCall.script]
    split
    · next h => exact impl_const _ _ (fun b => by simp [Buf.canTransform5, h])
    split
    · next h h1 => exact impl_const _ _ (fun b => by simp [Buf.canTransform5, h, h1])
    split
    · next h h1 h2 => exact impl_const _ _ (fun b => by simp [Buf.canTransform5, h, h1, h2])
    · next h h1 h2 => exact impl_one _ _ _ (fun b => by rw [can5C_run _ _ _ _ _ _ h h1 h2]; exact ⟨rfl, rfl⟩)
  | exists_ n => exact impl_one _ _ _ (fun b => ⟨rfl, rfl⟩)
  | parent n t => exact impl_one _ _ _ (fun b => by rw [getParentC_run]; exact ⟨rfl, rfl⟩)
  | names => exact impl_one _ _ _ (fun b => by rw [namesC_run]; exact ⟨rfl, rfl⟩)
  | lookup5 tg tt src st fx =>
    refine impl_valid _ _ _ (impl_valid _ _ _ (impl_valid _ _ _ ?_))
    refine .locked _ _ _ _ (fun b => by rw [lookupC_run]; rfl) (fun b => ?_)
    rw [lookupC_run]
    simp only
    unfold firstLeg
    cases b.lookupTransform fx src st with
    | throw e => exact .ret _
    | ub => exact .ret _
    | ok m1 =>
      refine .locked _ _ _ _ (fun b => by rw [lookupC_run]; rfl) (fun b => ?_)
      rw [lookupC_run]
      simp only
      unfold secondLeg
      cases b.lookupTransform tg fx tt <;> exact .ret _

/-! ### Executions of the object -/

theorem ser_run_append {script : ω → Script σ ρ} {S S'' : Ser σ ρ} (a : List (CEv ω ρ)) {b : List (CEv ω ρ)}
    (h : Ser.Run script S (a ++ b) S'') : ∃ S', Ser.Run script S a S' ∧ Ser.Run script S' b S'' := by
  induction b using snocInd' generalizing S'' with
  | h0 => exact ⟨S'', by simpa using h, .nil _⟩
  | h l e ih =>
    rw [← List.append_assoc] at h
    generalize hl : a ++ l ++ [e] = L at h
    cases h with
    | nil => simp at hl
    | snoc S1 _ evs e' hr hs =>
      obtain ⟨h1, h2⟩ := List.append_inj' hl rfl
      subst h1
      cases h2
      obtain ⟨S', hx, hy⟩ := ih hr
      exact ⟨S', hx, .snoc _ _ _ _ _ hy hs⟩

theorem ser_run_one {script : ω → Script σ ρ} {S S' : Ser σ ρ} {e : CEv ω ρ} (h : Ser.Run script S [e] S') :
    Ser.Step script S e S' := by
  generalize hl : [e] = L at h
  cases h with
  | nil => simp at hl
  | snoc S1 _ evs e' hr hs =>
    obtain ⟨h1, h2⟩ := List.append_inj' (s₁ := []) hl rfl
    subst h1
    cases h2
    generalize hn : ([] : List (CEv ω ρ)) = L at hr
    cases hr with
    | nil => exact hs
    | snoc => simp at hn

theorem ser_run_nil {script : ω → Script σ ρ} {S S' : Ser σ ρ} (h : Ser.Run script S [] S') : S' = S := by
  generalize hn : ([] : List (CEv ω ρ)) = L at h
  cases h with
  | nil => rfl
  | snoc => simp at hn

theorem ser_run_cons {script : ω → Script σ ρ} {S S'' : Ser σ ρ} {e : CEv ω ρ} {b : List (CEv ω ρ)}
    (h : Ser.Run script S (e :: b) S'') : ∃ S', Ser.Step script S e S' ∧ Ser.Run script S' b S'' := by
  obtain ⟨S', h1, h2⟩ := ser_run_append [e] (by simpa using h)
  exact ⟨S', ser_run_one h1, h2⟩

theorem ser_run_concat {script : ω → Script σ ρ} {S S' S'' : Ser σ ρ} {a b : List (CEv ω ρ)}
    (h1 : Ser.Run script S a S') (h2 : Ser.Run script S' b S'') : Ser.Run script S (a ++ b) S'' := by
  induction h2 with
  | nil => simpa using h1
  | snoc _ _ _ _ _ hs ih => rw [← List.append_assoc]; exact .snoc _ _ _ _ _ ih hs

theorem ser_step_other {script : ω → Script σ ρ} {S S' : Ser σ ρ} {e : CEv ω ρ} (h : Ser.Step script S e S') (t : Nat)
    (ht : e.of t = false) : S'.thr t = S.thr t := by
  cases h <;> simp only [CEv.of, decide_eq_false_iff_not] at ht <;>
    simp only [Ser.set] <;> rw [if_neg (fun e => ht e.symm)]

theorem ser_run_other {script : ω → Script σ ρ} {S S' : Ser σ ρ} (evs : List (CEv ω ρ)) (t : Nat)
    (ht : ∀ e ∈ evs, e.of t = false) (h : Ser.Run script S evs S') : S'.thr t = S.thr t := by
  induction evs generalizing S with
  | nil => rw [ser_run_nil h]
  | cons e r ih =>
    obtain ⟨S1, h1, h2⟩ := ser_run_cons h
    rw [ih (fun e he => ht e (by simp [he])) h2, ser_step_other h1 t (ht e (by simp))]

/-! ### What the instants of the calls do -/

/-- Every instant of the script changes the state by `g`. -/
def Script.All (g : σ → σ) : Script σ ρ → Prop
  | .ret _ => True
  | .atom f k => f = g ∧ ∀ m, (k m).All g
  | .look k => ∀ m, (k m).All g

theorem script_all [Rigid X] (op : BCall X) : op.script.All op.effect := by
  cases op with
  | lookup5 tg tt src st fx =>
    have he : (BCall.lookup5 tg tt src st fx : BCall X).effect = id := rfl
    rw [he]
    have hv : ∀ (n : Name) (k : Script (Buf X) (Ans X)), k.All id → (lookValid n k).All id := by
      intro n k hk
      simp only [lookValid, Script.All]
      intro b
      cases b.validateFrameId n <;> first | trivial | exact hk
    refine hv _ _ (hv _ _ (hv _ _ ⟨rfl, fun b => ?_⟩))
    unfold firstLeg
    cases b.lookupTransform fx src st with
    | throw e => exact trivial
    | ub => exact trivial
    | ok m1 =>
      simp only [Script.All, true_and]
      intro b
      unfold secondLeg
      cases b.lookupTransform tg fx tt <;> exact trivial
  | _ => exact ⟨rfl, fun m => trivial⟩

theorem callOf_snoc (t : Nat) (l : List (CEv (BCall X) (Ans X))) (e : CEv (BCall X) (Ans X)) (c : Option (BCall X)) :
    callOf t (l ++ [e]) c = callOf t [e] (callOf t l c) := by
  induction l generalizing c with
  | nil => rfl
  | cons x r ih => cases x <;> simp only [List.cons_append, callOf, ih]

theorem filterMap_congr' {γ δ : Type} {f g : γ → Option δ} {l : List γ} (h : ∀ x ∈ l, f x = g x) :
    l.filterMap f = l.filterMap g := by
  induction l with
  | nil => rfl
  | cons x r ih =>
    rw [List.filterMap_cons, List.filterMap_cons, h x (by simp), ih (fun y hy => h y (by simp [hy]))]

theorem changesOf_snoc (l : List (CEv (BCall X) (Ans X))) (e : CEv (BCall X) (Ans X)) :
    changesOf (l ++ [e]) = changesOf l ++
      (match e with
       | .acq t => ((callOf t l none).bind BCall.change).toList
       | _ => []) := by
  unfold changesOf
  rw [List.length_append, List.length_singleton, List.range_succ, List.filterMap_append]
  congr 1
  · apply filterMap_congr'
    intro i hi
    have hi' : i < l.length := by simpa using hi
    rw [List.getElem?_append_left hi', List.take_append_of_le_length (by omega)]
  · simp only [List.filterMap_cons, List.filterMap_nil, List.getElem?_concat_length]
    rw [List.take_left' rfl]
    cases e with
    | acq t => simp only; cases (callOf t l none).bind BCall.change <;> rfl
    | _ => rfl

theorem ser_inv [Rigid X] {b : Buf X} {evs : List (CEv (BCall X) (Ans X))} {S : Ser (Buf X) (Ans X)}
    (h : Ser.Run BCall.script (Ser.init b) evs S) :
    S.mem = b.run (changesOf evs) ∧
      ∀ t, (S.thr t = none ∧ callOf t evs none = none) ∨
        ∃ q op, S.thr t = some q ∧ callOf t evs none = some op ∧ q.All op.effect := by
  induction h with
  | nil => exact ⟨rfl, fun t => .inl ⟨rfl, rfl⟩⟩
  | snoc S' S'' evs e hr hs ih =>
    obtain ⟨h1, h2⟩ := ih
    cases hs with
    | inv t op ht =>
      refine ⟨by rw [changesOf_snoc]; simpa using h1, fun u => ?_⟩
      rw [callOf_snoc]
      simp only [callOf, Ser.set]
      by_cases hu : u = t
      · right; rw [if_pos hu, if_pos hu.symm]; exact ⟨_, _, rfl, rfl, script_all op⟩
      · rw [if_neg hu, if_neg (fun e => hu e.symm)]; exact h2 u
    | atom t f k ht =>
      have hfk : ∃ op, callOf t evs none = some op ∧ (Script.atom f k).All op.effect := by
        rcases h2 t with ⟨h, _⟩ | ⟨q, op, hq, hc, ha⟩
        · rw [ht] at h; cases h
        · rw [ht] at hq; cases hq; exact ⟨op, hc, ha⟩
      obtain ⟨op, hc, ha⟩ := hfk
      constructor
      · rw [changesOf_snoc]
        simp only [hc, Option.bind_some]
        rw [ha.1, h1]
        unfold BCall.effect Buf.run
        rw [List.foldl_append]
        cases op.change <;> rfl
      · intro u
        rw [callOf_snoc]
        simp only [callOf, Ser.set]
        by_cases hu : u = t
        · right; rw [if_pos hu]; subst hu; exact ⟨_, op, rfl, hc, ha.2 _⟩
        · rw [if_neg hu]; exact h2 u
    | look t k held ht =>
      refine ⟨by rw [changesOf_snoc]; simpa using h1, fun u => ?_⟩
      rw [callOf_snoc]
      simp only [callOf, Ser.set]
      by_cases hu : u = t
      · subst hu
        rcases h2 u with ⟨h, _⟩ | ⟨q, op, hq, hc, ha⟩
        · rw [ht] at h; cases h
        · rw [ht] at hq; cases hq
          right; rw [if_pos rfl]; exact ⟨_, op, rfl, hc, ha _⟩
      · rw [if_neg hu]; exact h2 u
    | res t r ht =>
      refine ⟨by rw [changesOf_snoc]; simpa using h1, fun u => ?_⟩
      rw [callOf_snoc]
      simp only [callOf, Ser.set]
      by_cases hu : u = t
      · left; rw [if_pos hu, if_pos hu.symm]; exact ⟨rfl, rfl⟩
      · rw [if_neg hu, if_neg (fun e => hu e.symm)]; exact h2 u
    | const t f k r ht hc =>
      refine ⟨by rw [changesOf_snoc]; simpa using h1, fun u => ?_⟩
      rw [callOf_snoc]
      simp only [callOf, Ser.set]
      by_cases hu : u = t
      · left; rw [if_pos hu, if_pos hu.symm]; exact ⟨rfl, rfl⟩
      · rw [if_neg hu, if_neg (fun e => hu e.symm)]; exact h2 u

/-- A call with one instant. -/
theorem script_one [Rigid X] (op : BCall X) (h : op.fiveArg = false) :
    op.script = .one fun b => (op.effect b, op.answer b) := by
  cases op <;> first | rfl | (simp [BCall.fiveArg] at h)

/-- The first event of thread `t`. -/
theorem first_of (t : Nat) (l : List (CEv ω ρ)) :
    (∀ e ∈ l, e.of t = false) ∨ ∃ a e c, l = a ++ e :: c ∧ e.of t = true ∧ ∀ x ∈ a, x.of t = false := by
  induction l with
  | nil => left; simp
  | cons x r ih =>
    by_cases hx : x.of t = true
    · exact .inr ⟨[], x, r, rfl, hx, by simp⟩
    · rcases ih with h | ⟨a, e, c, h1, h2, h3⟩
      · left; intro e he
        rcases List.mem_cons.mp he with rfl | h'
        · simpa using hx
        · exact h e h'
      · right
        refine ⟨x :: a, e, c, by rw [h1]; rfl, h2, fun y hy => ?_⟩
        rcases List.mem_cons.mp hy with rfl | h'
        · simpa using hx
        · exact h3 y h'

theorem answer_one [Rigid X] {b : Buf X} {e1 e2 : List (CEv (BCall X) (Ans X))} {t : Nat} {op : BCall X} {r : Ans X}
    {S : Ser (Buf X) (Ans X)} (h : Ser.Run BCall.script (Ser.init b) (e1 ++ .inv t op :: e2 ++ [.res t r]) S)
    (hop : op.fiveArg = false) (he : ∀ e ∈ e2, e.ends t = false) :
    (∃ a c, e2 = a ++ .acq t :: c ∧ (∀ e ∈ a ++ c, e.of t = false) ∧
        r = op.answer (b.run (changesOf (e1 ++ .inv t op :: a)))) ∨
      ((∀ e ∈ e2, e.of t = false) ∧ ∀ m, op.answer m = r ∧ op.effect m = m) := by
  obtain ⟨S3, h, hres⟩ := ser_run_append _ h
  have hres := ser_run_one hres
  obtain ⟨S1, hpre, h⟩ := ser_run_append (e1 ++ [CEv.inv t op]) (b := e2) (by simpa using h)
  have hq : S1.thr t = some op.script := by
    obtain ⟨S0, _, h1⟩ := ser_run_append e1 hpre
    have h1 := ser_run_one h1
    cases h1
    simp [Ser.set]
  rcases first_of t e2 with hno | ⟨a, e, c, h1, h2, h3⟩
  · right
    refine ⟨hno, ?_⟩
    have h3 := ser_run_other e2 t hno h
    rw [hq, script_one op hop] at h3
    cases hres with
    | res _ _ h4 => rw [h4] at h3; cases h3
    | const _ f k _ h4 hc =>
      rw [h4] at h3; cases h3
      intro m
      have := hc m
      exact ⟨by simpa using this.2, this.1⟩
  · left
    subst h1
    obtain ⟨S2, ha, h⟩ := ser_run_append a h
    have hq2 := ser_run_other a t h3 ha
    rw [hq, script_one op hop] at hq2
    obtain ⟨S2', hs, h⟩ := ser_run_cons h
    have hmem : S2.mem = b.run (changesOf (e1 ++ .inv t op :: a)) := by
      have hall : Ser.Run BCall.script (Ser.init b) ((e1 ++ [CEv.inv t op]) ++ a) S2 := by
        exact ser_run_concat hpre ha
      have := (ser_inv hall).1
      simpa using this
    cases hs with
    | inv u op' hu =>
      have : u = t := by simpa [CEv.of] using h2
      have hh := he _ (List.mem_append_right a List.mem_cons_self)
      simp [CEv.ends, this] at hh
    | res u _ hu =>
      have : u = t := by simpa [CEv.of] using h2
      have hh := he _ (List.mem_append_right a List.mem_cons_self)
      simp [CEv.ends, this] at hh
    | const u f k r' hu hc =>
      have : u = t := by simpa [CEv.of] using h2
      have hh := he _ (List.mem_append_right a List.mem_cons_self)
      simp [CEv.ends, this] at hh
    | look u k held hu =>
      have : u = t := by simpa [CEv.of] using h2
      subst this
      rw [hu] at hq2; cases hq2
    | atom u f k hu =>
      have : u = t := by simpa [CEv.of] using h2
      subst this
      rw [hu] at hq2; cases hq2
      have hq3 : (Ser.mk (op.effect S2.mem) (S2.set u (some (Script.ret (op.answer S2.mem))))).thr u =
          some (.ret (op.answer S2.mem)) := by simp [Ser.set]
      have hc : ∀ e ∈ c, e.of u = false := by
        rcases first_of u c with hno | ⟨a', e, c', h1, h2', h3'⟩
        · exact hno
        · exfalso
          subst h1
          obtain ⟨S4, ha', h⟩ := ser_run_append a' h
          have hq4 := ser_run_other a' u h3' ha'
          obtain ⟨S5, hs, _⟩ := ser_run_cons h
          rw [hq3] at hq4
          cases hs with
          | inv v op' hv =>
            have : v = u := by simpa [CEv.of] using h2'
            have hh := he _ (List.mem_append_right a (List.mem_cons_of_mem _ (List.mem_append_right a' List.mem_cons_self)))
            simp [CEv.ends, this] at hh
          | res v _ hv =>
            have : v = u := by simpa [CEv.of] using h2'
            have hh := he _ (List.mem_append_right a (List.mem_cons_of_mem _ (List.mem_append_right a' List.mem_cons_self)))
            simp [CEv.ends, this] at hh
          | const v f k r' hv hc =>
            have : v = u := by simpa [CEv.of] using h2'
            subst this; rw [hv] at hq4; cases hq4
          | look v k held hv =>
            have : v = u := by simpa [CEv.of] using h2'
            subst this; rw [hv] at hq4; cases hq4
          | atom v f k hv =>
            have : v = u := by simpa [CEv.of] using h2'
            subst this; rw [hv] at hq4; cases hq4
      have hq5 := ser_run_other c u hc h
      rw [hq3] at hq5
      refine ⟨a, c, rfl, fun e he' => ?_, ?_⟩
      · rcases List.mem_append.mp he' with h' | h'
        · exact h3 e h'
        · exact hc e h'
      · rw [← hmem]
        cases hres with
        | res _ _ h6 => rw [h6] at hq5; cases hq5; rfl
        | const _ f k _ h6 hc => rw [h6] at hq5; cases hq5

/-- The answer of a script whose instants see the states `st` at increasing positions from `i` to `hi`. -/
inductive Answers (st : Nat → σ) (hi : Nat) : Nat → Script σ ρ → ρ → Prop where
  | ret (i r) : Answers st hi i (.ret r) r
  | const (i f k r) : (∀ m, f m = m ∧ k m = .ret r) → Answers st hi i (.atom f k) r
  | atom (i j f k r) : i ≤ j → j ≤ hi → Answers st hi j (k (st j)) r → Answers st hi i (.atom f k) r
  | look (i j k r) : i ≤ j → j ≤ hi → Answers st hi j (k (st j)) r → Answers st hi i (.look k) r

theorem Answers.mono {st : Nat → σ} {hi i j : Nat} {q : Script σ ρ} {r : ρ} (h : Answers st hi j q r) (hij : i ≤ j) :
    Answers st hi i q r := by
  cases h with
  | ret => exact .ret _ _
  | const _ f k _ hc => exact .const _ _ _ _ hc
  | atom _ l f k _ h1 h2 h3 => exact .atom _ l _ _ _ (by omega) h2 h3
  | look _ l k _ h1 h2 h3 => exact .look _ l _ _ (by omega) h2 h3

theorem answers_run [Rigid X] {b : Buf X} (all : List (CEv (BCall X) (Ans X))) (t : Nat) (r : Ans X)
    (e2 : List (CEv (BCall X) (Ans X))) (pre : List (CEv (BCall X) (Ans X))) (S1 S : Ser (Buf X) (Ans X)) (q : Script (Buf X) (Ans X))
    (hpre : Ser.Run BCall.script (Ser.init b) pre S1) (hq : S1.thr t = some q)
    (h : Ser.Run BCall.script S1 (e2 ++ [.res t r]) S) (he : ∀ e ∈ e2, e.ends t = false)
    (hall : ∀ i, i ≤ pre.length + e2.length → all.take i = (pre ++ e2).take i) :
    Answers (fun i => b.run (changesOf (all.take i))) (pre.length + e2.length) pre.length q r := by
  induction e2 generalizing pre S1 q with
  | nil =>
    have hs := ser_run_one (by simpa using h)
    cases hs with
    | res _ _ h1 => rw [hq] at h1; cases h1; exact .ret _ _
    | const _ f k _ h1 hc => rw [hq] at h1; cases h1; exact .const _ _ _ _ hc
  | cons e c ih =>
    rw [List.cons_append] at h
    obtain ⟨S2, hs, h⟩ := ser_run_cons h
    have hlen : pre.length + (e :: c).length = (pre ++ [e]).length + c.length := by simp; omega
    have hpre2 : Ser.Run BCall.script (Ser.init b) (pre ++ [e]) S2 := .snoc _ _ _ _ _ hpre hs
    have hmem := (ser_inv hpre).1
    have htake : all.take pre.length = pre := by rw [hall _ (by omega)]; simp
    have go : ∀ q', S2.thr t = some q' →
        Answers (fun i => b.run (changesOf (all.take i))) (pre.length + (e :: c).length) (pre.length + 1) q' r := by
      intro q' hq'
      rw [hlen]
      have := ih (pre ++ [e]) S2 q' hpre2 hq' h (fun x hx => he x (by simp [hx]))
        (by intro i hi; rw [hall i (by omega)]; simp)
      simpa using this
    have hends := he e (by simp)
    cases hs with
    | inv u op hu =>
      have hne : ¬ u = t := by simpa [CEv.ends] using hends
      refine (go q ?_).mono (by omega)
      simp only [Ser.set]; rw [if_neg (fun x => hne x.symm)]; exact hq
    | res u r' hu =>
      have hne : ¬ u = t := by simpa [CEv.ends] using hends
      refine (go q ?_).mono (by omega)
      simp only [Ser.set]; rw [if_neg (fun x => hne x.symm)]; exact hq
    | const u f k r' hu hc =>
      have hne : ¬ u = t := by simpa [CEv.ends] using hends
      refine (go q ?_).mono (by omega)
      simp only [Ser.set]; rw [if_neg (fun x => hne x.symm)]; exact hq
    | atom u f k hu =>
      by_cases hut : u = t
      · subst hut
        rw [hq] at hu; cases hu
        refine .atom _ pre.length _ _ _ (by omega) (by omega) ?_
        simp only [htake]
        rw [← hmem]
        exact (go _ (by simp [Ser.set])).mono (by omega)
      · refine (go q ?_).mono (by omega)
        simp only [Ser.set]; rw [if_neg (fun x => hut x.symm)]; exact hq
    | look u k held hu =>
      by_cases hut : u = t
      · subst hut
        rw [hq] at hu; cases hu
        refine .look _ pre.length _ _ (by omega) (by omega) ?_
        simp only [htake]
        rw [← hmem]
        exact (go _ (by simp [Ser.set])).mono (by omega)
      · refine (go q ?_).mono (by omega)
        simp only [Ser.set]; rw [if_neg (fun x => hut x.symm)]; exact hq

theorem answers_valid {st : Nat → Buf X} {hi i : Nat} {n : Name} {k : Script (Buf X) (Ans X)} {r : Ans X}
    (h : Answers st hi i (lookValid n k) r) :
    ∃ j, i ≤ j ∧ j ≤ hi ∧
      (match (st j).validateFrameId n with
       | .throw e => r = .msg (.throw e)
       | .ub => r = .msg .ub
       | .ok _ => Answers st hi j k r) := by
  unfold lookValid at h
  cases h with
  | look _ j k r h1 h2 h3 =>
    refine ⟨j, h1, h2, ?_⟩
    dsimp only at h3
    cases hv : (st j).validateFrameId n with
    | throw e => rw [hv] at h3; cases h3; rfl
    | ub => rw [hv] at h3; cases h3; rfl
    | ok _ => rw [hv] at h3; exact h3

theorem answers_five [Rigid X] {st : Nat → Buf X} {hi i : Nat} {tg : Name} {tt : Time} {src : Name} {t : Time} {fx : Name}
    {r : Ans X} (hi' : i ≤ hi) (h : Answers st hi i (BCall.lookup5 tg tt src t fx : BCall X).script r) :
    ∃ i1 i2 i3 i4 i5, i ≤ i1 ∧ i1 ≤ i2 ∧ i2 ≤ i3 ∧ i3 ≤ i4 ∧ i4 ≤ i5 ∧ i5 ≤ hi ∧
      r = .msg (fiveAnswer (st i1) (st i2) (st i3) (st i4) (st i5) tg tt src t fx) := by
  unfold BCall.script at h
  obtain ⟨i1, h1, h1', hv1⟩ := answers_valid h
  cases e1 : (st i1).validateFrameId tg with
  | throw e => rw [e1] at hv1; exact ⟨i1, i1, i1, i1, i1, h1, by omega, by omega, by omega, by omega, h1', by simp [fiveAnswer, e1, hv1]⟩
  | ub => rw [e1] at hv1; exact ⟨i1, i1, i1, i1, i1, h1, by omega, by omega, by omega, by omega, h1', by simp [fiveAnswer, e1, hv1]⟩
  | ok a1 =>
  rw [e1] at hv1
  obtain ⟨i2, h2, h2', hv2⟩ := answers_valid hv1
  cases e2 : (st i2).validateFrameId src with
  | throw e => rw [e2] at hv2; exact ⟨i1, i2, i2, i2, i2, h1, by omega, by omega, by omega, by omega, h2', by simp [fiveAnswer, e1, e2, hv2]⟩
  | ub => rw [e2] at hv2; exact ⟨i1, i2, i2, i2, i2, h1, by omega, by omega, by omega, by omega, h2', by simp [fiveAnswer, e1, e2, hv2]⟩
  | ok a2 =>
  rw [e2] at hv2
  obtain ⟨i3, h3, h3', hv3⟩ := answers_valid hv2
  cases e3 : (st i3).validateFrameId fx with
  | throw e => rw [e3] at hv3; exact ⟨i1, i2, i3, i3, i3, h1, by omega, by omega, by omega, by omega, h3', by simp [fiveAnswer, e1, e2, e3, hv3]⟩
  | ub => rw [e3] at hv3; exact ⟨i1, i2, i3, i3, i3, h1, by omega, by omega, by omega, by omega, h3', by simp [fiveAnswer, e1, e2, e3, hv3]⟩
  | ok a3 =>
  rw [e3] at hv3
  simp only at hv3
  have h4 : ∃ j, i3 ≤ j ∧ j ≤ hi ∧ Answers st hi j (firstLeg tg tt src t fx (st j)) r := by
    cases hv3 with
    | const _ f k _ hc =>
      refine ⟨i3, by omega, h3', ?_⟩
      have := (hc (st i3)).2
      rw [this]; exact .ret _ _
    | atom _ j f k _ x1 x2 x3 => exact ⟨j, x1, x2, x3⟩
  obtain ⟨i4, h4, h4', hv4⟩ := h4
  unfold firstLeg at hv4
  cases e4 : (st i4).lookupTransform fx src t with
  | throw e => rw [e4] at hv4; cases hv4; exact ⟨i1, i2, i3, i4, i4, h1, by omega, by omega, by omega, by omega, h4', by simp [fiveAnswer, e1, e2, e3, e4]⟩
  | ub => rw [e4] at hv4; cases hv4; exact ⟨i1, i2, i3, i4, i4, h1, by omega, by omega, by omega, by omega, h4', by simp [fiveAnswer, e1, e2, e3, e4]⟩
  | ok m1 =>
  rw [e4] at hv4
  simp only at hv4
  have h5 : ∃ j, i4 ≤ j ∧ j ≤ hi ∧ Answers st hi j (secondLeg tg tt src fx m1 (st j)) r := by
    cases hv4 with
    | const _ f k _ hc =>
      refine ⟨i4, by omega, h4', ?_⟩
      have := (hc (st i4)).2
      rw [this]; exact .ret _ _
    | atom _ j f k _ x1 x2 x3 => exact ⟨j, x1, x2, x3⟩
  obtain ⟨i5, h5, h5', hv5⟩ := h5
  unfold secondLeg at hv5
  refine ⟨i1, i2, i3, i4, i5, h1, h2, h3, h4, h5, h5', ?_⟩
  cases e5 : (st i5).lookupTransform tg fx tt with
  | throw e => rw [e5] at hv5; cases hv5; simp [fiveAnswer, e1, e2, e3, e4, e5]
  | ub => rw [e5] at hv5; cases hv5; simp [fiveAnswer, e1, e2, e3, e4, e5]
  | ok m2 => rw [e5] at hv5; cases hv5; simp [fiveAnswer, e1, e2, e3, e4, e5]

/-! ### Programs that never read without the mutex -/

/-- No read without the mutex. -/
def Prog.NoPeek : Prog σ ρ → Prop
  | .ret _ => True
  | .acq k => k.NoPeek
  | .rel k => k.NoPeek
  | .step _ k => ∀ m, (k m).NoPeek
  | .peek _ => False

theorem noPeek_into (c : Crit σ α) (k : α → Prog σ ρ) (h : ∀ a, (k a).NoPeek) : (c.into k).NoPeek := by
  induction c with
  | ret a => exact h a
  | step f g ih => exact fun m => ih m

theorem noPeek_locked (c : Crit σ α) (k : α → Prog σ ρ) (h : ∀ a, (k a).NoPeek) : (Prog.locked c k).NoPeek :=
  noPeek_into c _ (fun a => h a)

theorem noPeek_call [Rigid X] (op : BCall X) (h : op.fiveArg = false) : op.code.NoPeek := by
  cases op with
  | lookup5 => simp [BCall.fiveArg] at h
  | set m auth st =>
    simp only [BCall.code]
    split
    · exact noPeek_locked _ _ (fun _ => trivial)
    · trivial
  | can tg src t =>
    simp only [BCall.code]
    split
    · trivial
    split
    · trivial
    split
    · trivial
    exact noPeek_locked _ _ (fun _ => trivial)
  | can5 tg tt src st fx =>
    simp only [BCall.code]
    split
    · trivial
    split
    · trivial
    split
    · trivial
    exact noPeek_locked _ _ (fun _ => trivial)
  | _ => exact noPeek_locked _ _ (fun _ => trivial)

theorem noPeek_run (code : ω → Prog σ ρ) (sched : List (COp ω)) (m : σ)
    (h : ∀ t op, COp.call t op ∈ sched → (code op).NoPeek) :
    (∀ t p, (Conc.run code sched (Conc.init m) []).1.thr t = some p → p.NoPeek) ∧
      ∀ t b, CEv.peek t b ∉ (Conc.run code sched (Conc.init m) []).2 := by
  induction sched using snocInd' with
  | h0 => exact ⟨fun t p hp => by simp [Conc.run, Conc.init] at hp, fun t b => by simp [Conc.run]⟩
  | h l o ih =>
    obtain ⟨h1, h2⟩ := ih (fun t op ho => h t op (by simp [ho]))
    rw [conc_run_snoc]
    generalize Conc.run code l (Conc.init m) [] = R at h1 h2 ⊢
    obtain ⟨s, evs⟩ := R
    simp only at h1 h2 ⊢
    have key : (∀ t p, (s.step code o).1.thr t = some p → p.NoPeek) ∧ ∀ t b, CEv.peek t b ∉ (s.step code o).2 := by
      cases o with
      | call t op =>
        simp only [Conc.step]
        cases ht : s.thr t with
        | some p => exact ⟨h1, by simp⟩
        | none =>
          refine ⟨fun u p hp => ?_, by simp⟩
          simp only [setThr] at hp
          split at hp
          · cases hp; exact h t op (by simp)
          · exact h1 u p hp
      | go t =>
        simp only [Conc.step]
        have hset : ∀ (q : Option (Prog σ ρ)), (∀ p, q = some p → p.NoPeek) →
            ∀ u p, setThr s.thr t q u = some p → p.NoPeek := by
          intro q hq u p hp
          simp only [setThr] at hp
          split at hp
          · exact hq p hp
          · exact h1 u p hp
        cases ht : s.thr t with
        | none => exact ⟨h1, by simp⟩
        | some p =>
          have hp := h1 t p ht
          cases p with
          | ret r => exact ⟨hset none (by simp), by simp⟩
          | acq k =>
            simp only
            split
            · exact ⟨h1, by simp⟩
            · exact ⟨hset (some k) (fun p e => by cases e; exact hp), by simp⟩
          | rel k => exact ⟨hset (some k) (fun p e => by cases e; exact hp), by simp⟩
          | step f k => exact ⟨hset (some (k s.mem)) (fun p e => by cases e; exact hp _), by simp⟩
          | peek k => exact hp.elim
    refine ⟨key.1, fun t b hb => ?_⟩
    rcases List.mem_append.mp hb with h' | h'
    · exact h2 t b h'
    · exact key.2 t b h'

end Tf2
