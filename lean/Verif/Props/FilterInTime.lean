import Verif.Proofs.FilterInTime
import Verif.Props.FilterPass

/-!
# C98: a message whose transforms are published in time passes the filter

`Props/FilterPass.lean` asks at every step that the message keeps its chance. Here that follows from what is published.
-/
namespace Tf2

variable {X : Type}

/-- The settings are those of the setup as long as no step changes them. -/
theorem settings_now [Rigid X] (D : Duration) (pre : List (ROp X)) (target : Name) (qsize : Nat) (queued : Bool)
    (setup p : List (FOp X)) (hp : ∀ op ∈ p, op.keepsSettings) :
    (Filt.history D pre target qsize queued (setup ++ p)).1.targets = (targetsSet target setup).map stripSlash ∧
    (Filt.history D pre target qsize queued (setup ++ p)).1.tol = toleranceSet setup := by
  obtain ⟨h1, h2⟩ := C39_settings D pre target qsize queued (setup ++ p)
  have e1 : targetsSet target (setup ++ p) = targetsSet target setup := by
    unfold targetsSet
    rw [List.filterMap_append, List.filterMap_eq_nil_iff (l := p) |>.2, List.append_nil]
    intro op ho
    have := hp op ho
    cases op <;> first | rfl | exact absurd this id
  have e2 : toleranceSet (setup ++ p) = toleranceSet setup := by
    unfold toleranceSet
    rw [List.filterMap_append, List.filterMap_eq_nil_iff (l := p) |>.2, List.append_nil]
    intro op ho
    have := hp op ho
    cases op <;> first | rfl | exact absurd this id
  rw [e1] at h1
  rw [e2] at h2
  exact ⟨h1, h2⟩

/-- C98. If all that a message needs is published in time, it keeps its chance in every step, whatever the
threads do. -/
theorem C98_keeps_chance [Rigid X] (hz : InterpZero X) (D : Duration) (pre : List (ROp X)) (target : Name) (qsize : Nat)
    (queued : Bool) (setup ops : List (FOp X)) (frame : Name) (stamp : Time) {par : Name → Option Name} {depth : Name → Nat}
    (hl : LegalName frame)
    (hg : OnTime D (toldBuffer pre (setup ++ ops)) par depth ((targetsSet target setup).map stripSlash) (toleranceSet setup)
      frame stamp)
    (hset : ∀ op ∈ ops, op.keepsSettings) (hav : ∀ op ∈ ops, op.readsAvailable)
    (hroom : ∀ p, p <+: ops → (Filt.history D pre target qsize queued (setup ++ p)).1.HasRoom) :
    ChanceRun frame stamp ops (Filt.history D pre target qsize queued setup).1 := by
  have main : ∀ (q p : List (FOp X)), ops = p ++ q →
      ChanceRun frame stamp q (Filt.history D pre target qsize queued (setup ++ p)).1 := by
    intro q
    induction q with
    | nil => intro p _; trivial
    | cons op r ih =>
      intro p e
      have e' : ops = (p ++ [op]) ++ r := by rw [e]; simp
      have hstep : ((Filt.history D pre target qsize queued (setup ++ p)).1.step op).1 =
          (Filt.history D pre target qsize queued (setup ++ (p ++ [op]))).1 := by
        rw [← List.append_assoc, (history_parts D pre target qsize queued (setup ++ p) [op]).2.1]
        rfl
      obtain ⟨s1, s2⟩ := settings_now D pre target qsize queued setup p
        (fun o ho => hset o (by rw [e]; exact List.mem_append_left _ ho))
      have t1 : toldBuffer pre (setup ++ (p ++ [op])) = toldBuffer pre (setup ++ p) ++ [op].filterMap FOp.tells := by
        rw [← List.append_assoc, toldBuffer_append]
      have t2 : toldBuffer pre (setup ++ ops) =
          toldBuffer pre (setup ++ p) ++ [op].filterMap FOp.tells ++ r.filterMap FOp.tells := by
        rw [e', ← List.append_assoc, toldBuffer_append, t1]
      refine ⟨?_, hroom p ⟨op :: r, e.symm⟩, hav op (by rw [e]; simp), ?_, ?_⟩
      · intro t ht tm hw
        rw [s1] at ht
        rw [s2] at hw
        rw [hstep, fhistory_buf, fhistory_buf, t1]
        exact ⟨hg.stays t2 hz hl ht hw, fun _ => hg.young_all t2 hw⟩
      · intro t ht
        rw [s1] at ht
        exact (hg.named.2 t ht).2
      · rw [hstep]
        exact ih (p ++ [op]) e'
  have := main ops [] rfl
  rwa [List.append_nil] at this

/-- C98. A message whose transforms are published in time is never reported as failed, and when the last change of the
buffer was an accepted transform, the callbacks due have been made and its `add` has returned, it has passed - unless it
was ignored (no target frames), thrown away by `clear`, or its `add` threw. Nothing is asked of the order in which the
transforms, the message, the callbacks and other messages come. -/
theorem C98_in_time [Rigid X] (hz : InterpZero X) (D : Duration) (pre : List (ROp X)) (target : Name) (qsize : Nat)
    (queued : Bool) (setup ops1 ops2 : List (FOp X)) (m : Msg X) (a : Name) (st : Bool) (id : Nat) (frame : Name)
    (stamp : Time) {par : Name → Option Name} {depth : Name → Nat}
    (hrec : FEv.received id frame stamp ∈
      (Filt.run (ops1 ++ .buffer (.set m a st) :: ops2) (Filt.history D pre target qsize queued setup).1 []).2)
    (hl : LegalName (stripSlash frame))
    (ho : OrderlyRun (setup ++ (ops1 ++ .buffer (.set m a st) :: ops2))
      (Filt.init (RBuf.history D pre).1 (RBuf.history D pre).2 target qsize queued))
    (hh : (Filt.history D pre target qsize queued (setup ++ (ops1 ++ .buffer (.set m a st) :: ops2))).1.Healthy)
    (hg : OnTime D (toldBuffer pre (setup ++ (ops1 ++ .buffer (.set m a st) :: ops2))) par depth
      ((targetsSet target setup).map stripSlash) (toleranceSet setup) (stripSlash frame) stamp)
    (hset : ∀ op ∈ ops1 ++ .buffer (.set m a st) :: ops2, op.keepsSettings)
    (hav : ∀ op ∈ ops1 ++ .buffer (.set m a st) :: ops2, op.readsAvailable)
    (hroom : ∀ p, p <+: ops1 ++ .buffer (.set m a st) :: ops2 →
      (Filt.history D pre target qsize queued (setup ++ p)).1.HasRoom)
    (hacc : ((Filt.history D pre target qsize queued (setup ++ ops1)).1.rb.buf.setTransform m a st).2 = .accepted)
    (hlast : ∀ op ∈ ops2, op.keepsBuffer) :
    let s := (Filt.history D pre target qsize queued (setup ++ (ops1 ++ .buffer (.set m a st) :: ops2))).1
    let evs := (Filt.run (ops1 ++ .buffer (.set m a st) :: ops2) (Filt.history D pre target qsize queued setup).1 []).2
    (∀ r, FEv.decided id (some r) ∉ evs) ∧
    (s.rb.scheduled = [] → id ∉ s.beingAdded → FEv.ignored id ∉ evs → FEv.discarded id ∉ evs → FEv.addThrew id ∉ evs →
      FEv.decided id none ∈ evs ∧ (FEv.signalled id none ∈ evs ∨ ⟨id, none⟩ ∈ s.cbq.getD [])) := by
  intro s evs
  have hc := C98_keeps_chance hz D pre target qsize queued setup _ (stripSlash frame) stamp hl hg hset hav hroom
  refine ⟨C98_not_failed D pre target qsize queued setup _ id frame stamp hrec hl ho hh hc, ?_⟩
  intro h1 h2 h3 h4 h5
  refine C98_passes D pre target qsize queued setup ops1 ops2 m a st id frame stamp hrec hl ho hh hc hacc hlast h1 h2 h3 h4 h5 ?_
  obtain ⟨s1, s2⟩ := settings_now D pre target qsize queued setup _ hset
  intro t ht
  rw [s1] at ht
  rw [s2]
  have there := fun tm hw => hg.there (t := t) (tm := tm) hz hl ht hw
  rw [← fhistory_buf D pre target qsize queued] at there
  refine ⟨there _ (.inl rfl), fun h0 => ?_⟩
  obtain ⟨tm, ht2⟩ := hg.fits h0
  exact ⟨tm, ht2, there _ (.inr ⟨h0, ht2⟩)⟩

/-! ### A concrete case -/

/-- The tree of the example: `a` and `b` below `w`. -/
def forkPar (n : Name) : Option Name := if n = ['a'] then some ['w'] else if n = ['b'] then some ['w'] else none

/-- Depths in it. -/
def forkDepth (n : Name) : Nat := if n = ['a'] ∨ n = ['b'] then 1 else 0

/-- What the buffer of the example is told. -/
def forkTold : List (Op Int) :=
  [.set (tmsg ['w'] ['a'] 10 1) ['u'] false, .set (tmsg ['w'] ['a'] 20 3) ['u'] false,
   .set (tmsg ['w'] ['b'] 15 7) ['u'] false, .set (tmsg ['w'] ['b'] 18 7) ['u'] false]

theorem forkTold_mem {m : Msg Int} {a : Name} {s : Bool} (h : Op.set m a s ∈ forkTold) :
    m = tmsg ['w'] ['a'] 10 1 ∨ m = tmsg ['w'] ['a'] 20 3 ∨ m = tmsg ['w'] ['b'] 15 7 ∨ m = tmsg ['w'] ['b'] 18 7 := by
  simp only [forkTold, List.mem_cons, Op.set.injEq, List.not_mem_nil, or_false] at h
  rcases h with h | h | h | h <;> simp [h.1]

/-- For a message in frame `b` with stamp 15, two targets and tolerance 2, all is published in time. -/
theorem forkTold_onTime : OnTime 100 forkTold forkPar forkDepth [['w'], ['a']] 2 ['b'] 15 := by
  have two : ∀ tm, WantedTime 2 15 tm → tm = 15 ∨ tm = 17 := by
    rintro tm (h | ⟨-, h⟩)
    · exact .inl h
    · have e : timeAdd 15 2 = some 17 := by decide
      rw [e] at h
      exact .inr (Option.some.inj h).symm
  have la : ∀ tm, WantedTime 2 15 tm → Lasts 100 forkTold tm ['a'] := by
    intro tm h
    have e : offersFor ['a'] forkTold = [(tmsg ['w'] ['a'] 10 1, false), (tmsg ['w'] ['a'] 20 3, false)] := by decide
    refine .moving (m1 := tmsg ['w'] ['a'] 10 1) (m2 := tmsg ['w'] ['a'] 20 3) ?_ ?_ ?_ ?_ ?_ ?_ ?_
    all_goals first
      | (rw [e]; simp)
      | (rcases two tm h with rfl | rfl <;> simp)
  have lb : ∀ tm, WantedTime 2 15 tm → Lasts 100 forkTold tm ['b'] := by
    intro tm h
    have e : offersFor ['b'] forkTold = [(tmsg ['w'] ['b'] 15 7, false), (tmsg ['w'] ['b'] 18 7, false)] := by decide
    refine .moving (m1 := tmsg ['w'] ['b'] 15 7) (m2 := tmsg ['w'] ['b'] 18 7) ?_ ?_ ?_ ?_ ?_ ?_ ?_
    all_goals first
      | (rw [e]; simp)
      | (rcases two tm h with rfl | rfl <;> simp)
  refine ⟨⟨by decide, ?_, ?_⟩, ⟨?_, ?_, ?_, ?_⟩, ?_, ?_, ?_, ?_, ⟨by decide, ?_⟩, ?_⟩
  · intro m a s h _
    rcases forkTold_mem h with rfl | rfl | rfl | rfl <;> decide
  · intro m a s h _
    rcases forkTold_mem h with rfl | rfl | rfl | rfl <;> decide
  · intro m a s h _
    rcases forkTold_mem h with rfl | rfl | rfl | rfl <;> decide
  · intro n p h
    unfold forkPar at h
    split at h
    · rename_i e; subst e; injection h with h; subst h; decide
    · split at h
      · rename_i e; subst e; injection h with h; subst h; decide
      · cases h
  · intro n; unfold forkDepth; split <;> omega
  · intro n p h
    unfold forkPar at h
    split at h
    · injection h with h; subst h; decide
    · split at h
      · injection h with h; subst h; decide
      · cases h
  · simp [forkTold]
  · intro m a s h _ tm hw
    rcases two tm hw with rfl | rfl <;> rcases forkTold_mem h with rfl | rfl | rfl | rfl <;> decide
  · intro tm hw
    rcases two tm hw with rfl | rfl <;> decide
  · intro _; exact ⟨17, by decide⟩
  · intro t ht
    simp only [List.mem_cons, List.not_mem_nil, or_false] at ht
    rcases ht with rfl | rfl <;> exact ⟨by decide, by decide, by decide⟩
  · intro t ht _ tm hw
    have ub : UpTo forkPar (Lasts 100 forkTold tm) ['b'] ['w'] := .snoc .refl (by decide) (lb tm hw)
    simp only [List.mem_cons, List.not_mem_nil, or_false] at ht
    rcases ht with rfl | rfl
    · exact ⟨['w'], ub, .refl⟩
    · exact ⟨['w'], ub, .snoc .refl (by decide) (la tm hw)⟩

/-- The message `/b` comes before its transforms, waits, gets half of what it needs, then the rest; it passes. -/
example : let m := tmsg ['w'] ['b'] 18 7
    let setup := waitOps1.take 2
    let ops1 := waitOps1.drop 2
    let ops := ops1 ++ .buffer (.set m ['u'] false) :: waitOps2
    let s0 := (Filt.history 100 filtPre ['w'] 5 false setup).1
    let s := (Filt.history 100 filtPre ['w'] 5 false (setup ++ ops)).1
    let evs := (Filt.run ops s0 []).2
    FEv.received 0 ['/', 'b'] 15 ∈ evs ∧ LegalName (stripSlash ['/', 'b']) ∧
    OrderlyRun (setup ++ ops) (Filt.init (RBuf.history 100 filtPre).1 (RBuf.history 100 filtPre).2 ['w'] 5 false) ∧
    s.Healthy ∧
    OnTime 100 (toldBuffer filtPre (setup ++ ops)) forkPar forkDepth ((targetsSet ['w'] setup).map stripSlash)
      (toleranceSet setup) (stripSlash ['/', 'b']) 15 ∧
    (∀ op ∈ ops, op.keepsSettings) ∧ (∀ op ∈ ops, op.readsAvailable) ∧
    (∀ p, p <+: ops → (Filt.history 100 filtPre ['w'] 5 false (setup ++ p)).1.HasRoom) ∧
    ((Filt.history 100 filtPre ['w'] 5 false (setup ++ ops1)).1.rb.buf.setTransform m ['u'] false).2 = .accepted ∧
    (∀ op ∈ waitOps2, op.keepsBuffer) ∧ s.rb.scheduled = [] ∧ 0 ∉ s.beingAdded ∧ FEv.ignored 0 ∉ evs ∧
    FEv.discarded 0 ∉ evs ∧ FEv.addThrew 0 ∉ evs ∧
    (Filt.history 100 filtPre ['w'] 5 false (setup ++ ops1)).1.queued = [0, 1] := by
  intro m setup ops1 ops s0 s evs
  have hr : s.revs.all (fun e => match e with
      | .testThrew _ => false | .registerHangs => false | _ => true) = true := by decide +kernel
  refine ⟨by decide +kernel, ⟨by decide, by decide⟩, ?_, ⟨by decide +kernel, ?_, ?_⟩, ?_, ?_, ?_, ?_,
    by decide +kernel, ?_, by decide +kernel, by decide +kernel, by decide +kernel, by decide +kernel, by decide +kernel,
    by decide +kernel⟩
  · simp only [ops, ops1, setup, m, waitOps1, waitOps2, List.take, List.drop, List.cons_append, List.nil_append, OrderlyRun,
      Filt.Orderly, true_and, and_true]
    decide +kernel
  · intro e he
    have := List.all_eq_true.1 hr _ he
    simp at this
  · intro he
    have := List.all_eq_true.1 hr _ he
    simp at this
  · exact forkTold_onTime
  · simp [ops, ops1, waitOps1, waitOps2, FOp.keepsSettings]
  · simp [ops, ops1, waitOps1, waitOps2, FOp.readsAvailable]
  · intro p hp
    have h : ∀ k < 25, (Filt.history 100 filtPre ['w'] 5 false (setup ++ ops.take k)).1.queued.length < 5 ∧
        (Filt.history 100 filtPre ['w'] 5 false (setup ++ ops.take k)).1.qsize = 5 := by decide +kernel
    have hlen : p.length ≤ ops.length := hp.length_le
    have hl2 : ops.length = 24 := by decide
    rw [List.prefix_iff_eq_take.1 hp]
    have := h p.length (by omega)
    exact .inr (by rw [this.2]; exact this.1)
  · simp [waitOps2, FOp.keepsBuffer]

end Tf2
