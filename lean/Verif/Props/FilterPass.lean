import Verif.Proofs.FilterPass
import Verif.Props.FilterWait

/-!
# C98: a message whose transforms have arrived passes the filter
-/
namespace Tf2

variable {X : Type}

/-- C98. In an orderly run, a message that keeps its chance from its arrival on - the transforms it wants do not go
once they are there, none of its times falls out of the cache window, the queue does not overflow - is never reported
as failed, whatever `add` calls, transforms and callbacks do, in whatever order. -/
theorem C98_not_failed [Rigid X] (D : Duration) (pre : List (ROp X)) (target : Name) (qsize : Nat) (queued : Bool)
    (setup ops : List (FOp X)) (id : Nat) (frame : Name) (stamp : Time)
    (hrec : FEv.received id frame stamp ∈ (Filt.run ops (Filt.history D pre target qsize queued setup).1 []).2)
    (hl : LegalName (stripSlash frame))
    (ho : OrderlyRun (setup ++ ops) (Filt.init (RBuf.history D pre).1 (RBuf.history D pre).2 target qsize queued))
    (hh : (Filt.history D pre target qsize queued (setup ++ ops)).1.Healthy)
    (hc : ChanceRun (stripSlash frame) stamp ops (Filt.history D pre target qsize queued setup).1) :
    ∀ r, FEv.decided id (some r) ∉ (Filt.run ops (Filt.history D pre target qsize queued setup).1 []).2 := by
  obtain ⟨h1, h2, h3⟩ := history_parts D pre target qsize queued setup ops
  obtain ⟨n1, -, -⟩ := arrives_later D pre target qsize queued setup ops hrec
  obtain ⟨o1, o2⟩ := orderly_append setup ops _ [] ho
  have hhi := HInv.history D pre target qsize queued setup
  obtain ⟨n, en⟩ := revs_run ops (Filt.history D pre target qsize queued setup).1
    (Filt.history D pre target qsize queued setup).2
  have hh' := hh
  rw [h1] at hh
  obtain ⟨q1, q2, q3⟩ := hh
  have hw : WInv D (Filt.history D pre target qsize queued setup).1 := by
    refine WInv.history D pre target qsize queued setup o1 ?_ ?_ ?_
    · rw [en, addedHandles_append, List.length_append] at q1; omega
    · intro x hx; exact q2 x (by rw [en]; exact List.mem_append_left _ hx)
    · intro hx; exact q3 (by rw [en]; exact List.mem_append_left _ hx)
  have hvac : ∀ m ∈ (Filt.history D pre target qsize queued setup).1.heads, m ≠ ⟨id, stripSlash frame, stamp⟩ := by
    rintro m hm rfl
    obtain ⟨f, e, -⟩ := hhi.heads _ hm
    exact n1 _ _ e
  have hP : PInv (Filt.history D pre target qsize queued setup).1 ⟨id, stripSlash frame, stamp⟩ := by
    constructor
    · intro a ha e; exact absurd e (hvac _ (mem_heads.2 (.inl ⟨a, ha, rfl⟩)))
    · intro m hm e; exact absurd e (hvac _ (mem_heads.2 (.inr ⟨m, hm, rfl⟩)))
  have := (hP.run (evs' := []) hl ops hw (FInv.history D pre target qsize queued setup) hhi o2 hc ⟨q1, q2, q3⟩ (by
    intro f t hft
    have hi := (HInv.history D pre target qsize queued (setup ++ ops)).ids
    rw [← h1, h3] at hft
    rw [h3] at hi
    obtain ⟨e1, e2⟩ := received_unique hi hft (List.mem_append_right _ hrec)
    exact ⟨by rw [e1], e2⟩)).2
  intro r hr
  cases this r hr

/-- C98. Such a message passes: once everything it wants can be transformed, no callback of the buffer is
outstanding and its `add` has returned, the filter has decided to pass it - it is told to the user or on its way in
the callback queue. -/
theorem C98_passes [Rigid X] (D : Duration) (pre : List (ROp X)) (target : Name) (qsize : Nat) (queued : Bool)
    (setup ops1 ops2 : List (FOp X)) (m : Msg X) (a : Name) (st : Bool) (id : Nat) (frame : Name) (stamp : Time)
    (hrec : FEv.received id frame stamp ∈
      (Filt.run (ops1 ++ .buffer (.set m a st) :: ops2) (Filt.history D pre target qsize queued setup).1 []).2)
    (hl : LegalName (stripSlash frame))
    (ho : OrderlyRun (setup ++ (ops1 ++ .buffer (.set m a st) :: ops2))
      (Filt.init (RBuf.history D pre).1 (RBuf.history D pre).2 target qsize queued))
    (hh : (Filt.history D pre target qsize queued (setup ++ (ops1 ++ .buffer (.set m a st) :: ops2))).1.Healthy)
    (hc : ChanceRun (stripSlash frame) stamp (ops1 ++ .buffer (.set m a st) :: ops2)
      (Filt.history D pre target qsize queued setup).1)
    -- the last change of the buffer is accepted
    (hacc : ((Filt.history D pre target qsize queued (setup ++ ops1)).1.rb.buf.setTransform m a st).2 = .accepted)
    (hlast : ∀ op ∈ ops2, op.keepsBuffer) :
    let s := (Filt.history D pre target qsize queued (setup ++ (ops1 ++ .buffer (.set m a st) :: ops2))).1
    let evs := (Filt.run (ops1 ++ .buffer (.set m a st) :: ops2) (Filt.history D pre target qsize queued setup).1 []).2
    s.rb.scheduled = [] → id ∉ s.beingAdded →
    FEv.ignored id ∉ evs → FEv.discarded id ∉ evs → FEv.addThrew id ∉ evs →
    AllReady s.rb.buf s.targets s.tol (stripSlash frame) stamp →
    FEv.decided id none ∈ evs ∧ (FEv.signalled id none ∈ evs ∨ ⟨id, none⟩ ∈ s.cbq.getD []) := by
  intro s evs hs hadd hign hdis hthr hready
  obtain ⟨h1, h2, h3⟩ := history_parts D pre target qsize queued setup (ops1 ++ .buffer (.set m a st) :: ops2)
  obtain ⟨n1, n2, n3⟩ := arrives_later D pre target qsize queued setup _ hrec
  have hnf := C98_not_failed D pre target qsize queued setup _ id frame stamp hrec hl ho hh hc
  have hi := (HInv.history D pre target qsize queued (setup ++ (ops1 ++ .buffer (.set m a st) :: ops2))).ids
  have hacct := (FInv.history D pre target qsize queued (setup ++ (ops1 ++ .buffer (.set m a st) :: ops2))).acct id
  -- the message is not queued
  have hq : id ∉ s.queued := by
    intro hq
    have hassoc : setup ++ (ops1 ++ .buffer (.set m a st) :: ops2) = (setup ++ ops1) ++ .buffer (.set m a st) :: ops2 := by
      rw [List.append_assoc]
    have := C61_no_vain_wait D pre target qsize queued (setup ++ ops1) ops2 m a st hacc hlast (by rw [← hassoc]; exact ho)
      (by rw [← hassoc]; exact hh) (by rw [← hassoc]; exact hs) id (by rw [← hassoc]; exact hq)
    rw [← hassoc] at this
    obtain ⟨f', st', e1, e2⟩ := this
    rw [h3] at hi e1
    obtain ⟨e3, e4⟩ := received_unique hi e1 (List.mem_append_right _ hrec)
    exact e2 (by rw [e3, e4]; exact hready)
  -- it is somewhere
  have hone : (List.range s.next).count id = 1 := by
    have hin : id ∈ List.range s.next := by
      rw [← hi, h3]
      exact List.mem_map.2 ⟨_, mem_received.2 (List.mem_append_right _ hrec), rfl⟩
    have h := (List.nodup_range (n := s.next)).count (a := id)
    rw [if_pos hin] at h
    exact h
  rw [h3, disposed_append, List.count_append, List.count_eq_zero.2 n3, hone] at hacct
  have hheld : s.held id = s.waiting.count id := by
    unfold Filt.held
    rw [List.count_eq_zero.2 hadd, List.count_eq_zero.2 hq]; omega
  have hout := outs_run (fun o => o ∈ (Filt.history D pre target qsize queued setup).1.outs)
    (ops1 ++ .buffer (.set m a st) :: ops2) (evs' := []) (FInv.history D pre target qsize queued setup)
    (fun o ho => .inl ho) (by simp)
  have hold : ∀ g, (⟨id, g⟩ : Out) ∉ (Filt.history D pre target qsize queued setup).1.outs := by
    intro g hg
    unfold Filt.held at n2
    have : id ∈ (Filt.history D pre target qsize queued setup).1.waiting := List.mem_map.2 ⟨_, hg, rfl⟩
    have := List.count_pos_iff.2 this
    omega
  have hdec : ∀ g, FEv.decided id g ∈ evs → g = none := by
    intro g hg
    cases g with
    | none => rfl
    | some r => exact absurd hg (hnf r)
  have hw0 : s.held id + (disposed evs).count id = 1 := by
    have := hacct
    simp only [Nat.zero_add] at this
    exact this
  by_cases hw : id ∈ s.waiting
  · obtain ⟨o, ho', rfl⟩ := List.mem_map.1 hw
    rcases hout.1 o (by rw [← h2]; exact ho') with h | h
    · exact absurd h (hold o.fail)
    · have e := hdec _ h
      obtain ⟨oid, of⟩ := o
      simp only at e
      subst e
      exact ⟨h, .inr ho'⟩
  · rw [hheld, List.count_eq_zero.2 hw] at hw0
    have hd : id ∈ disposed evs := List.count_pos_iff.1 (by omega)
    obtain ⟨e, he, hde⟩ := List.mem_filterMap.1 hd
    cases e with
    | ignored i => simp [FEv.disposes] at hde; subst hde; exact absurd he hign
    | discarded i => simp [FEv.disposes] at hde; subst hde; exact absurd he hdis
    | addThrew i => simp [FEv.disposes] at hde; subst hde; exact absurd he hthr
    | signalled i g =>
      simp [FEv.disposes] at hde
      subst hde
      rcases hout.2 _ _ he with h | h
      · exact absurd h (hold g)
      · have e := hdec _ h
        subst e
        exact ⟨h, .inl he⟩
    | _ => simp [FEv.disposes] at hde

/-! ### A concrete case -/

/-- Computes that a time is not older than the cache window. -/
def youngB (b : Buf Int) (t f : Name) (tm : Time) : Bool :=
  match b.latestCommonTime (b.lookupFrameNumber t) (b.lookupFrameNumber f) with
  | .ok l => decide (l = 0) || match timeAdd tm b.cacheTime with
    | some e => !decide (e < l)
    | none => true
  | _ => true

theorem youngB_sound {b : Buf Int} {t f : Name} {tm : Time} (h : youngB b t f tm = true) : ¬ TooOld b t f tm := by
  intro ho
  obtain ⟨l, e, h1, h2, h3, h4⟩ := tooOld_ids ho
  unfold youngB at h
  rw [h1] at h
  simp only [h3, Bool.or_eq_true, decide_eq_true_eq, Bool.not_eq_eq_eq_not, Bool.not_true, decide_eq_false_iff_not] at h
  rcases h with h | h
  · exact h2 h
  · exact h h4

/-- Computes `ChanceRun`. -/
def chanceB (frame : Name) (stamp : Time) : List (FOp Int) → Filt Int → Bool
  | [], _ => true
  | op :: r, s =>
    (s.targets.all fun t => (stamp :: (timeAdd stamp s.tol).toList).all fun tm =>
      (!decide (s.rb.buf.canTransform t frame tm = .ok true) ||
        decide ((s.step op).1.rb.buf.canTransform t frame tm = .ok true)) && youngB (s.step op).1.rb.buf t frame tm) &&
    (decide (s.qsize = 0) || decide (s.queued.length < s.qsize)) &&
    (match op with | .invoke _ av => av | _ => true) &&
    (s.targets.all fun t => decide (t ≠ []) && decide (t.head? ≠ some '/')) && chanceB frame stamp r (s.step op).1

theorem chanceB_sound {frame : Name} {stamp : Time} : ∀ {ops : List (FOp Int)} {s : Filt Int},
    chanceB frame stamp ops s = true → ChanceRun frame stamp ops s := by
  intro ops
  induction ops with
  | nil => intro s _; exact trivial
  | cons op r ih =>
    intro s h
    simp only [chanceB, Bool.and_eq_true, List.all_eq_true, List.mem_cons, Bool.or_eq_true, Bool.not_eq_eq_eq_not,
      Bool.not_true, decide_eq_false_iff_not, decide_eq_true_eq] at h
    obtain ⟨⟨⟨⟨h1, h2⟩, h3⟩, h4⟩, h5⟩ := h
    refine ⟨?_, h2, ?_, fun t ht => ⟨(h4 t ht).1, (h4 t ht).2⟩, ih h5⟩
    · intro t ht tm hw
      have := h1 t ht tm (by
        rcases hw with rfl | ⟨-, h⟩
        · exact .inl rfl
        · right; rw [h]; simp)
      refine ⟨fun hc => ?_, fun _ => youngB_sound this.2⟩
      rcases this.1 with h | h
      · exact absurd hc h
      · exact h
    · cases op <;> first | exact trivial | exact h3

/-- Two targets and a tolerance; the message `/b` waits, gets half of what it needs, then the rest. -/
example : let m := tmsg ['w'] ['b'] 18 7
    let setup := waitOps1.take 2
    let ops1 := waitOps1.drop 2
    let ops := ops1 ++ .buffer (.set m ['u'] false) :: waitOps2
    let s0 := (Filt.history 100 filtPre ['w'] 5 false setup).1
    let s := (Filt.history 100 filtPre ['w'] 5 false (setup ++ ops)).1
    let evs := (Filt.run ops s0 []).2
    FEv.received 0 ['/', 'b'] 15 ∈ evs ∧ LegalName (stripSlash ['/', 'b']) ∧
    OrderlyRun (setup ++ ops) (Filt.init (RBuf.history 100 filtPre).1 (RBuf.history 100 filtPre).2 ['w'] 5 false) ∧
    s.Healthy ∧ ChanceRun (stripSlash ['/', 'b']) 15 ops s0 ∧
    ((Filt.history 100 filtPre ['w'] 5 false (setup ++ ops1)).1.rb.buf.setTransform m ['u'] false).2 = .accepted ∧
    (∀ op ∈ waitOps2, op.keepsBuffer) ∧ s.rb.scheduled = [] ∧ 0 ∉ s.beingAdded ∧ FEv.ignored 0 ∉ evs ∧
    FEv.discarded 0 ∉ evs ∧ FEv.addThrew 0 ∉ evs ∧ AllReady s.rb.buf s.targets s.tol (stripSlash ['/', 'b']) 15 ∧
    (Filt.history 100 filtPre ['w'] 5 false (setup ++ ops1)).1.queued = [0, 1] := by
  intro m setup ops1 ops s0 s evs
  have hr : s.revs.all (fun e => match e with
      | .testThrew _ => false | .registerHangs => false | _ => true) = true := by decide +kernel
  have ht : s.targets = [['w'], ['a']] ∧ s.tol = 2 := by decide +kernel
  refine ⟨by decide +kernel, ⟨by decide, by decide⟩, ?_, ⟨by decide +kernel, ?_, ?_⟩, chanceB_sound (by decide +kernel),
    by decide +kernel, ?_, by decide +kernel, by decide +kernel, by decide +kernel, by decide +kernel, by decide +kernel,
    ?_, by decide +kernel⟩
  · simp only [ops, ops1, setup, m, waitOps1, waitOps2, List.take, List.drop, List.cons_append, List.nil_append, OrderlyRun,
      Filt.Orderly, true_and, and_true]
    decide +kernel
  · intro e he
    have := List.all_eq_true.1 hr _ he
    simp at this
  · intro he
    have := List.all_eq_true.1 hr _ he
    simp at this
  · simp [waitOps2, FOp.keepsBuffer]
  · intro t h
    rw [ht.1] at h
    rw [ht.2]
    rcases List.mem_cons.1 h with rfl | h
    · exact ⟨by decide +kernel, fun _ => ⟨17, by decide, by decide +kernel⟩⟩
    · rw [List.mem_singleton.1 h]
      exact ⟨by decide +kernel, fun _ => ⟨17, by decide, by decide +kernel⟩⟩

end Tf2
