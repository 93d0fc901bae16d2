import Verif.Proofs.RequestAlone
import Verif.Spec.Toy

/-!
# C94: transformable requests with several threads
-/
namespace Tf2.Par

variable {X : Type}

theorem history_invs [Rigid X] (D : Duration) (sched : List (Op X)) :
    Inv D (Sys.history D sched).1 (Sys.history D sched).2 ∧ CInv (Sys.history D sched).1 (Sys.history D sched).2 :=
  ⟨Inv.run sched (Inv.init D), CInv.run sched (Inv.init D) (CInv.init D)⟩

theorem isTest_setting {s : Sys X} {u : Nat} (h : isTest (s.thr u)) : s.Setting u := by
  cases hst : s.thr u with
  | none => rw [hst] at h; exact h.elim
  | some p =>
    rw [hst] at h
    cases p with
    | look t => exact .inr (.inl ⟨t, hst⟩)
    | found t r => exact .inr (.inr (.inl ⟨t, r, hst⟩))
    | young t r => exact .inr (.inr (.inr ⟨t, r, hst⟩))
    | _ => exact h.elim

/-- **C94.** Whatever the schedule: when no thread is between storing a transform and having tested the requests, and the buffer was
not changed otherwise since the last transform was accepted, every request that is still pending either cannot be answered, or a
transform was accepted by another thread during the call that made it and none has been accepted since that call. -/
theorem C94_missed [Rigid X] (D : Duration) (sched : List (Op X)) {s : Sys X} {evs : List Ev} (hist : Sys.history D sched = (s, evs))
    (quiet : ∀ u, ¬ s.Setting u) (settled : Settled evs) : ∀ r ∈ s.reqs, ∃ t target source before during after,
      AddedBy evs t r.handle r.cb target source r.time before during after ∧
        (Unanswerable s.buf target source r.time ∨ (Stored during ∧ ¬ Stored after)) := by
  have hi := (history_invs D sched).1
  rw [hist] at hi
  have ho : s.owner = none := by
    cases ho : s.owner with
    | none => rfl
    | some u => exact absurd (isTest_setting (hi.own u ho)) (quiet u)
  intro r hr
  obtain ⟨t, tg, src, e1, e2, e3, h1, h2, _, h4⟩ := hi.free ho r hr
  refine ⟨t, tg, src, e1, e2, e3, h1, ?_⟩
  rcases h4 with h4 | h4 | ⟨u, h4⟩ | h4
  · exact .inl (h4.unanswerable h2)
  · exact .inr h4
  · exact absurd (.inl h4) (quiet u)
  · exact absurd h4 settled.not_spoiled

theorem added_follows {evs e1 e2 : List Ev} {x : Ev} (h : evs = e1 ++ x :: e2) : x ∈ evs := by rw [h]; simp

/-- **C94.** So if a transform was accepted after every request, nothing that could be answered is pending. -/
theorem C94_next_set_answers [Rigid X] (D : Duration) (sched : List (Op X)) {s : Sys X} {evs : List Ev}
    (hist : Sys.history D sched = (s, evs)) (quiet : ∀ u, ¬ s.Setting u) (settled : Settled evs)
    (later : ∀ e1 t h cb target source time e2, evs = e1 ++ Ev.added t h cb target source time :: e2 → Stored e2) :
    ∀ r ∈ s.reqs, ∃ t target source, Ev.added t r.handle r.cb target source r.time ∈ evs ∧
      Unanswerable s.buf target source r.time := by
  intro r hr
  obtain ⟨t, tg, src, e1, e2, e3, h1, h2⟩ := C94_missed D sched hist quiet settled r hr
  refine ⟨t, tg, src, by rw [h1.1]; simp, ?_⟩
  rcases h2 with h2 | ⟨_, h2⟩
  · exact h2
  · exact absurd (later _ _ _ _ _ _ _ _ h1.1) h2

/-- **C94.** ... and so if no transform was accepted while a request was being made. -/
theorem C94_undisturbed [Rigid X] (D : Duration) (sched : List (Op X)) {s : Sys X} {evs : List Ev}
    (hist : Sys.history D sched = (s, evs)) (quiet : ∀ u, ¬ s.Setting u) (settled : Settled evs)
    (alone : ∀ t h cb target source time before during after,
      AddedBy evs t h cb target source time before during after → ¬ Stored during) :
    ∀ r ∈ s.reqs, ∃ t target source, Ev.added t r.handle r.cb target source r.time ∈ evs ∧
      Unanswerable s.buf target source r.time := by
  intro r hr
  obtain ⟨t, tg, src, e1, e2, e3, h1, h2⟩ := C94_missed D sched hist quiet settled r hr
  refine ⟨t, tg, src, by rw [h1.1]; simp, ?_⟩
  rcases h2 with h2 | ⟨h2, _⟩
  · exact h2
  · exact absurd h2 (alone _ _ _ _ _ _ _ _ _ h1)

/-- **C94.** However the threads are scheduled, a callback is not called more often for a handle than the handle was given out. -/
theorem C94_at_most_once [Rigid X] (D : Duration) (sched : List (Op X)) (h : Nat) :
    calls h (Sys.history D sched).2 ≤ gives h (Sys.history D sched).2 :=
  CInv.once (history_invs D sched).1 (history_invs D sched).2 h

/-- **C94.** No request gets lost: when no thread tests, of the requests with a handle that was not cancelled and whose callbacks were
not removed, each is pending, or was answered, or was dropped because its callback was not registered. -/
theorem C94_nothing_lost [Rigid X] (D : Duration) (sched : List (Op X)) {s : Sys X} {evs : List Ev}
    (hist : Sys.history D sched = (s, evs)) (quiet : ∀ u, ¬ s.Setting u) {h : Nat} (kept : Kept h evs) :
    gives h evs = pends h s.reqs + evs.countP (fun | .extracted _ h' _ => h' = h | _ => false) + drops h evs := by
  obtain ⟨hi, hc⟩ := history_invs D sched
  rw [hist] at hi hc
  have ho : s.owner = none := by
    cases ho : s.owner with
    | none => rfl
    | some u => exact absurd (isTest_setting (hi.own u ho)) (quiet u)
  exact ((hc.free ho h).2 kept).symm

/-- **C94.** ... and its callback called: once every thread has left the library, if no test was broken off by an exception, the
requests with such a handle are pending, called back, or dropped. -/
theorem C94_accounting [Rigid X] (D : Duration) (sched : List (Op X)) {s : Sys X} {evs : List Ev}
    (hist : Sys.history D sched = (s, evs)) (left : ∀ u, s.thr u = none) (calm : ∀ u, Ev.testThrew u ∉ evs) {h : Nat} (kept : Kept h evs) :
    gives h evs = pends h s.reqs + calls h evs + drops h evs := by
  have hc := (history_invs D sched).2
  rw [hist] at hc
  rw [calls_eq_ext hc (fun u => by rw [left u]; rfl) calm]
  refine C94_nothing_lost D sched hist ?_ kept
  intro u hu
  rcases hu with hu | ⟨_, hu⟩ | ⟨_, _, hu⟩ | ⟨_, _, hu⟩ <;> rw [left u] at hu <;> cases hu

/-- **C94.** ... it is the callback of that request and gets the names of that request. -/
theorem C94_right_arguments [Rigid X] (D : Duration) (sched : List (Op X)) {e1 e2 : List Ev} {t cb h : Nat} {target source : Name}
    (hev : (Sys.history D sched).2 = e1 ++ .invoked t cb h target source :: e2) :
    ∃ t' time, Ev.added t' h cb target source time ∈ e1 :=
  (history_invs D sched).2.order _ _ _ _ _ _ _ hev

theorem gives_count (h : Nat) (evs : List Ev) : gives h evs = (handles evs).count h := by
  induction evs with
  | nil => rfl
  | cons e evs ih =>
    cases e with
    | added t k cb tg src tm =>
      by_cases hk : k = h
      · subst hk
        simp only [gives, handles, List.countP_cons, List.filterMap_cons, List.count_cons] at ih ⊢
        simp [ih]
      · simp only [gives, handles, List.countP_cons, List.filterMap_cons, List.count_cons] at ih ⊢
        simp [ih, hk]
    | _ => exact ih

/-- **C94.** If no two threads are in `addTransformableRequest` at the same time and there are fewer than 2^64-1 requests, the handles
are distinct, and for each the callback is called at most once. -/
theorem C94_handles [Rigid X] (D : Duration) (sched : List (Op X)) (one : OneAtATime (Sys.history D sched).2)
    (few : asks (Sys.history D sched).2 < 2 ^ 64 - 1) :
    (handles (Sys.history D sched).2).Nodup ∧ ∀ h, calls h (Sys.history D sched).2 ≤ 1 := by
  have hh := HInv.run sched (Inv.init D) (HInv.init D) one few
  refine ⟨hh.nodup, fun h => ?_⟩
  have h1 := C94_at_most_once D sched h
  rw [gives_count] at h1
  have h2 := List.nodup_iff_count.1 hh.nodup h
  exact Nat.le_trans h1 h2

/-- **C94.** Nothing is read out of bounds, no frame number is without a name. -/
theorem C94_no_undefined [Rigid X] (D : Duration) (sched : List (Op X)) (u : Nat) : Ev.undefined u ∉ (Sys.history D sched).2 :=
  (history_invs D sched).1.fine u

/-- **C94.** The mutex of the requests is given back: for a thread that holds it there is a number such that, whatever the other
threads do and whatever is called meanwhile, it has given it back once it has gone on that often. -/
theorem C94_gives_back [Rigid X] (D : Duration) (sched : List (Op X)) {v : Nat} (holds : (Sys.history D sched).1.owner = some v) :
    ∃ n, ∀ more : List (Op X), n ≤ more.countP (Op.goes v) →
      ∃ p q, more = p ++ q ∧ (Sys.history D (sched ++ p)).1.owner ≠ some v := by
  refine ⟨togo (Sys.history D sched).1.reqs.length ((Sys.history D sched).1.thr v), fun more hn => ?_⟩
  obtain ⟨p, q, h1, h2⟩ := run_release v more (history_invs D sched).1 holds hn
  exact ⟨p, q, h1, by rw [Sys.history, run_split]; exact h2⟩

/-- **C94.** Every call can return, whatever has happened: let one thread go on (the one that holds the mutex), then the thread of the
call. With 2^32 callbacks registered `addTransformableCallback` does not return. -/
theorem C94_returns [Rigid X] (D : Duration) (sched : List (Op X)) (u : Nat) (few : (Sys.history D sched).1.cbs.length < 2 ^ 32) :
    ∃ v n, let s := (Sys.history D (sched ++ (List.replicate n (.go v) ++ List.replicate n (.go u)))).1
      s.thr u = none ∧ s.owner = none := by
  have hi := (history_invs D sched).1
  cases ho : (Sys.history D sched).1.owner with
  | none =>
    refine ⟨u, togo (Sys.history D sched).1.reqs.length ((Sys.history D sched).1.thr u), ?_⟩
    simp only [Sys.history, run_split] at *
    obtain ⟨h1, h2⟩ := run_finish u _ hi (.inl ho) (fun _ => few) (Nat.le_refl _)
    exact run_finish u _ (hi.run _) (.inl h2) (fun h => by rw [h1] at h; cases h) (by rw [h1]; exact Nat.zero_le _)
  | some v =>
    let n0 := togo (Sys.history D sched).1.reqs.length ((Sys.history D sched).1.thr v)
    let mid := Sys.run (List.replicate n0 (.go v)) (Sys.history D sched).1 (Sys.history D sched).2
    let n := max n0 (togo mid.1.reqs.length (mid.1.thr u))
    obtain ⟨h1, h2⟩ := run_finish v n0 hi (.inr ho) (fun _ => few) (Nat.le_refl _)
    have more : ∀ k, Sys.run (List.replicate (n0 + k) (.go v)) (Sys.history D sched).1 (Sys.history D sched).2 = mid := by
      intro k
      rw [← List.replicate_append_replicate, run_split]
      have : ∀ (k : Nat) (s : Sys X) (evs : List Ev), s.thr v = none → Sys.run (List.replicate k (.go v)) s evs = (s, evs) := by
        intro k
        induction k with
        | zero => intro s evs _; rfl
        | succ k ih => intro s evs hs; simp only [List.replicate_succ, Sys.run, Sys.step, go_idle hs, List.append_nil]; exact ih s evs hs
      exact this k _ _ h1
    have hmid : Sys.run (List.replicate n (.go v)) (Sys.history D sched).1 (Sys.history D sched).2 = mid := by
      have := more (n - n0)
      rwa [Nat.add_sub_cancel' (Nat.le_max_left _ _)] at this
    refine ⟨v, n, ?_⟩
    have him := hi.run (List.replicate n (.go v))
    have hcb : mid.1.cbs = (Sys.history D sched).1.cbs := run_tail v n0 (hi.own v ho).tail
    rw [hmid] at him
    have h3 := run_finish u n him (.inl h2) (fun _ => by rw [hcb]; exact few) (Nat.le_max_right _ _)
    rw [← hmid] at h3
    show _ ∧ _
    rw [Sys.history, run_split, run_split]
    exact h3

/-- **C94.** A call that no other thread comes between does what the model without threads (`RBuf`, C28-C35) says: the same buffer,
callbacks and requests afterwards, the same told to the caller, the callbacks called that it collects, in its order. The other threads
may be in the middle of their calls. -/
theorem C94_alone [Rigid X] (D : Duration) (sched : List (Op X)) {s : Sys X} {evs : List Ev} (hist : Sys.history D sched = (s, evs))
    {u : Nat} (idle : s.thr u = none) (free : s.owner = none) (few : s.cbs.length < 2 ^ 32) (op : ROp X) (api : ∀ k, op ≠ .invoke k) :
    ∃ n new, Sys.history D (sched ++ .call u op :: List.replicate n (.go u)) = (s.after (s.seq.step op).1, evs ++ new) ∧
      new.filterMap Ev.ret = (s.seq.step op).2.filterMap retOf ∧
      new.filterMap Ev.calledBack = (s.seq.step op).1.inflight.map (fun c => (c.cb, c.handle, c.target, c.source)) := by
  have hi := (history_invs D sched).1
  rw [hist] at hi
  obtain ⟨new, ⟨n, h1⟩, h2, h3⟩ := call_alone hi idle free few op api
  refine ⟨n, new, ?_, h2, h3⟩
  rw [Sys.history, run_split]
  rw [Sys.history] at hist
  rw [hist]
  simp only [Sys.run, Sys.step, idle, List.append_nil]
  exact h1 evs

theorem answer_extracted {s : Sys X} {u : Nat} {t : TestState} {r : Request} {av av' : Bool} {v h : Nat}
    (hx : Ev.extracted v h av' ∈ (answer s u t r av).2) : h = r.handle ∧ av' = av := by
  unfold answer at hx
  split at hx
  · rw [List.mem_singleton] at hx; cases hx
  · simp only at hx
    split at hx
    · split at hx
      · rw [List.mem_singleton] at hx; injection hx with _ h2 h3; exact ⟨h2, h3⟩
      · rw [List.mem_singleton] at hx; cases hx
    · rw [List.mem_singleton] at hx; cases hx

/-- **C94.** What a request is told is so at the moment it is answered. -/
theorem C94_answer_is_right [Rigid X] (D : Duration) (sched : List (Op X)) (u : Nat) {v h : Nat} {available : Bool}
    (hx : Ev.extracted v h available ∈ ((Sys.history D sched).1.go u).2) :
    ∃ t cb target source time, Ev.added t h cb target source time ∈ (Sys.history D sched).2 ∧ target ≠ source ∧
      (available = true → LegalName target → LegalName source →
        (Sys.history D sched).1.buf.canTransform target source time = .ok true) ∧
      (available = false → TooOld (Sys.history D sched).1.buf target source time) := by
  have hi := (history_invs D sched).1
  generalize Sys.history D sched = hist at *
  obtain ⟨s, evs⟩ := hist
  simp only at *
  have hs := hi.stages u
  -- the frame numbers of a request that is not waiting for its frames
  have nums : ∀ {r : Request} {tg src : Name}, ReqFor s.buf r tg src → ¬ (r.tid = 0 ∨ r.sid = 0) →
      r.tid = s.buf.lookupFrameNumber tg ∧ r.sid = s.buf.lookupFrameNumber src := by
    intro r tg src h3 h0
    have h1 := h3.2.1 (fun h => h0 (.inl h))
    have h2 := h3.2.2.2 (fun h => h0 (.inr h))
    unfold Buf.lookupFrameNumber
    rw [h1, h2]
    exact ⟨rfl, rfl⟩
  have known : ∀ {t : TestState} {r : Request}, Testing s evs u t → t.i < t.size → t.mem[t.i]? = some r → Known s evs r := by
    intro t r ht hlt hr
    refine ht.all r ?_
    rw [List.mem_iff_getElem?]
    exact ⟨t.i, by rw [List.getElem?_take, if_pos hlt]; exact hr⟩
  cases hst : s.thr u with
  | none => simp only [Sys.go, hst] at hx; cases hx
  | some p =>
    rw [hst] at hs
    cases p with
    | found t r =>
      obtain ⟨ht, hlt, hr, -⟩ := hs
      obtain ⟨l, hl⟩ := latestOrZero_cases hi.wf r.tid r.sid
      simp only [Sys.go, hst, hl] at hx
      obtain ⟨t', tg, src, e1, e2, e3, ha, hne, h3, _⟩ := known ht hlt hr
      cases hto : s.buf.tooOldFor l r.time with
      | ub => exact absurd hto (tooOldFor_ne_ub _ _ _)
      | throw e => rw [hto] at hx; simp only [giveUp, List.mem_singleton] at hx; cases hx
      | ok v =>
        rw [hto] at hx
        cases v with
        | false => cases hx
        | true =>
          obtain ⟨rfl, rfl⟩ := answer_extracted hx
          refine ⟨t', r.cb, tg, src, r.time, by rw [ha.1]; simp, hne, (fun h => nomatch h), fun _ => ?_⟩
          have h0 : ¬ (r.tid = 0 ∨ r.sid = 0) := by
            intro h0
            rw [latestOrZero_zero h0] at hl
            injection hl with hl
            subst hl
            rw [tooOldFor_zero] at hto
            cases hto
          obtain ⟨n1, n2⟩ := nums h3 h0
          have f1 := h3.2.1 (fun h => h0 (.inl h))
          have f2 := h3.2.2.2 (fun h => h0 (.inr h))
          unfold Buf.tooOldFor at hto
          by_cases hl0 : l = 0
          · rw [if_pos hl0] at hto; cases hto
          · rw [if_neg hl0] at hto
            cases hadd : timeAdd r.time s.buf.cacheTime with
            | none => rw [hadd] at hto; cases hto
            | some e =>
              rw [hadd] at hto
              injection hto with hto
              refine ⟨r.tid, r.sid, l, e, ⟨fun h => h0 (.inl h), f1⟩, ⟨fun h => h0 (.inr h), f2⟩, ?_, hl0, hadd, of_decide_eq_true hto⟩
              unfold Buf.latestOrZero at hl
              cases hlc : s.buf.latestCommonTime r.tid r.sid with
              | ub => rw [hlc] at hl; cases hl
              | err e => rw [hlc] at hl; injection hl with hl; exact absurd hl.symm hl0
              | ok l' => rw [hlc] at hl; injection hl with hl; rw [hl]
    | young t r =>
      obtain ⟨ht, hlt, hr, -⟩ := hs
      obtain ⟨b, hb⟩ := canNoLock_ne_ub hi.wf r.tid r.sid r.time
      simp only [Sys.go, hst, hb] at hx
      obtain ⟨t', tg, src, e1, e2, e3, ha, hne, h3, _⟩ := known ht hlt hr
      cases b with
      | false => cases hx
      | true =>
        obtain ⟨rfl, rfl⟩ := answer_extracted hx
        refine ⟨t', r.cb, tg, src, r.time, by rw [ha.1]; simp, hne, fun _ lt ls => ?_, (fun h => nomatch h)⟩
        have h0 : ¬ (r.tid = 0 ∨ r.sid = 0) := by
          intro h0
          rw [canNoLock_zero h0] at hb
          cases hb
        obtain ⟨n1, n2⟩ := nums h3 h0
        rw [canTransform_noLock hne lt ls, ← n1, ← n2]
        exact hb
    | store m a st =>
      simp only [Sys.go, hst] at hx
      split at hx <;> simp only [List.mem_singleton] at hx <;> cases hx
    | owing =>
      simp only [Sys.go, hst] at hx
      split at hx <;> cases hx
    | look t =>
      simp only [Sys.go, hst] at hx
      split at hx
      · split at hx
        · simp only [List.mem_singleton] at hx; cases hx
        · cases hx
      · simp only [List.mem_singleton] at hx; cases hx
    | calling cs =>
      cases cs with
      | nil => simp only [Sys.go, hst] at hx; cases hx
      | cons c cs => simp only [Sys.go, hst, List.mem_singleton] at hx; split at hx <;> cases hx
    | ask cb tg src tm =>
      simp only [Sys.go, hst] at hx
      split at hx <;> simp only [List.mem_singleton] at hx <;> cases hx
    | asked cb tg src tm tid sid =>
      obtain ⟨b, hb⟩ := canNoLock_ne_ub hi.wf tid sid tm
      simp only [Sys.go, hst, hb] at hx
      cases b with
      | true => simp only [List.mem_singleton] at hx; cases hx
      | false => cases hx
    | cannot cb tg src tm tid sid =>
      obtain ⟨l, hl⟩ := latestOrZero_cases hi.wf tid sid
      simp only [Sys.go, hst, hl] at hx
      split at hx
      · cases hto : s.buf.tooOldFor l tm with
        | ub => exact absurd hto (tooOldFor_ne_ub _ _ _)
        | throw e => rw [hto] at hx; simp only [List.mem_singleton] at hx; cases hx
        | ok v =>
          rw [hto] at hx
          cases v with
          | true => simp only [List.mem_singleton] at hx; cases hx
          | false => cases hx
      · cases hx
    | fresh => simp only [Sys.go, hst] at hx; cases hx
    | counted => simp only [Sys.go, hst] at hx; cases hx
    | numbered =>
      simp only [Sys.go, hst] at hx
      split at hx
      · cases hx
      · simp only [List.mem_singleton] at hx; cases hx
    | clear => simp only [Sys.go, hst, List.mem_singleton] at hx; cases hx
    | addCallback =>
      simp only [Sys.go, hst] at hx
      split at hx <;> simp only [List.mem_singleton] at hx <;> cases hx
    | remove => simp only [Sys.go, hst] at hx; cases hx
    | removed =>
      simp only [Sys.go, hst] at hx
      split at hx
      · cases hx
      · simp only [List.mem_singleton] at hx; cases hx
    | cancel =>
      simp only [Sys.go, hst] at hx
      split at hx
      · cases hx
      · simp only [List.mem_singleton] at hx; cases hx

/-! ### Findings, and that the hypotheses can be met -/

/-- The thread a step is of. -/
def Op.thread : Op X → Nat
  | .call t _ => t
  | .go t => t

theorem run_other [Rigid X] {u : Nat} : ∀ (sched : List (Op X)) (s : Sys X) (evs : List Ev), (∀ o ∈ sched, o.thread ≠ u) →
    (Sys.run sched s evs).1.thr u = s.thr u
  | [], _, _, _ => rfl
  | o :: sched, s, evs, h => by
    have h1 := run_other sched (s.step o).1 (evs ++ (s.step o).2) (fun o ho => h o (List.mem_cons_of_mem _ ho))
    have h2 : (s.step o).1.thr u = s.thr u := by
      have ho := h o List.mem_cons_self
      cases o with
      | call t op =>
        simp only [Sys.step]
        split
        · rfl
        · exact at_other _ _ (Ne.symm ho)
      | go t => exact go_other s (Ne.symm ho)
    exact h1.trans h2

theorem idle_all [Rigid X] (D : Duration) (sched : List (Op X)) (us : List Nat) (h1 : ∀ o ∈ sched, o.thread ∈ us)
    (h2 : ∀ u ∈ us, ((Sys.history D sched).1.thr u).isNone = true) (u : Nat) : (Sys.history D sched).1.thr u = none := by
  by_cases hu : u ∈ us
  · exact Option.isNone_iff_eq_none.1 (h2 u hu)
  · exact run_other sched _ _ (fun o ho he => hu (he ▸ h1 o ho))

theorem settled_of {evs : List Ev} (h : evs.all (fun e => !e.spoils) = true) : Settled evs := by
  intro e1 x e2 he hx
  have := List.all_eq_true.1 h x (by rw [he]; simp)
  rw [hx] at this
  cases this

/-- Thread 1 registers a callback and begins a request; thread 2 stores the transform asked for, and tests, before the request is
pending. -/
def lostSchedule : List (Op Int) :=
  [.call 1 .addCallback, .go 1, .call 1 (.addRequest 1 ['w'] ['a'] 10), .go 1, .go 1, .go 1, .go 1, .go 1,
   .call 2 (.set (tmsg ['w'] ['a'] 10 1) ['u'] false), .go 2, .go 2, .go 2, .go 2, .go 1]

/-- **C94, finding.** A request can be lost: the transform is there, every thread has left the library, and the request is pending
until somebody sets another transform. -/
theorem C94_lost_wakeup_finding : ∃ (sched : List (Op Int)) (s : Sys Int) (evs : List Ev) (r : Request),
    Sys.history 100 sched = (s, evs) ∧ (∀ u, s.thr u = none) ∧ Settled evs ∧ s.reqs = [r] ∧
      Ev.added 1 r.handle 1 ['w'] ['a'] 10 ∈ evs ∧ s.buf.canTransform ['w'] ['a'] 10 = .ok true := by
  refine ⟨lostSchedule, _, _, { time := 10, handle := 1, cb := 1, tid := 0, sid := 0, tstr := ['w'], sstr := ['a'] }, rfl,
    idle_all 100 lostSchedule [1, 2] (by decide) (by decide), settled_of (by decide), ?_, ?_, ?_⟩
  · decide
  · decide
  · decide

/-- What happens in it. -/
example : (Sys.history 100 lostSchedule).2 =
    [.registered 1 1, .asked 1, .stored 2, .tested 2, .added 1 1 1 ['w'] ['a'] 10] := by decide

/-- `lostSchedule`, and then thread 2 sets the transform again; the request is answered. -/
def foundSchedule : List (Op Int) :=
  lostSchedule ++ [.call 2 (.set (tmsg ['w'] ['a'] 11 1) ['u'] false), .go 2, .go 2, .go 2, .go 2, .go 2, .go 2, .go 2, .go 2]

example : (Sys.history 100 foundSchedule).2 =
    [.registered 1 1, .asked 1, .stored 2, .tested 2, .added 1 1 1 ['w'] ['a'] 10, .stored 2, .extracted 2 1 true, .tested 2,
     .invoked 2 1 1 ['w'] ['a']] := by decide

/-- Two threads ask for what is not there; a third stores something else, the two take turns. The hypotheses of
`C94_next_set_answers` and `C94_undisturbed` are met and two requests are pending, and neither can be answered. -/
def waitSchedule : List (Op Int) :=
  [.call 1 .addCallback, .go 1, .call 1 (.addRequest 1 ['w'] ['a'] 10), .go 1, .call 2 (.addRequest 1 ['w'] ['b'] 10), .go 1, .go 2,
   .go 1, .go 2, .go 1, .go 1, .go 2, .go 1, .go 2, .go 2, .go 2,
   .call 3 (.set (tmsg ['w'] ['c'] 10 1) ['u'] false), .go 3, .go 3, .go 3, .go 3, .go 3, .go 3, .go 3, .go 3, .go 3, .go 3]

example : (∀ u, ¬ (Sys.history 100 waitSchedule).1.Setting u) ∧ Settled (Sys.history 100 waitSchedule).2 ∧
    (Sys.history 100 waitSchedule).2 = [.registered 1 1, .asked 1, .asked 2, .added 1 1 1 ['w'] ['a'] 10,
      .added 2 2 1 ['w'] ['b'] 10, .stored 3, .tested 3] ∧
    (Sys.history 100 waitSchedule).1.reqs.map (fun r => r.handle) = [1, 2] := by
  refine ⟨?_, settled_of (by decide), by decide, by decide⟩
  intro u h
  have := idle_all 100 waitSchedule [1, 2, 3] (by decide) (by decide) u
  rcases h with h | ⟨_, h⟩ | ⟨_, _, h⟩ | ⟨_, _, h⟩ <;> rw [this] at h <;> cases h

/-- Thread 2 tests, thread 1 is in `addTransformableRequest`: the hypotheses of `C94_gives_back` and `C94_returns` are met. -/
example : (Sys.history 100 (lostSchedule.take 11)).1.owner = some 2 ∧
    ((Sys.history 100 (lostSchedule.take 11)).1.thr 1).isSome = true ∧
    (Sys.history 100 (lostSchedule.take 11)).1.cbs.length < 2 ^ 32 := by decide

/-- Thread 1 is in `addTransformableRequest`, 2 and 3 have left: the hypotheses of `C94_alone` are met, by a call that answers a
request. -/
example : let s := (Sys.history 100 (waitSchedule ++ [.call 1 (.addRequest 1 ['w'] ['d'] 10), .go 1, .go 1])).1
    s.thr 2 = none ∧ s.owner = none ∧ s.cbs.length < 2 ^ 32 ∧ (s.thr 1).isSome = true ∧
    (s.seq.step (.set (tmsg ['w'] ['a'] 10 1) ['u'] false)).1.inflight.map (fun c => (c.cb, c.handle)) = [(1, 1)] := by
  refine ⟨Option.isNone_iff_eq_none.1 ?_, ?_, ?_, ?_, ?_⟩ <;> decide

/-- A way to check `OneAtATime`: who is asking. -/
def inTurn : Option Nat → List Ev → Bool
  | _, [] => true
  | c, .asked t :: r => c.isNone && inTurn (some t) r
  | none, _ :: r => inTurn none r
  | some u, e :: r => if e.endsAsk u then inTurn none r else inTurn (some u) r

theorem inTurn_tail (c : Option Nat) (e : Ev) (r : List Ev) (h : inTurn c (e :: r) = true) : ∃ c', inTurn c' r = true := by
  cases e with
  | asked t => simp only [inTurn, Bool.and_eq_true] at h; exact ⟨_, h.2⟩
  | _ =>
    cases c with
    | none => exact ⟨none, h⟩
    | some u =>
      simp only [inTurn] at h
      split at h
      · exact ⟨none, h⟩
      · exact ⟨some u, h⟩

theorem inTurn_drop : ∀ (a b : List Ev) (c : Option Nat), inTurn c (a ++ b) = true → ∃ c', inTurn c' b = true
  | [], _, c, h => ⟨c, h⟩
  | e :: a, b, c, h => by
    obtain ⟨c', h'⟩ := inTurn_tail c e (a ++ b) h
    exact inTurn_drop a b c' h'

theorem inTurn_ends (t t' : Nat) (e3 : List Ev) : ∀ e2 : List Ev, inTurn (some t) (e2 ++ .asked t' :: e3) = true →
    ∃ x ∈ e2, x.endsAsk t = true
  | [], h => by simp [inTurn] at h
  | e :: e2, h => by
    by_cases he : e.endsAsk t = true
    · exact ⟨e, List.mem_cons_self, he⟩
    · have h' : inTurn (some t) (e2 ++ .asked t' :: e3) = true := by
        cases e <;> simp only [inTurn, List.cons_append, Option.isNone, Bool.false_and, Bool.false_eq_true, if_neg he] at h <;> exact h
      obtain ⟨x, hx, hx'⟩ := inTurn_ends t t' e3 e2 h'
      exact ⟨x, List.mem_cons_of_mem _ hx, hx'⟩

theorem oneAtATime_of {evs : List Ev} (h : inTurn none evs = true) : OneAtATime evs := by
  intro e1 t e2 t' e3 he
  rw [he, List.append_assoc] at h
  obtain ⟨c, h1⟩ := inTurn_drop _ _ _ h
  simp only [List.cons_append, inTurn, Bool.and_eq_true] at h1
  exact inTurn_ends t t' e3 e2 h1.2

/-- Threads 1 and 2 make requests in turn, thread 2 sets transforms meanwhile. -/
def turnsSchedule : List (Op Int) :=
  foundSchedule ++ [.call 2 (.addRequest 1 ['w'] ['b'] 10), .go 2, .go 2, .go 2, .go 2, .go 2, .go 2,
    .call 1 (.set (tmsg ['w'] ['b'] 10 1) ['u'] false), .go 1, .call 2 (.addRequest 1 ['w'] ['c'] 10), .go 2, .go 1, .go 2, .go 1, .go 2,
    .go 1, .go 2, .go 1, .go 2, .go 1, .go 2, .go 1, .go 1, .go 1]

/-- The hypotheses of `C94_handles` are met by it. -/
example : let evs := (Sys.history 100 turnsSchedule).2
    OneAtATime evs ∧ asks evs < 2 ^ 64 - 1 ∧ handles evs = [1, 2, 3] ∧ calls 1 evs = 1 ∧ calls 2 evs = 1 ∧ calls 3 evs = 0 :=
  ⟨oneAtATime_of (by decide), by decide, by decide, by decide, by decide, by decide⟩

theorem kept_of {h : Nat} {evs : List Ev}
    (hk : evs.all (fun | .cancelled _ _ => false | .removedCb _ _ => false | _ => true) = true) : Kept h evs := by
  have := List.all_eq_true.1 hk
  exact ⟨fun t k hm => absurd (this _ hm) (fun h => nomatch h), fun t cb hm => absurd (this _ hm) (fun h => nomatch h)⟩

/-- Those of `C94_accounting` too. -/
example : let r := Sys.history 100 turnsSchedule
    (∀ u, r.1.thr u = none) ∧ (∀ u, Ev.testThrew u ∉ r.2) ∧ (∀ h, Kept h r.2) ∧
      gives 2 r.2 = 1 ∧ pends 2 r.1.reqs = 0 ∧ calls 2 r.2 = 1 ∧ pends 3 r.1.reqs = 1 := by
  refine ⟨idle_all 100 turnsSchedule [1, 2] (by decide) (by decide), ?_, fun h => kept_of (by decide), by decide, by decide, by decide,
    by decide⟩
  intro u hu
  have : (Sys.history 100 turnsSchedule).2.all (fun | .testThrew _ => false | _ => true) = true := by decide
  exact absurd (List.all_eq_true.1 this _ hu) (fun h => nomatch h)

/-- Two threads take turns between reading and writing the counter: not one at a time. -/
example : ¬ OneAtATime [.asked 1, .asked 2] := by
  intro h
  obtain ⟨x, hx, _⟩ := h [] 1 [] 2 [] rfl
  cases hx

/-- Two threads read the counter before either writes it. -/
def twinSchedule : List (Op Int) :=
  [.call 1 .addCallback, .go 1, .call 1 (.addRequest 1 ['w'] ['a'] 10), .go 1, .go 1, .go 1, .go 1,
   .call 2 (.addRequest 1 ['w'] ['b'] 10), .go 2, .go 2, .go 2, .go 2, .go 1, .go 2, .go 1, .go 2]

/-- **C94, finding.** Two requests made at the same time can get the same handle; cancelling one then cancels the other. -/
theorem C94_same_handle_finding : ∃ sched : List (Op Int),
    Ev.added 1 1 1 ['w'] ['a'] 10 ∈ (Sys.history 100 sched).2 ∧ Ev.added 2 1 1 ['w'] ['b'] 10 ∈ (Sys.history 100 sched).2 ∧
    (∀ u, (Sys.history 100 sched).1.thr u = none) ∧ (Sys.history 100 sched).1.reqs.length = 2 ∧
    (Sys.history 100 (sched ++ [.call 1 (.cancelRequest 1), .go 1])).1.reqs = [] :=
  ⟨twinSchedule, by decide, by decide, idle_all 100 twinSchedule [1, 2] (by decide) (by decide), by decide, by decide⟩

end Tf2.Par
