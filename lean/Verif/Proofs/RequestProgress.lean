import Verif.Proofs.RequestHandles

/-!
# Requests with several threads: the mutex is given back, calls return
-/
namespace Tf2.Par

variable {X : Type}

/-- How many steps a thread that is not kept waiting may still need, with `n` requests pending. -/
def togo (n : Nat) : Option (Stage X) → Nat
  | none => 0
  | some (.store _ _ _) => 4 * n + 5
  | some .owing => 4 * n + 4
  | some (.look t) => 4 * (t.size - t.i) + t.calls.length + 3
  | some (.found t _) => 4 * (t.size - t.i) + t.calls.length + 2
  | some (.young t _) => 4 * (t.size - t.i) + t.calls.length + 1
  | some (.calling cs) => cs.length + 1
  | some (.ask _ _ _ _) => 6
  | some (.asked _ _ _ _ _ _) => 5
  | some (.cannot _ _ _ _ _ _) => 4
  | some (.fresh _ _ _ _ _ _) => 3
  | some (.counted _ _ _ _ _ _ _) => 2
  | some (.numbered _ _ _ _ _ _ _) => 1
  | some .clear => 1
  | some .addCallback => 1
  | some (.remove _) => 2
  | some (.removed _) => 1
  | some (.cancel _) => 1

theorem nextCb_some {cbs : List Nat} {c : Nat} (h : cbs.length < 2 ^ 32) : RBuf.nextCb cbs (cbs.length + 1) c ≠ none := by
  intro hn
  have h1 := nextCb_none _ _ _ hn
  have := pigeon ((List.range (cbs.length + 1)).map (fun j => (c + 1 + j) % 2 ^ 32)) cbs
    (by
      rw [List.nodup_iff_pairwise_ne, List.pairwise_map]
      refine List.Pairwise.imp_of_mem ?_ List.nodup_range
      intro a b ha hb hab
      have := List.mem_range.1 ha
      have := List.mem_range.1 hb
      omega)
    (by
      intro x hx
      obtain ⟨j, hj, rfl⟩ := List.mem_map.1 hx
      exact h1 j (List.mem_range.1 hj))
  rw [List.length_map, List.length_range] at this
  omega

/-- The outcome of `answer`, when nothing is undefined. -/
theorem answer_togo {s : Sys X} {u : Nat} {t : TestState} {r : Request} {av : Bool} (n : Nat) (hlt : t.i < t.size)
    (hf : Ev.undefined u ∉ (answer s u t r av).2) :
    togo n ((answer s u t r av).1.thr u) ≤ 4 * (t.size - t.i) + t.calls.length ∧ (answer s u t r av).1.owner = s.owner ∧
      (answer s u t r av).1.cbs = s.cbs ∧ isTest ((answer s u t r av).1.thr u) := by
  unfold answer at hf ⊢
  split at hf
  · exact absurd List.mem_cons_self hf
  · rename_i back hback
    simp only [hback] at hf ⊢
    split at hf
    · rename_i hcb
      rw [if_pos hcb]
      split at hf
      · rename_i tn sn h1 h2
        simp only [h1, h2]
        refine ⟨?_, rfl, rfl, ?_⟩
        · rw [at_same]; simp only [togo, List.length_append, List.length_singleton]; omega
        · rw [at_same]; trivial
      · exact absurd List.mem_cons_self hf
    · rename_i hcb
      rw [if_neg hcb]
      refine ⟨?_, rfl, rfl, ?_⟩
      · rw [at_same]; simp only [togo]; omega
      · rw [at_same]; trivial

/-- A thread that is not kept waiting comes closer to its end. -/
theorem go_less [Rigid X] {D : Duration} {s : Sys X} {evs : List Ev} (h : Inv D s evs) {u : Nat} {p : Stage X}
    (hst : s.thr u = some p) (free : s.owner = none ∨ s.owner = some u) (few : p = .addCallback → s.cbs.length < 2 ^ 32) :
    togo (s.go u).1.reqs.length ((s.go u).1.thr u) < togo s.reqs.length (some p) ∧
      ((s.go u).1.owner = none ∨ (s.go u).1.owner = some u) ∧ (s.go u).1.thr u ≠ some .addCallback := by
  have hs := h.stages u
  have hfine : Ev.undefined u ∉ (s.go u).2 := fun hm => (h.go u).fine u (List.mem_append_right _ hm)
  rw [hst] at hs
  -- a stage that is not a test waits only if the mutex is taken
  have open_ : ¬ isTest (some p) → s.owner.isSome = false := by
    intro ht
    rcases free with hf | hf
    · rw [hf]; rfl
    · have := h.own u hf
      rw [hst] at this
      exact absurd this ht
  have tested : isTest (some p) → s.owner = some u := by
    intro ht
    cases p with
    | look t => exact hs.owner
    | found t r => exact hs.1.owner
    | young t r => exact hs.1.owner
    | _ => exact ht.elim
  cases p with
  | store m a st =>
    simp only [Sys.go, hst] at hfine ⊢
    split <;> rename_i heq <;> simp only [heq] at hfine
    · exact ⟨by rw [at_same]; simp only [togo, Sys.at]; omega, free, by rw [at_same]; exact fun h => nomatch h⟩
    · exact ⟨by rw [at_same]; simp only [togo]; omega, free, by rw [at_same]; exact fun h => nomatch h⟩
    · exact absurd List.mem_cons_self hfine
    · exact ⟨by rw [at_same]; simp only [togo]; omega, free, by rw [at_same]; exact fun h => nomatch h⟩
  | owing =>
    simp only [Sys.go, hst, open_ id, Bool.false_eq_true, if_false]
    exact ⟨by rw [at_same]; simp only [togo, List.length_nil]; omega, .inr rfl, by rw [at_same]; exact fun h => nomatch h⟩
  | look t =>
    simp only [Sys.go, hst] at hfine ⊢
    split
    · rename_i hlt
      rw [if_pos hlt] at hfine
      split
      · rename_i heq; simp only [heq] at hfine; exact absurd List.mem_cons_self hfine
      · exact ⟨by rw [at_same]; simp only [togo]; omega, free, by rw [at_same]; exact fun h => nomatch h⟩
    · exact ⟨by rw [at_same]; simp only [togo]; omega, .inl rfl, by rw [at_same]; exact fun h => nomatch h⟩
  | found t r =>
    obtain ⟨ht, hlt, hr, -⟩ := hs
    obtain ⟨l, hl⟩ := latestOrZero_cases h.wf r.tid r.sid
    simp only [Sys.go, hst, hl] at hfine ⊢
    cases hto : s.buf.tooOldFor l r.time with
    | ub => exact absurd hto (tooOldFor_ne_ub _ _ _)
    | throw e =>
      simp only [giveUp]
      exact ⟨by rw [at_same]; simp only [togo]; omega, .inl rfl, by rw [at_same]; exact fun h => nomatch h⟩
    | ok v =>
      cases v with
      | true =>
        simp only [hto] at hfine ⊢
        obtain ⟨h1, h2, _, h4⟩ := answer_togo (answer s u t r false).1.reqs.length hlt hfine
        refine ⟨Nat.lt_of_le_of_lt h1 (by simp only [togo]; omega), h2 ▸ free, ?_⟩
        intro h5; rw [h5] at h4; exact h4
      | false =>
        exact ⟨by rw [at_same]; simp only [togo]; omega, free, by rw [at_same]; exact fun h => nomatch h⟩
  | young t r =>
    obtain ⟨ht, hlt, hr, -⟩ := hs
    obtain ⟨b, hb⟩ := canNoLock_ne_ub h.wf r.tid r.sid r.time
    simp only [Sys.go, hst, hb] at hfine ⊢
    cases b with
    | true =>
      simp only at hfine ⊢
      obtain ⟨h1, h2, _, h4⟩ := answer_togo (answer s u t r true).1.reqs.length hlt hfine
      refine ⟨Nat.lt_of_le_of_lt h1 (by simp only [togo]; omega), h2 ▸ free, ?_⟩
      intro h5; rw [h5] at h4; exact h4
    | false =>
      exact ⟨by rw [at_same]; simp only [togo]; omega, free, by rw [at_same]; exact fun h => nomatch h⟩
  | calling cs =>
    cases cs with
    | nil =>
      simp only [Sys.go, hst]
      exact ⟨by rw [at_same]; simp only [togo]; omega, free, by rw [at_same]; exact fun h => nomatch h⟩
    | cons c cs =>
      simp only [Sys.go, hst]
      exact ⟨by rw [at_same]; simp only [togo, List.length_cons]; omega, free, by rw [at_same]; exact fun h => nomatch h⟩
  | ask cb tg src tm =>
    simp only [Sys.go, hst]
    split <;> exact ⟨by rw [at_same]; simp only [togo]; omega, free, by rw [at_same]; exact fun h => nomatch h⟩
  | asked cb tg src tm tid sid =>
    obtain ⟨b, hb⟩ := canNoLock_ne_ub h.wf tid sid tm
    simp only [Sys.go, hst, hb]
    cases b <;> exact ⟨by rw [at_same]; simp only [togo]; omega, free, by rw [at_same]; exact fun h => nomatch h⟩
  | cannot cb tg src tm tid sid =>
    obtain ⟨l, hl⟩ := latestOrZero_cases h.wf tid sid
    simp only [Sys.go, hst, hl]
    split
    · cases hto : s.buf.tooOldFor l tm with
      | ub => exact absurd hto (tooOldFor_ne_ub _ _ _)
      | throw e => exact ⟨by rw [at_same]; simp only [togo]; omega, free, by rw [at_same]; exact fun h => nomatch h⟩
      | ok v => cases v <;> exact ⟨by rw [at_same]; simp only [togo]; omega, free, by rw [at_same]; exact fun h => nomatch h⟩
    · exact ⟨by rw [at_same]; simp only [togo]; omega, free, by rw [at_same]; exact fun h => nomatch h⟩
  | fresh cb tg src tm tid sid =>
    simp only [Sys.go, hst]
    exact ⟨by rw [at_same]; simp only [togo]; omega, free, by rw [at_same]; exact fun h => nomatch h⟩
  | counted cb tg src tm tid sid c =>
    simp only [Sys.go, hst]
    exact ⟨by rw [at_same]; simp only [togo]; omega, free, by rw [at_same]; exact fun h => nomatch h⟩
  | numbered cb tg src tm tid sid c =>
    simp only [Sys.go, hst, open_ id, Bool.false_eq_true, if_false]
    exact ⟨by rw [at_same]; simp only [togo]; omega, free, by rw [at_same]; exact fun h => nomatch h⟩
  | clear =>
    simp only [Sys.go, hst]
    exact ⟨by rw [at_same]; simp only [togo]; omega, free, by rw [at_same]; exact fun h => nomatch h⟩
  | addCallback =>
    simp only [Sys.go, hst]
    split
    · rename_i heq; exact absurd heq (nextCb_some (few rfl))
    · exact ⟨by rw [at_same]; simp only [togo]; omega, free, by rw [at_same]; exact fun h => nomatch h⟩
  | remove cb =>
    simp only [Sys.go, hst]
    exact ⟨by rw [at_same]; simp only [togo]; omega, free, by rw [at_same]; exact fun h => nomatch h⟩
  | removed cb =>
    simp only [Sys.go, hst, open_ id, Bool.false_eq_true, if_false]
    exact ⟨by rw [at_same]; simp only [togo]; omega, free, by rw [at_same]; exact fun h => nomatch h⟩
  | cancel c =>
    simp only [Sys.go, hst, open_ id, Bool.false_eq_true, if_false]
    exact ⟨by rw [at_same]; simp only [togo]; omega, free, by rw [at_same]; exact fun h => nomatch h⟩

theorem answer_frame {s : Sys X} {u : Nat} {t : TestState} {r : Request} {av : Bool} :
    (answer s u t r av).1.cbs = s.cbs ∧ (answer s u t r av).1.owner = s.owner := by
  unfold answer
  split
  · exact ⟨rfl, rfl⟩
  · simp only
    split
    · split <;> exact ⟨rfl, rfl⟩
    · exact ⟨rfl, rfl⟩

/-- Testing changes no callback. -/
theorem go_test_cbs [Rigid X] {s : Sys X} {u : Nat} (ht : isTest (s.thr u)) : (s.go u).1.cbs = s.cbs := by
  cases hst : s.thr u with
  | none => rw [hst] at ht; exact ht.elim
  | some p =>
    rw [hst] at ht
    cases p with
    | look t =>
      simp only [Sys.go, hst]
      split
      · split <;> rfl
      · rfl
    | found t r =>
      simp only [Sys.go, hst]
      repeat' split
      all_goals first | rfl | exact answer_frame.1
    | young t r =>
      simp only [Sys.go, hst]
      repeat' split
      all_goals first | rfl | exact answer_frame.1
    | _ => exact ht.elim

/-- The mutex stays with its holder while others go on. -/
theorem go_keeps_owner [Rigid X] {D : Duration} {s : Sys X} {evs : List Ev} (h : Inv D s evs) {u v : Nat} (hne : u ≠ v)
    (ho : s.owner = some v) : (s.go u).1.owner = some v := by
  have hnt : ¬ isTest (s.thr u) := by
    intro ht
    have hs := h.stages u
    have : s.owner = some u := by
      cases hst : s.thr u with
      | none => rw [hst] at ht; exact ht.elim
      | some p =>
        rw [hst] at ht hs
        cases p with
        | look t => exact hs.owner
        | found t r => exact hs.1.owner
        | young t r => exact hs.1.owner
        | _ => exact ht.elim
    rw [ho] at this
    injection this with this
    exact hne this.symm
  cases hst : s.thr u with
  | none => simp only [Sys.go, hst]; exact ho
  | some p =>
    rw [hst] at hnt
    cases p with
    | look t => exact absurd trivial hnt
    | found t r => exact absurd trivial hnt
    | young t r => exact absurd trivial hnt
    | owing => simp only [Sys.go, hst, ho, Option.isSome, if_true]
    | calling cs => cases cs <;> (simp only [Sys.go, hst]; exact ho)
    | _ =>
      simp only [Sys.go, hst]
      repeat' split
      all_goals exact ho

theorem answer_other (s : Sys X) {u v : Nat} (hv : v ≠ u) (t : TestState) (r : Request) (av : Bool) :
    (answer s u t r av).1.thr v = s.thr v := by
  unfold answer
  split
  · rfl
  · simp only
    split
    · split
      · exact at_other _ _ hv
      · rfl
    · exact at_other _ _ hv

/-- A thread moves only itself. -/
theorem go_other [Rigid X] (s : Sys X) {u v : Nat} (hv : v ≠ u) : (s.go u).1.thr v = s.thr v := by
  unfold Sys.go
  repeat' split
  all_goals first
    | rfl
    | exact at_other _ _ hv
    | exact answer_other _ hv _ _ _

theorem run_split [Rigid X] (a b : List (Op X)) : ∀ (s : Sys X) (evs : List Ev),
    Sys.run (a ++ b) s evs = Sys.run b (Sys.run a s evs).1 (Sys.run a s evs).2 := by
  induction a with
  | nil => intro s evs; rfl
  | cons o a ih => intro s evs; exact ih _ _

theorem go_idle [Rigid X] {s : Sys X} {u : Nat} (h : s.thr u = none) : s.go u = (s, []) := by simp only [Sys.go, h]

/-- A thread that is not kept waiting returns. -/
theorem run_finish [Rigid X] {D : Duration} (u : Nat) : ∀ (n : Nat) {s : Sys X} {evs : List Ev}, Inv D s evs →
    (s.owner = none ∨ s.owner = some u) → (s.thr u = some .addCallback → s.cbs.length < 2 ^ 32) → togo s.reqs.length (s.thr u) ≤ n →
    (Sys.run (List.replicate n (.go u)) s evs).1.thr u = none ∧ (Sys.run (List.replicate n (.go u)) s evs).1.owner = none := by
  intro n
  induction n with
  | zero =>
    intro s evs h free few hn
    have hst : s.thr u = none := by
      cases hst : s.thr u with
      | none => rfl
      | some p => rw [hst] at hn; cases p <;> simp only [togo] at hn <;> omega
    refine ⟨hst, ?_⟩
    rcases free with hf | hf
    · exact hf
    · have := h.own u hf; rw [hst] at this; exact this.elim
  | succ n ih =>
    intro s evs h free few hn
    simp only [List.replicate_succ, Sys.run, Sys.step]
    cases hst : s.thr u with
    | none =>
      rw [go_idle hst, List.append_nil]
      exact ih h free few (by rw [hst]; simp only [togo]; omega)
    | some p =>
      obtain ⟨h1, h2, h3⟩ := go_less h hst free (fun hp => few (by rw [hst, hp]))
      refine ih (h.go u) h2 (fun h4 => absurd h4 h3) ?_
      rw [hst] at hn
      omega

/-- Testing, or calling the callbacks, or back. -/
def isTail : Option (Stage X) → Prop
  | none => True
  | some (.calling _) => True
  | p => isTest p

theorem go_tail [Rigid X] {s : Sys X} {u : Nat} (ht : isTail (s.thr u)) : (s.go u).1.cbs = s.cbs ∧ isTail ((s.go u).1.thr u) := by
  have answer_tail : ∀ {t r av}, isTail (s.thr u) → isTail ((answer s u t r av).1.thr u) := by
    intro t r av h
    unfold answer
    split
    · exact h
    · simp only
      split
      · split
        · rw [at_same]; trivial
        · exact h
      · rw [at_same]; trivial
  cases hst : s.thr u with
  | none => rw [go_idle hst]; exact ⟨rfl, by rw [hst]; trivial⟩
  | some p =>
    have ht' := ht
    rw [hst] at ht'
    cases p with
    | calling cs =>
      cases cs <;> (simp only [Sys.go, hst]; exact ⟨rfl, by rw [at_same]; trivial⟩)
    | look t =>
      refine ⟨go_test_cbs (by rw [hst]; trivial), ?_⟩
      simp only [Sys.go, hst]
      repeat' split
      all_goals first | exact ht | (rw [at_same]; trivial)
    | found t r =>
      refine ⟨go_test_cbs (by rw [hst]; trivial), ?_⟩
      simp only [Sys.go, hst]
      repeat' split
      all_goals first | exact answer_tail ht | exact ht | (simp only [giveUp]; rw [at_same]; trivial) | (rw [at_same]; trivial)
    | young t r =>
      refine ⟨go_test_cbs (by rw [hst]; trivial), ?_⟩
      simp only [Sys.go, hst]
      repeat' split
      all_goals first | exact answer_tail ht | exact ht | (simp only [giveUp]; rw [at_same]; trivial) | (rw [at_same]; trivial)
    | _ => exact ht'.elim

theorem run_tail [Rigid X] (u : Nat) : ∀ (n : Nat) {s : Sys X} {evs : List Ev}, isTail (s.thr u) →
    (Sys.run (List.replicate n (.go u)) s evs).1.cbs = s.cbs := by
  intro n
  induction n with
  | zero => intro s evs _; rfl
  | succ n ih =>
    intro s evs h
    simp only [List.replicate_succ, Sys.run, Sys.step]
    rw [ih (go_tail h).2, (go_tail h).1]

theorem isTest.tail {p : Option (Stage X)} (h : isTest p) : isTail p := by
  cases p with
  | none => trivial
  | some p => cases p <;> first | exact h | exact trivial

/-- The step is one of thread `u` going on. -/
def Op.goes (u : Nat) : Op X → Bool
  | .go t => t == u
  | .call _ _ => false

/-- Whatever the others do meanwhile, the holder of the mutex gives it back within so many of its own steps. -/
theorem run_release [Rigid X] {D : Duration} (v : Nat) : ∀ (more : List (Op X)) {s : Sys X} {evs : List Ev}, Inv D s evs →
    s.owner = some v → togo s.reqs.length (s.thr v) ≤ more.countP (Op.goes v) →
    ∃ p q, more = p ++ q ∧ (Sys.run p s evs).1.owner ≠ some v := by
  intro more
  induction more with
  | nil =>
    intro s evs h ho hn
    exfalso
    have ht := h.own v ho
    cases hst : s.thr v with
    | none => rw [hst] at ht; exact ht
    | some p => rw [hst] at hn; simp only [List.countP_nil] at hn; cases p <;> simp only [togo] at hn <;> omega
  | cons o more ih =>
    intro s evs h ho hn
    have hi := h.step o
    by_cases hw : (s.step o).1.owner = some v
    · have hle : togo (s.step o).1.reqs.length ((s.step o).1.thr v) ≤ more.countP (Op.goes v) := by
        have ht := h.own v ho
        have ht' := hi.own v hw
        obtain ⟨p, hst⟩ : ∃ p, s.thr v = some p := by
          cases hst : s.thr v with
          | none => rw [hst] at ht; exact ht.elim
          | some p => exact ⟨p, rfl⟩
        -- the measure of a thread that tests does not depend on the number of requests
        have same : ∀ {p : Option (Stage X)} (a b : Nat), isTest p → togo a p = togo b p := by
          intro p a b hp
          cases p with
          | none => exact hp.elim
          | some p => cases p <;> first | exact hp.elim | rfl
        cases o with
        | call t op =>
          rw [List.countP_cons_of_neg (by simp [Op.goes])] at hn
          have h1 : (s.step (.call t op)).1.thr v = s.thr v := by
            simp only [Sys.step]
            split
            · rfl
            · rename_i hnone
              by_cases htv : v = t
              · subst htv; rw [hst] at hnone; cases hnone
              · exact at_other _ _ htv
          rw [h1, same _ s.reqs.length ht]
          exact hn
        | go t =>
          by_cases htv : t = v
          · subst htv
            rw [List.countP_cons_of_pos (by simp [Op.goes])] at hn
            have h1 := (go_less h hst (.inr ho) (by rintro rfl; rw [hst] at ht; exact ht.elim)).1
            rw [hst] at hn
            simp only [Sys.step]
            omega
          · rw [List.countP_cons_of_neg (by simp [Op.goes, htv])] at hn
            have h1 : (s.step (.go t)).1.thr v = s.thr v := by
              simp only [Sys.step]
              exact go_other s (Ne.symm htv)
            rw [h1, same _ s.reqs.length ht]
            exact hn
      obtain ⟨p, q, hpq, h1⟩ := ih hi hw hle
      exact ⟨o :: p, q, by rw [hpq]; rfl, h1⟩
    · exact ⟨[o], more, rfl, hw⟩

end Tf2.Par
