import Verif.Proofs.RequestCounts

/-!
# Requests with several threads: handles
-/
namespace Tf2.Par

variable {X : Type}

def isAsking : Option (Stage X) → Prop
  | some (.asked _ _ _ _ _ _) => True
  | some (.cannot _ _ _ _ _ _) => True
  | some (.fresh _ _ _ _ _ _) => True
  | some (.counted _ _ _ _ _ _ _) => True
  | some (.numbered _ _ _ _ _ _ _) => True
  | _ => False

/-- What the thread knows of the counter. -/
def HStage (s : Sys X) (evs : List Ev) : Option (Stage X) → Prop
  | some (.asked _ _ _ _ _ _) => s.reqCounter + 1 ≤ asks evs
  | some (.cannot _ _ _ _ _ _) => s.reqCounter + 1 ≤ asks evs
  | some (.fresh _ _ _ _ _ _) => s.reqCounter + 1 ≤ asks evs
  | some (.counted _ _ _ _ _ _ c) => c = s.reqCounter ∧ s.reqCounter + 1 ≤ asks evs
  | some (.numbered _ _ _ _ _ _ h) => h = s.reqCounter ∧ ∀ k ∈ handles evs, k < h
  | _ => True

structure HInv (s : Sys X) (evs : List Ev) : Prop where
  asking : ∀ u, isAsking (s.thr u) → ∃ e1 e2, evs = e1 ++ .asked u :: e2 ∧ ∀ x ∈ e2, x.endsAsk u = false
  stage : ∀ u, HStage s evs (s.thr u)
  le : ∀ k ∈ handles evs, k ≤ s.reqCounter
  nodup : (handles evs).Nodup
  cnt : s.reqCounter ≤ asks evs

theorem handles_append (a b : List Ev) : handles (a ++ b) = handles a ++ handles b := List.filterMap_append
theorem asks_append (a b : List Ev) : asks (a ++ b) = asks a + asks b := List.countP_append

theorem HInv.init (D : Duration) : HInv (Sys.init D : Sys X) [] where
  asking := fun _ h => h.elim
  stage := fun _ => trivial
  le := fun _ h => nomatch h
  nodup := List.nodup_nil
  cnt := Nat.le_refl _

/-- Only one thread asks. -/
theorem HInv.unique {s : Sys X} {evs : List Ev} (h : HInv s evs) (ho : OneAtATime evs) {u v : Nat} (hu : isAsking (s.thr u))
    (hv : isAsking (s.thr v)) : u = v := by
  apply Classical.byContradiction
  intro hne
  obtain ⟨a1, a2, ha, ha'⟩ := h.asking u hu
  obtain ⟨b1, b2, hb, hb'⟩ := h.asking v hv
  have key : ∀ {u v : Nat} {a1 a2 b1 b2 : List Ev}, u ≠ v → evs = a1 ++ .asked u :: a2 → evs = b1 ++ .asked v :: b2 →
      (∀ x ∈ a2, x.endsAsk u = false) → (∃ d, b1 = a1 ++ .asked u :: d) → False := by
    intro u v a1 a2 b1 b2 hne ha hb ha' ⟨d, hd⟩
    subst hd
    obtain ⟨x, hx, hx'⟩ := ho a1 u d v b2 hb
    rw [ha] at hb
    simp only [List.append_assoc, List.append_cancel_left_eq, List.cons_append, List.cons.injEq, true_and] at hb
    rw [hb] at ha'
    rw [ha' x (List.mem_append_left _ hx)] at hx'
    cases hx'
  rw [ha] at hb
  rcases List.append_eq_append_iff.1 hb with ⟨d, h1, h2⟩ | ⟨d, h1, h2⟩
  · cases d with
    | nil => injection h2 with h2; injection h2 with h2; exact hne h2
    | cons y d =>
      injection h2 with h2 h3
      subst h2
      exact key hne ha (ha.trans hb) ha' ⟨d, h1⟩
  · cases d with
    | nil => injection h2 with h2; injection h2 with h2; exact hne h2.symm
    | cons y d =>
      injection h2 with h2 h3
      subst h2
      exact key (Ne.symm hne) (ha.trans hb) ha hb' ⟨d, h1⟩

/-- A step that leaves the counter and makes no request pending. -/
theorem HInv.pass {s s' : Sys X} {evs new : List Ev} (h : HInv s evs) (u : Nat) {p : Option (Stage X)}
    (hthr : s'.thr = put s.thr u p) (hc : s'.reqCounter = s.reqCounter) (hn : handles new = [])
    (he : ∀ x ∈ new, ∀ v, v ≠ u → x.endsAsk v = false)
    (hp : isAsking p → (isAsking (s.thr u) ∧ new = []) ∨ new = [.asked u])
    (hst : HStage s' (evs ++ new) p) : HInv s' (evs ++ new) where
  asking := by
    intro v hv
    by_cases hvu : v = u
    · subst hvu
      rw [hthr] at hv
      simp only [put, if_true] at hv
      rcases hp hv with ⟨h1, h2⟩ | h2
      · rw [h2, List.append_nil]; exact h.asking v h1
      · rw [h2]; exact ⟨evs, [], rfl, fun _ h => nomatch h⟩
    · rw [hthr] at hv
      simp only [put, hvu, if_false] at hv
      obtain ⟨e1, e2, h1, h2⟩ := h.asking v hv
      refine ⟨e1, e2 ++ new, by rw [h1]; simp, ?_⟩
      intro x hx
      rcases List.mem_append.1 hx with hx | hx
      · exact h2 x hx
      · exact he x hx v hvu
  stage := by
    intro v
    by_cases hvu : v = u
    · subst hvu
      rw [hthr]
      simp only [put, if_true]
      exact hst
    · rw [hthr]
      simp only [put, hvu, if_false]
      have := h.stage v
      cases hv : s.thr v with
      | none => trivial
      | some q =>
        rw [hv] at this
        cases q <;> simp only [HStage, hc, asks_append, handles_append, hn, List.append_nil] at this ⊢ <;>
          first | exact this | omega
  le := by rw [handles_append, hn, List.append_nil, hc]; exact h.le
  nodup := by rw [handles_append, hn, List.append_nil]; exact h.nodup
  cnt := by have := h.cnt; rw [asks_append, hc]; omega

/-- The largest counter for which the handles do not begin anew. -/
def few (evs : List Ev) : Prop := asks evs < 2 ^ 64 - 1

theorem nextHandle_few {c : Nat} (h : c + 1 < 2 ^ 64 - 1) : RBuf.nextHandle c = (c + 1, c + 1) := by
  unfold RBuf.nextHandle
  have : (c + 1) % 2 ^ 64 = c + 1 := Nat.mod_eq_of_lt (by omega)
  simp only [this]
  rw [if_neg (by omega)]

theorem ends_one {e : Ev} {u : Nat} (h : ∀ v, v ≠ u → e.endsAsk v = false) : ∀ x ∈ [e], ∀ v, v ≠ u → x.endsAsk v = false := by
  intro x hx; rw [List.mem_singleton] at hx; rw [hx]; exact h

theorem ends_mine {u v : Nat} (h : v ≠ u) : (u == v) = false := by simp [Ne.symm h]

theorem HInv.answer {s : Sys X} {evs : List Ev} (h : HInv s evs) (u : Nat) (t : TestState) (r : Request) (av : Bool)
    (hu : ¬ isAsking (s.thr u)) : HInv (answer s u t r av).1 (evs ++ (answer s u t r av).2) := by
  have self : s.thr = put s.thr u (s.thr u) := by funext v; simp only [put]; split <;> simp_all
  unfold Par.answer
  split
  · exact h.pass u self rfl rfl (ends_one fun _ _ => rfl) (fun h => absurd h hu) (by
      have := h.stage u
      cases hs : s.thr u with
      | none => trivial
      | some p => cases p <;> first | trivial | (rw [hs] at hu; exact absurd trivial hu))
  · simp only
    split
    · split
      · exact h.pass u rfl rfl rfl (ends_one fun _ _ => rfl) (fun h => h.elim) trivial
      · exact h.pass u self rfl rfl (ends_one fun _ _ => rfl) (fun h => absurd h hu) (by
          cases hs : s.thr u with
          | none => trivial
          | some p => cases p <;> first | trivial | (rw [hs] at hu; exact absurd trivial hu))
    · exact h.pass u rfl rfl rfl (ends_one fun _ _ => rfl) (fun h => h.elim) trivial

theorem HInv.go [Rigid X] {D : Duration} {s : Sys X} {evs : List Ev} (hi : Inv D s evs) (h : HInv s evs) (hone : OneAtATime evs) (u : Nat)
    (hf : few (evs ++ (s.go u).2)) : HInv (s.go u).1 (evs ++ (s.go u).2) := by
  have stay : HInv s (evs ++ []) := by rw [List.append_nil]; exact h
  have hs := h.stage u
  cases hst : s.thr u with
  | none => simp only [Sys.go, hst]; exact stay
  | some p =>
    rw [hst] at hs
    cases p with
    | store m a st =>
      simp only [Sys.go, hst]
      have hnub := set_ne_ub hi.wf m a st
      generalize s.buf.setTransform m a st = x at *
      obtain ⟨b, x⟩ := x
      cases x <;> first
        | exact absurd rfl hnub
        | exact h.pass u rfl rfl rfl (ends_one fun _ _ => rfl) (fun h => h.elim) trivial
    | owing =>
      simp only [Sys.go, hst]
      split
      · exact stay
      · exact h.pass u rfl rfl rfl (fun _ h => nomatch h) (fun h => h.elim) trivial
    | look t =>
      simp only [Sys.go, hst]
      split
      · split
        · next hn =>
          have ht : Testing s evs u t := by have := hi.stages u; rw [hst] at this; exact this
          rw [List.getElem?_eq_getElem (Nat.lt_of_lt_of_le (by assumption) ht.len)] at hn
          cases hn
        · exact h.pass u rfl rfl rfl (fun _ h => nomatch h) (fun h => h.elim) trivial
      · exact h.pass u rfl rfl rfl (ends_one fun _ _ => rfl) (fun h => h.elim) trivial
    | found t r =>
      obtain ⟨l, hl⟩ := latestOrZero_cases hi.wf r.tid r.sid
      simp only [Sys.go, hst, hl]
      cases hto : s.buf.tooOldFor l r.time with
      | ub => exact absurd hto (tooOldFor_ne_ub _ _ _)
      | throw e => exact h.pass u rfl rfl rfl (ends_one fun _ _ => rfl) (fun h => h.elim) trivial
      | ok v =>
        cases v with
        | true => exact h.answer u t r false (by rw [hst]; exact fun h => h)
        | false => exact h.pass u rfl rfl rfl (fun _ h => nomatch h) (fun h => h.elim) trivial
    | young t r =>
      obtain ⟨v, hv⟩ := canNoLock_ne_ub hi.wf r.tid r.sid r.time
      simp only [Sys.go, hst, hv]
      cases v with
      | true => exact h.answer u t r true (by rw [hst]; exact fun h => h)
      | false => exact h.pass u rfl rfl rfl (fun _ h => nomatch h) (fun h => h.elim) trivial
    | calling cs =>
      cases cs with
      | nil =>
        simp only [Sys.go, hst]
        exact h.pass u rfl rfl rfl (fun _ h => nomatch h) (fun h => h.elim) trivial
      | cons c cs =>
        simp only [Sys.go, hst]
        split
        · exact h.pass u rfl rfl rfl (ends_one fun _ _ => rfl) (fun h => h.elim) trivial
        · exact h.pass u rfl rfl rfl (ends_one fun _ _ => rfl) (fun h => h.elim) trivial
    | ask cb tg src tm =>
      simp only [Sys.go, hst]
      split
      · exact h.pass u rfl rfl rfl (ends_one fun v hv => ends_mine hv) (fun h => h.elim) trivial
      · refine h.pass u rfl rfl rfl (ends_one fun _ _ => rfl) (fun _ => .inr rfl) ?_
        have := h.cnt
        show s.reqCounter + 1 ≤ asks (evs ++ [_])
        rw [asks_append]
        show s.reqCounter + 1 ≤ asks evs + 1
        omega
    | asked cb tg src tm tid sid =>
      obtain ⟨v, hv⟩ := canNoLock_ne_ub hi.wf tid sid tm
      simp only [Sys.go, hst, hv]
      cases v with
      | true => exact h.pass u rfl rfl rfl (ends_one fun v hv => ends_mine hv) (fun h => h.elim) trivial
      | false =>
        refine h.pass u rfl rfl rfl (fun _ h => nomatch h) (fun _ => .inl ⟨by rw [hst]; trivial, rfl⟩) ?_
        rw [List.append_nil]; exact hs
    | cannot cb tg src tm tid sid =>
      obtain ⟨l, hl⟩ := latestOrZero_cases hi.wf tid sid
      simp only [Sys.go, hst, hl]
      split
      · cases hto : s.buf.tooOldFor l tm with
        | ub => exact absurd hto (tooOldFor_ne_ub _ _ _)
        | throw e => exact h.pass u rfl rfl rfl (ends_one fun v hv => ends_mine hv) (fun h => h.elim) trivial
        | ok v =>
          cases v with
          | true => exact h.pass u rfl rfl rfl (ends_one fun v hv => ends_mine hv) (fun h => h.elim) trivial
          | false =>
            refine h.pass u rfl rfl rfl (fun _ h => nomatch h) (fun _ => .inl ⟨by rw [hst]; trivial, rfl⟩) ?_
            rw [List.append_nil]; exact hs
      · refine h.pass u rfl rfl rfl (fun _ h => nomatch h) (fun _ => .inl ⟨by rw [hst]; trivial, rfl⟩) ?_
        rw [List.append_nil]; exact hs
    | fresh cb tg src tm tid sid =>
      simp only [Sys.go, hst]
      refine h.pass u rfl rfl rfl (fun _ h => nomatch h) (fun _ => .inl ⟨by rw [hst]; trivial, rfl⟩) ?_
      rw [List.append_nil]; exact ⟨rfl, hs⟩
    | counted cb tg src tm tid sid c =>
      obtain ⟨rfl, hs2⟩ := hs
      have hua : isAsking (s.thr u) := by rw [hst]; trivial
      simp only [Sys.go, hst, List.append_nil] at hf ⊢
      rw [nextHandle_few (by unfold few at hf; omega)]
      simp only
      refine ⟨?_, ?_, ?_, h.nodup, hs2⟩
      · intro v hv
        by_cases hvu : v = u
        · subst hvu; exact h.asking v hua
        · rw [at_other _ _ hvu] at hv
          exact absurd (h.unique hone hv hua) hvu
      · intro v
        by_cases hvu : v = u
        · subst hvu
          rw [at_same]
          exact ⟨rfl, fun k hk => Nat.lt_succ_of_le (h.le k hk)⟩
        · rw [at_other _ _ hvu]
          have hna : ¬ isAsking (s.thr v) := fun hv => hvu (h.unique hone hv hua)
          show HStage _ evs (s.thr v)
          cases hv : s.thr v with
          | none => trivial
          | some q => cases q <;> first | trivial | (rw [hv] at hna; exact absurd trivial hna)
      · intro k hk; exact Nat.le_succ_of_le (h.le k hk)
    | numbered cb tg src tm tid sid hd =>
      obtain ⟨rfl, hs2⟩ := hs
      have hua : isAsking (s.thr u) := by rw [hst]; trivial
      simp only [Sys.go, hst]
      split
      · exact stay
      · have e1 : handles (evs ++ [Ev.added u s.reqCounter cb tg src tm]) = handles evs ++ [s.reqCounter] := handles_append _ _
        have e2 : asks (evs ++ [Ev.added u s.reqCounter cb tg src tm]) = asks evs := asks_append _ _
        refine ⟨?_, ?_, ?_, ?_, ?_⟩
        · intro v hv
          by_cases hvu : v = u
          · subst hvu; rw [at_same] at hv; exact hv.elim
          · rw [at_other _ _ hvu] at hv
            exact absurd (h.unique hone hv hua) hvu
        · intro v
          by_cases hvu : v = u
          · subst hvu; rw [at_same]; trivial
          · rw [at_other _ _ hvu]
            have hna : ¬ isAsking (s.thr v) := fun hv => hvu (h.unique hone hv hua)
            show HStage _ _ (s.thr v)
            cases hv : s.thr v with
            | none => trivial
            | some q => cases q <;> first | trivial | (rw [hv] at hna; exact absurd trivial hna)
        · intro k hk
          rw [e1] at hk
          rcases List.mem_append.1 hk with hk | hk
          · exact h.le k hk
          · rw [List.mem_singleton] at hk; rw [hk]; exact Nat.le_refl _
        · rw [e1, List.nodup_append]
          refine ⟨h.nodup, by simp, ?_⟩
          intro a ha b hb
          rw [List.mem_singleton] at hb
          have := hs2 a ha
          omega
        · rw [e2]; exact h.cnt
    | clear =>
      simp only [Sys.go, hst]
      exact h.pass u rfl rfl rfl (ends_one fun _ _ => rfl) (fun h => h.elim) trivial
    | addCallback =>
      simp only [Sys.go, hst]
      split
      · exact h.pass u (p := some .addCallback) (by funext v; simp only [put]; split <;> simp_all) rfl rfl (ends_one fun _ _ => rfl)
          (fun h => h.elim) trivial
      · exact h.pass u rfl rfl rfl (ends_one fun _ _ => rfl) (fun h => h.elim) trivial
    | remove cb =>
      simp only [Sys.go, hst]
      exact h.pass u rfl rfl rfl (fun _ h => nomatch h) (fun h => h.elim) trivial
    | removed cb =>
      simp only [Sys.go, hst]
      split
      · exact stay
      · exact h.pass u rfl rfl rfl (ends_one fun _ _ => rfl) (fun h => h.elim) trivial
    | cancel hd =>
      simp only [Sys.go, hst]
      split
      · exact stay
      · exact h.pass u rfl rfl rfl (ends_one fun _ _ => rfl) (fun h => h.elim) trivial

theorem OneAtATime.left {a b : List Ev} (h : OneAtATime (a ++ b)) : OneAtATime a := by
  intro e1 t e2 t' e3 he
  exact h e1 t e2 t' (e3 ++ b) (by rw [he]; simp)

theorem few.left {a b : List Ev} (h : few (a ++ b)) : few a := by
  unfold few at *; rw [asks_append] at h; omega

/-- What happens is appended. -/
theorem run_append [Rigid X] (sched : List (Op X)) : ∀ (s : Sys X) (evs : List Ev), ∃ d, (Sys.run sched s evs).2 = evs ++ d := by
  induction sched with
  | nil => intro s evs; exact ⟨[], (List.append_nil _).symm⟩
  | cons o r ih =>
    intro s evs
    obtain ⟨d, hd⟩ := ih (s.step o).1 (evs ++ (s.step o).2)
    exact ⟨(s.step o).2 ++ d, by rw [Sys.run, hd, List.append_assoc]⟩

theorem HInv.run [Rigid X] {D : Duration} (sched : List (Op X)) : ∀ {s : Sys X} {evs : List Ev}, Inv D s evs → HInv s evs →
    OneAtATime (Sys.run sched s evs).2 → few (Sys.run sched s evs).2 →
    HInv (Sys.run sched s evs).1 (Sys.run sched s evs).2 := by
  induction sched with
  | nil => intro s evs _ h _ _; exact h
  | cons o r ih =>
    intro s evs hi h ho hf
    obtain ⟨d, hd⟩ := run_append r (s.step o).1 (evs ++ (s.step o).2)
    refine ih (hi.step o) ?_ ho hf
    simp only [Sys.run] at ho hf
    rw [hd] at ho hf
    have ho := ho.left
    have hf := hf.left
    cases o with
    | go t => exact h.go hi ho.left t hf
    | call t op =>
      simp only [Sys.step]
      split
      · rw [List.append_nil]; exact h
      · refine h.pass t rfl rfl rfl (fun _ h => nomatch h) (fun h => ?_) ?_
        · cases op <;> exact h.elim
        · cases op <;> trivial

end Tf2.Par
