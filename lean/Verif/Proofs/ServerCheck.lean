import Verif.Proofs.BufferServer

/-!
# Buffer server: runs of the timer callback and of the goal callback
-/
namespace Tf2

variable {X : Type}

/-- During `ops` the goal was found unavailable, and after that not expired. -/
def PassedOver [Rigid X] (s : Server X) (a : Active) (ops : List (SOp X)) : Prop :=
  ∃ p p', p <+: p' ∧ p' <+: ops ∧ a.goal.can (Server.run p s []).1.buf = .ok false ∧
    ¬ a.endTime < (Server.run p' s []).1.now

/-- During `ops` the goal was found unavailable. -/
def WasUnavailable [Rigid X] (s : Server X) (a : Active) (ops : List (SOp X)) : Prop :=
  ∃ p, p <+: ops ∧ a.goal.can (Server.run p s []).1.buf = .ok false

theorem PassedOver.mono [Rigid X] {s : Server X} {a : Active} {ops ops' : List (SOp X)} (h : PassedOver s a ops)
    (hp : ops <+: ops') : PassedOver s a ops' := by
  obtain ⟨p, p', h1, h2, h3⟩ := h; exact ⟨p, p', h1, h2.trans hp, h3⟩

/-- The state of a check in progress, for one goal that was on the list when it began. -/
def Tracked [Rigid X] (s : Server X) (a : Active) (ops : List (SOp X)) (t : Server X) (evs : List (SEv X)) : Prop :=
  (∃ r, SEv.succeeded a.id r ∈ evs) ∨
  ∃ c j, t.check = some c ∧ t.active[j]? = some a ∧ (j < c.pos → PassedOver s a ops) ∧
    (j = c.pos → c.phase = .late → WasUnavailable s a ops)

theorem srun_snoc [Rigid X] (s : Server X) (ops : List (SOp X)) (op : SOp X) :
    Server.run (ops ++ [op]) s [] = (((Server.run ops s []).1.step op).1, (Server.run ops s []).2 ++ ((Server.run ops s []).1.step op).2) := by
  rw [srun_append]; rfl

theorem erase_track {α : Type} {l : List α} {i j : Nat} {a b : α} (ha : l[j]? = some a) (hb : l[i]? = some b) (h : j ≠ i) :
    (j < i ∧ (l.eraseIdx i)[j]? = some a) ∨ (i < j ∧ (l.eraseIdx i)[j - 1]? = some a) := by
  rcases Nat.lt_or_gt_of_ne h with h | h
  · exact .inl ⟨h, by rw [List.getElem?_eraseIdx_of_lt h]; exact ha⟩
  · refine .inr ⟨h, ?_⟩
    rw [List.getElem?_eraseIdx_of_ge (by omega)]
    rw [show j - 1 + 1 = j by omega]; exact ha

theorem SOut.tracked [Rigid X] {s : Server X} {a : Active} {ops : List (SOp X)} (op : SOp X) {r : Server X × List (SEv X)}
    (h : Tracked s a ops (Server.run ops s []).1 (Server.run ops s []).2) (ho : SOut (Server.run ops s []).1 r)
    (hk : r.1.check ≠ none) : Tracked s a (ops ++ [op]) r.1 ((Server.run ops s []).2 ++ r.2) := by
  have hp : ops <+: ops ++ [op] := List.prefix_append ..
  rcases h with ⟨x, hx⟩ | ⟨c, j, hc, hj, h1, h2⟩
  · exact .inl ⟨x, List.mem_append_left _ hx⟩
  generalize ht : (Server.run ops s []).1 = t at *
  generalize he : (Server.run ops s []).2 = evs at *
  have h1' : j < c.pos → PassedOver s a (ops ++ [op]) := fun h => (h1 h).mono hp
  have h2' : j = c.pos → c.phase = .late → WasUnavailable s a (ops ++ [op]) := fun h h' => by
    obtain ⟨p, q1, q2⟩ := h2 h h'; exact ⟨p, q1.trans hp, q2⟩
  cases ho with
  | push i d hd e hph hk' => rw [hc] at hk'; cases hk'
  | cancel i d hd hk' => rw [hc] at hk'; cases hk'
  | checkStart hk' => rw [hc] at hk'; cases hk'
  | checkEnd => exact absurd rfl hk
  | cAvail d hd a' ha' hph hv =>
    rw [hc] at hd; injection hd with hd; subst hd
    exact .inr ⟨_, j, rfl, hj, h1', fun _ h => by cases h⟩
  | cUnavail d hd a' ha' hph hv =>
    rw [hc] at hd; injection hd with hd; subst hd
    refine .inr ⟨_, j, rfl, hj, h1', fun hjc _ => ⟨ops, hp, ?_⟩⟩
    rw [hjc, ha'] at hj; injection hj with hj; subst hj; rw [ht]; exact hv
  | cExpired d hd a' ha' hph hle =>
    rw [hc] at hd; injection hd with hd; subst hd
    exact .inr ⟨_, j, rfl, hj, h1', fun _ h => by cases h⟩
  | cNext d hd a' ha' hph hle =>
    rw [hc] at hd; injection hd with hd; subst hd
    refine .inr ⟨_, j, rfl, hj, fun hlt => ?_, fun _ h => by cases h⟩
    by_cases hjc : j = c.pos
    · obtain ⟨p, q1, q2⟩ := h2 hjc hph
      refine ⟨p, ops, q1, hp, q2, ?_⟩
      rw [hjc, ha'] at hj; injection hj with hj; subst hj; rw [ht]; exact hle
    · exact h1' (by simp only at hlt; omega)
  | cHalf d hd a' ha' hph m1 hl =>
    rw [hc] at hd; injection hd with hd; subst hd
    exact .inr ⟨_, j, rfl, hj, h1', fun _ h => by cases h⟩
  | cDone1 d hd a' ha' hph r hl text m hm =>
    rw [hc] at hd; injection hd with hd; subst hd
    by_cases hjc : j = c.pos
    · rw [hjc, ha'] at hj; injection hj with hj; subst hj; exact .inl ⟨m, by simp⟩
    · rcases erase_track hj ha' hjc with ⟨h, h'⟩ | ⟨h, h'⟩
      · exact .inr ⟨_, j, rfl, h', h1', fun _ h => by cases h⟩
      · exact .inr ⟨_, j - 1, rfl, h', fun hlt => by simp only at hlt; omega, fun _ h => by cases h⟩
  | cDone2 d hd a' ha' m1 hph text m hm =>
    rw [hc] at hd; injection hd with hd; subst hd
    by_cases hjc : j = c.pos
    · rw [hjc, ha'] at hj; injection hj with hj; subst hj; exact .inl ⟨m, by simp⟩
    · rcases erase_track hj ha' hjc with ⟨h, h'⟩ | ⟨h, h'⟩
      · exact .inr ⟨_, j, rfl, h', h1', fun _ h => by cases h⟩
      · exact .inr ⟨_, j - 1, rfl, h', fun hlt => by simp only at hlt; omega, fun _ h => by cases h⟩
  | _ => exact .inr ⟨c, j, hc, hj, h1', h2'⟩

theorem srun_reach [Rigid X] {D : Duration} {s : Server X} (hr : Reachable D s.buf) (ops : List (SOp X)) :
    Reachable D (Server.run ops s []).1.buf := by
  induction ops using snocInd with
  | h0 => exact hr
  | h l a ih => rw [srun_snoc]; exact Server.step_buf ih a

theorem complete_check [Rigid X] {D : Duration} {s : Server X} (hr : Reachable D s.buf) {ops : List (SOp X)}
    (hc : CompleteCheck s ops) {a : Active} (ha : a ∈ s.active) :
    (∃ r, SEv.succeeded a.id r ∈ (Server.run ops s []).2) ∨ (a ∈ (Server.run ops s []).1.active ∧ PassedOver s a ops) := by
  obtain ⟨h0, rest, rfl, hm, hend⟩ := hc
  have key : ∀ p, (∃ q, rest = p ++ q ∧ q ≠ []) →
      Tracked s a (.checkStart :: p) (Server.run (.checkStart :: p) s []).1 (Server.run (.checkStart :: p) s []).2 := by
    intro p
    induction p using snocInd with
    | h0 =>
      intro _
      obtain ⟨j, hj, e⟩ := List.mem_iff_getElem.1 ha
      have e1 : (Server.run [SOp.checkStart] s []).1 = { s with check := some { pos := 0, phase := .fresh } } := by
        simp [Server.run, Server.step, Server.checkStart, h0]
      rw [e1]
      exact .inr ⟨_, j, rfl, by rw [List.getElem?_eq_getElem hj, e], fun h => absurd h (Nat.not_lt_zero _), fun _ h => by cases h⟩
    | h l x ih =>
      rintro ⟨q, hq, hne⟩
      have ih' := ih ⟨x :: q, by rw [hq]; simp, by simp⟩
      have hk := hm (l ++ [x]) q hq hne
      have ho := Server.step_out (srun_reach hr (.checkStart :: l)) x
      have e1 := srun_snoc s (.checkStart :: l) x
      rw [List.cons_append] at e1
      rw [e1] at hk ⊢
      have := SOut.tracked x ih' ho hk
      rw [List.cons_append] at this
      exact this
  rcases List.eq_nil_or_concat rest with rfl | ⟨l, x, rfl⟩
  · simp [Server.run, Server.step, Server.checkStart, h0] at hend
  · rw [List.concat_eq_append] at *
    have hk := key l ⟨[x], rfl, by simp⟩
    have ho := Server.step_out (srun_reach hr (.checkStart :: l)) x
    have e1 := srun_snoc s (.checkStart :: l) x
    rw [List.cons_append] at e1
    rw [e1] at hend ⊢
    rcases hk with ⟨r, hr⟩ | ⟨c, j, h1, h2, h3, h4⟩
    · exact .inl ⟨r, List.mem_append_left _ hr⟩
    generalize (Server.run (.checkStart :: l) s []).1.step x = r at *
    cases ho with
    | push i d hd e hph hk => rw [h1] at hk; cases hk
    | cancel i d hd hk => rw [h1] at hk; cases hk
    | checkStart hk => rw [h1] at hk; cases hk
    | checkEnd d hd ha' =>
      rw [h1] at hd; injection hd with hd; subst hd
      refine .inr ⟨List.mem_of_getElem? h2, (h3 ?_).mono ⟨[x], by simp⟩⟩
      have h5 := List.getElem?_eq_none_iff.1 ha'
      obtain ⟨h6, -⟩ := List.getElem?_eq_some_iff.1 h2
      omega
    | _ => simp_all

/-! ### Without interruption -/

theorem checkRest_idle [Rigid X] (text : String) (n : Nat) : ∀ (s : Server X) (evs : List (SEv X)), s.check = none →
    Server.checkRest text n s evs = (s, evs) := by
  induction n with
  | zero => intro s evs _; rfl
  | succ n ih =>
    intro s evs h
    have : s.checkStep text = (s, []) := by unfold Server.checkStep; rw [h]
    show Server.checkRest text n (s.checkStep text).1 (evs ++ (s.checkStep text).2) = _
    rw [this, ih _ _ h, List.append_nil]

theorem checkRest_add [Rigid X] (text : String) (m n : Nat) : ∀ (s : Server X) (evs : List (SEv X)),
    Server.checkRest text (m + n) s evs = Server.checkRest text n (Server.checkRest text m s evs).1 (Server.checkRest text m s evs).2 := by
  induction m with
  | zero => intro s evs; simp [Server.checkRest]
  | succ m ih => intro s evs; rw [show m + 1 + n = (m + n) + 1 by omega]; exact ih _ _

/-- It is time to look at the goal. -/
def Active.due [Rigid X] (b : Buf X) (now : Time) (a : Active) : Bool :=
  decide (a.endTime < now) || (match a.goal.can b with | .ok true => true | _ => false)

theorem Active.due_iff [Rigid X] (b : Buf X) (now : Time) (a : Active) :
    a.due b now = true ↔ a.goal.can b = .ok true ∨ a.endTime < now := by
  unfold Active.due
  cases h : a.goal.can b with
  | ok v => cases v <;> simp
  | throw e => simp
  | ub => simp

/-- The event for a goal resolved now. -/
def Active.answer [Rigid X] (b : Buf X) (text : String) (a : Active) : Option (SEv X) :=
  (serverResult (a.goal.lookup b) text).map (.succeeded a.id)

theorem checkRest_whole [Rigid X] {D : Duration} (text : String) (rest : List Active) : ∀ (s : Server X) (seen : List Active)
    (evs : List (SEv X)) (k : Nat), Reachable D s.buf → s.active = seen ++ rest → s.check = some { pos := seen.length, phase := .fresh } →
    Server.checkRest text (4 * rest.length + 1 + k) s evs =
      ({ s with active := seen ++ rest.filter (fun a => !a.due s.buf s.now), check := none },
       evs ++ (rest.filter (fun a => a.due s.buf s.now)).filterMap (fun a => a.answer s.buf text)) := by
  induction rest with
  | nil =>
    intro s seen evs k hr ha hc
    rw [show 4 * ([] : List Active).length + 1 + k = 1 + k by simp, checkRest_add]
    have : s.checkStep text = ({ s with check := none }, []) := by
      unfold Server.checkStep; rw [hc]; simp [ha]
    have e1 : Server.checkRest text 1 s evs = ({ s with check := none }, evs) := by
      show ((s.checkStep text).1, evs ++ (s.checkStep text).2) = _
      rw [this, List.append_nil]
    rw [e1, checkRest_idle _ _ _ _ rfl]
    simp at ha
    simp [← ha]
  | cons a rest ih =>
    intro s seen evs k hr ha hc
    have hget : s.active[seen.length]? = some a := by rw [ha]; simp
    have herase : s.active.eraseIdx seen.length = seen ++ rest := by
      rw [ha]; simp [List.eraseIdx_append_of_length_le]
    -- the lookup of this goal, one or two steps
    have look : ∀ (s1 : Server X) (n : Nat) (evs : List (SEv X)), s1 = { s with check := some { pos := seen.length, phase := .look } } →
        ∃ m, serverResult (a.goal.lookup s.buf) text = some m ∧ ∃ d, d ≤ 2 ∧
        Server.checkRest text (d + n) s1 evs = Server.checkRest text n
          { s with active := seen ++ rest, check := some { pos := seen.length, phase := .fresh } } (evs ++ [.succeeded a.id m]) := by
      intro s1 n evs hs1
      rw [← Goal.lookupOver_self]
      rcases Goal.look1_total hr a.goal with ⟨m1, h⟩ | ⟨r, h, hs⟩
      · obtain ⟨m, hm⟩ := serverResult_some _ text (Goal.look2_total hr a.goal m1)
        refine ⟨m, by unfold Goal.lookupOver; rw [h]; exact hm, 2, by omega, ?_⟩
        have e1 : s1.checkStep text = ({ s with check := some { pos := seen.length, phase := .look2 m1 } }, []) := by
          rw [hs1]; unfold Server.checkStep; simp only [hget, h]
        have e2 : ({ s with check := some { pos := seen.length, phase := .look2 m1 } } : Server X).checkStep text =
            ({ s with active := seen ++ rest, check := some { pos := seen.length, phase := .fresh } }, [.succeeded a.id m]) := by
          unfold Server.checkStep; simp only [hget, Server.checkDone, hm, herase]
        rw [Nat.add_comm 2 n]
        show Server.checkRest text n ((s1.checkStep text).1.checkStep text).1 ((evs ++ (s1.checkStep text).2) ++ ((s1.checkStep text).1.checkStep text).2) = _
        rw [e1]; simp only [e2, List.append_nil]
      · obtain ⟨m, hm⟩ := serverResult_some r text hs
        refine ⟨m, by unfold Goal.lookupOver; rw [h]; exact hm, 1, by omega, ?_⟩
        have e1 : s1.checkStep text =
            ({ s with active := seen ++ rest, check := some { pos := seen.length, phase := .fresh } }, [.succeeded a.id m]) := by
          rw [hs1]; unfold Server.checkStep; simp only [hget, h, Server.checkDone, hm, herase]
        rw [Nat.add_comm 1 n]
        show Server.checkRest text n (s1.checkStep text).1 (evs ++ (s1.checkStep text).2) = _
        rw [e1]
    obtain ⟨v, hv⟩ := Goal.can_total hr a.goal
    have one : ∀ (n : Nat) (s : Server X) (evs : List (SEv X)), Server.checkRest text (n + 1) s evs =
      Server.checkRest text n (s.checkStep text).1 (evs ++ (s.checkStep text).2) := fun _ _ _ => rfl
    cases v with
    | true =>
      have e1 : s.checkStep text = ({ s with check := some { pos := seen.length, phase := .look } }, []) := by
        unfold Server.checkStep; rw [hc]; simp only [hget, hv]
      have hdue : a.due s.buf s.now = true := (Active.due_iff ..).2 (.inl hv)
      rw [show 4 * (a :: rest).length + 1 + k = (4 + (4 * rest.length + k)) + 1 by simp; omega, one, e1]
      obtain ⟨m, hm, d, hd, hl⟩ := look _ 0 (evs ++ []) rfl
      have hall : Server.checkRest text (d + (4 * rest.length + 1 + (3 - d + k))) { s with check := some { pos := seen.length, phase := .look } } (evs ++ []) =
          Server.checkRest text (4 * rest.length + 1 + (3 - d + k))
            { s with active := seen ++ rest, check := some { pos := seen.length, phase := .fresh } } (evs ++ [.succeeded a.id m]) := by
        rw [checkRest_add, show Server.checkRest text d _ (evs ++ []) = Server.checkRest text (d + 0) _ (evs ++ []) from rfl, hl]
        simp [Server.checkRest]
      rw [show 4 + (4 * rest.length + k) = d + (4 * rest.length + 1 + (3 - d + k)) by omega, hall]
      rw [ih { s with active := seen ++ rest, check := some { pos := seen.length, phase := .fresh } } seen _ _ hr rfl rfl]
      simp only [List.filter_cons, hdue, Bool.not_true, Bool.false_eq_true, if_false, if_true, List.filterMap_cons, Active.answer, hm,
        Option.map_some, List.append_assoc, List.singleton_append]
    | false =>
      have e1 : s.checkStep text = ({ s with check := some { pos := seen.length, phase := .late } }, []) := by
        unfold Server.checkStep; rw [hc]; simp only [hget, hv]
      by_cases hlt : a.endTime < s.now
      · have hdue : a.due s.buf s.now = true := (Active.due_iff ..).2 (.inr hlt)
        have e2 : ({ s with check := some { pos := seen.length, phase := .late } } : Server X).checkStep text =
            ({ s with check := some { pos := seen.length, phase := .look } }, []) := by
          unfold Server.checkStep; simp only [hget, hlt, if_true]
        obtain ⟨m, hm, d, hd, hl⟩ := look _ 0 evs rfl
        have hall : Server.checkRest text (d + (4 * rest.length + 1 + (2 - d + k))) { s with check := some { pos := seen.length, phase := .look } } evs =
            Server.checkRest text (4 * rest.length + 1 + (2 - d + k))
              { s with active := seen ++ rest, check := some { pos := seen.length, phase := .fresh } } (evs ++ [.succeeded a.id m]) := by
          rw [checkRest_add, show Server.checkRest text d _ evs = Server.checkRest text (d + 0) _ evs from rfl, hl]
          simp [Server.checkRest]
        rw [show 4 * (a :: rest).length + 1 + k = (d + (4 * rest.length + 1 + (2 - d + k)) + 1) + 1 by simp; omega, one, e1, one]
        simp only [e2, List.append_nil]
        rw [hall, ih { s with active := seen ++ rest, check := some { pos := seen.length, phase := .fresh } } seen _ _ hr rfl rfl]
        simp only [List.filter_cons, hdue, Bool.not_true, Bool.false_eq_true, if_false, if_true, List.filterMap_cons, Active.answer, hm,
          Option.map_some, List.append_assoc, List.singleton_append]
      · have hdue : a.due s.buf s.now = false := by
          rw [Bool.eq_false_iff]; intro h
          rcases (Active.due_iff ..).1 h with h | h
          · rw [hv] at h; cases h
          · exact hlt h
        have e2 : ({ s with check := some { pos := seen.length, phase := .late } } : Server X).checkStep text =
            ({ s with check := some { pos := seen.length + 1, phase := .fresh } }, []) := by
          unfold Server.checkStep; simp only [hget, hlt, if_false]
        rw [show 4 * (a :: rest).length + 1 + k = (4 * rest.length + 1 + (2 + k) + 1) + 1 by simp; omega, one, e1, one]
        simp only [e2, List.append_nil]
        rw [ih { s with check := some { pos := seen.length + 1, phase := .fresh } } (seen ++ [a]) _ _ hr (by simp [ha]) (by simp)]
        simp [List.filter_cons, hdue]

end Tf2
