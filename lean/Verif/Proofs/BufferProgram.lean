import Verif.Spec.BufferProgram
import Verif.Props.BufferServer
import Verif.Props.Arrival

/-!
# Lemmas about the program `buffer_server`
-/
namespace Tf2.BufProg

variable {X : Type}

/-! ### One step -/

/-- What a step does. -/
inductive POut [Rigid X] (s : Process X) : POp X → Process X × List (PEv X) → Prop where
  | dead {op} (h : s.dead = true) : POut s op (s, [])
  | busy {op} (h : ∀ now, heard now [op] = []) (h' : ∀ now, clockOf now [op] = now) (hf : s.free = false) (hs : ∀ t, op ≠ .spin t) :
      POut s op (s, [])
  | listen {op} (hd : s.dead = false) {lop} (hl : heard s.server.now [op] = [lop]) (hc : ∀ now, clockOf now [op] = now)
      (ho : ∀ x, lop ≠ .other x) : POut s op (s.listen lop)
  | clock (hd : s.dead = false) {t} : POut s (.clock t) (s.serve (.clock t))
  | goal (hd : s.dead = false) (hf : s.free = true) {g} : POut s (.goal g) (s.serve (.goal g))
  | cancel (hd : s.dead = false) (hf : s.free = true) {id} : POut s (.cancel id) (s.serve (.cancel id))
  | timer (hd : s.dead = false) (hf : s.free = true) : POut s .timer (s.serve .checkStart)
  | check (hd : s.dead = false) {text} (hf : s.server.check.isSome = true) : POut s (.spin text) (s.serve (.checkStep text))
  | call (hd : s.dead = false) {text} (hf : s.server.check = none) : POut s (.spin text) (s.serve (.goalStep 0 text))

theorem pout [Rigid X] (s : Process X) (op : POp X) : POut s op (s.step op) := by
  unfold Process.step
  split
  · rename_i h; exact .dead h
  · rename_i h
    have hd : s.dead = false := by simpa using h
    cases op with
    | arrive st p => exact .listen hd rfl (fun _ => rfl) fun _ e => by cases e
    | thread => exact .listen hd rfl (fun _ => rfl) fun _ e => by cases e
    | ready => exact .listen hd rfl (fun _ => rfl) fun _ e => by cases e
    | clock t => exact .clock hd
    | goal g =>
      dsimp only
      split
      · rename_i hf; exact .goal hd hf
      · rename_i hf; exact .busy (fun _ => rfl) (fun _ => rfl) (by simpa using hf) fun _ e => by cases e
    | cancel id =>
      dsimp only
      split
      · rename_i hf; exact .cancel hd hf
      · rename_i hf; exact .busy (fun _ => rfl) (fun _ => rfl) (by simpa using hf) fun _ e => by cases e
    | timer =>
      dsimp only
      split
      · rename_i hf; exact .timer hd hf
      · rename_i hf; exact .busy (fun _ => rfl) (fun _ => rfl) (by simpa using hf) fun _ e => by cases e
    | spin text =>
      dsimp only
      split
      · rename_i hf; exact .check hd hf
      · rename_i hf; exact .call hd (by simpa using hf)

theorem run_append [Rigid X] (p q : List (POp X)) (s : Process X) :
    Process.run (p ++ q) s = ((Process.run q (Process.run p s).1).1, (Process.run p s).2 ++ (Process.run q (Process.run p s).1).2) := by
  induction p generalizing s with
  | nil => rfl
  | cons op r ih => simp only [List.cons_append, Process.run, ih, List.append_assoc]

theorem run_snoc [Rigid X] (l : List (POp X)) (a : POp X) (s : Process X) :
    Process.run (l ++ [a]) s = (((Process.run l s).1.step a).1, (Process.run l s).2 ++ ((Process.run l s).1.step a).2) := by
  rw [run_append]; simp [Process.run]

theorem history_append [Rigid X] (D : Duration) (now : Time) (a c : List (POp X)) :
    history D now (a ++ c) = ((Process.run c (history D now a).1).1, (history D now a).2 ++ (Process.run c (history D now a).1).2) :=
  run_append _ _ _

theorem history_snoc [Rigid X] (D : Duration) (now : Time) (l : List (POp X)) (a : POp X) :
    history D now (l ++ [a]) = (((history D now l).1.step a).1, (history D now l).2 ++ ((history D now l).1.step a).2) :=
  run_snoc _ _ _

theorem serving_append (a c : List (PEv X)) : serving (a ++ c) = serving a ++ serving c := List.filterMap_append ..
theorem hearing_append (a c : List (PEv X)) : hearing (a ++ c) = hearing a ++ hearing c := List.filterMap_append ..

@[simp] theorem serving_served (l : List (SEv X)) : serving (l.map .served) = l := by
  induction l with
  | nil => rfl
  | cons a r ih =>
    show serving (.served a :: r.map .served) = a :: r
    unfold serving at ih ⊢
    rw [List.filterMap_cons]
    simp [ih]

@[simp] theorem serving_heard (l : List (Spin.Ev X)) : serving (l.map .heard) = [] := by
  induction l with
  | nil => rfl
  | cons a r ih =>
    show serving (.heard a :: r.map .heard) = []
    unfold serving at ih ⊢
    rw [List.filterMap_cons]
    simp [ih]

@[simp] theorem hearing_heard (l : List (Spin.Ev X)) : hearing (l.map .heard) = l := by
  induction l with
  | nil => rfl
  | cons a r ih =>
    show hearing (.heard a :: r.map .heard) = a :: r
    unfold hearing at ih ⊢
    rw [List.filterMap_cons]
    simp [ih]

@[simp] theorem hearing_served (l : List (SEv X)) : hearing (l.map .served) = [] := by
  induction l with
  | nil => rfl
  | cons a r ih =>
    show hearing (.served a :: r.map .served) = []
    unfold hearing at ih ⊢
    rw [List.filterMap_cons]
    simp [ih]

@[simp] theorem serving_nil : serving ([] : List (PEv X)) = [] := rfl
@[simp] theorem hearing_nil : hearing ([] : List (PEv X)) = [] := rfl

theorem mem_serving {e : SEv X} {l : List (PEv X)} : e ∈ serving l ↔ PEv.served e ∈ l := by
  unfold serving
  rw [List.mem_filterMap]
  constructor
  · rintro ⟨x, hx, h⟩
    cases x with
    | served e' => injection h with h; subst h; exact hx
    | heard e' => cases h
  · intro h; exact ⟨_, h, rfl⟩

theorem heard_append (now : Time) (a c : List (POp X)) : heard now (a ++ c) = heard now a ++ heard (clockOf now a) c := by
  induction a generalizing now with
  | nil => rfl
  | cons op r ih => cases op <;> simp [heard, clockOf, ih]

theorem clockOf_append (now : Time) (a c : List (POp X)) : clockOf now (a ++ c) = clockOf (clockOf now a) c := by
  induction a generalizing now with
  | nil => rfl
  | cons op r ih => cases op <;> simp [clockOf, ih]

/-! ### The process dies once -/

theorem step_alive [Rigid X] {s : Process X} {op : POp X} (h : (s.step op).1.dead = false) : s.dead = false := by
  cases hd : s.dead with
  | false => rfl
  | true =>
    unfold Process.step at h
    rw [if_pos hd] at h
    rw [hd] at h
    cases h

theorem run_alive [Rigid X] {s : Process X} {l : List (POp X)} (h : (Process.run l s).1.dead = false) : s.dead = false := by
  induction l generalizing s with
  | nil => exact h
  | cons op r ih => exact step_alive (ih h)

theorem alive_before [Rigid X] {D : Duration} {now : Time} {a c : List (POp X)} (h : (history D now (a ++ c)).1.dead = false) :
    (history D now a).1.dead = false := by
  rw [history_append] at h; exact run_alive h

/-! ### The listener -/

theorem serve_now [Rigid X] (s : Process X) {sop : SOp X} (h : ∀ t, sop ≠ .clock t) : (s.serve sop).1.server.now = s.server.now := by
  show (s.server.step sop).1.now = _
  cases sop with
  | clock t => exact absurd rfl (h t)
  | goal g => rfl
  | buffer op => rfl
  | cancel id => show (s.server.cancel id).1.now = _; unfold Server.cancel; split <;> (try split) <;> rfl
  | checkStart => show (s.server.checkStart).1.now = _; unfold Server.checkStart; split <;> rfl
  | goalStep i text =>
    show (s.server.goalStep i text).1.now = _
    have hg : ∀ c r, (s.server.goalDone i c r text).1.now = s.server.now := by
      intro c r; unfold Server.goalDone; split <;> rfl
    unfold Server.goalStep
    repeat' split
    all_goals first | rfl | exact hg _ _
  | checkStep text =>
    show (s.server.checkStep text).1.now = _
    have hg : ∀ c a r, (s.server.checkDone c a r text).1.now = s.server.now := by
      intro c a r; unfold Server.checkDone; split <;> rfl
    unfold Server.checkStep
    repeat' split
    all_goals first | rfl | exact hg _ _ _

theorem listener_step [Rigid X] {D : Duration} {now : Time} {l : List (POp X)} (a : POp X) (hl : (history D now l).1.dead = false)
    (i1 : (history D now l).1.listener = (Spin.history D (heard now l)).1)
    (i2 : hearing (history D now l).2 = (Spin.history D (heard now l)).2)
    (i3 : (history D now l).1.server.now = clockOf now l) :
    (history D now (l ++ [a])).1.listener = (Spin.history D (heard now (l ++ [a]))).1 ∧
    hearing (history D now (l ++ [a])).2 = (Spin.history D (heard now (l ++ [a]))).2 ∧
    (history D now (l ++ [a])).1.server.now = clockOf now (l ++ [a]) := by
  rw [history_snoc]
  dsimp only
  rw [heard_append, clockOf_append, hearing_append]
  have ho := pout (history D now l).1 a
  generalize (history D now l).1.step a = r at ho
  cases ho with
  | dead h' => rw [hl] at h'; cases h'
  | busy h1 h2 _ => rw [h1, h2]; simp only [hearing_nil, List.append_nil]; exact ⟨i1, i2, i3⟩
  | listen hd h1 h2 _ =>
    rw [← i3, h1, h2, Spin.history_snoc, ← i1, ← i2]
    simp only [Process.listen, hearing_heard]
    exact ⟨trivial, trivial, trivial⟩
  | clock hd => simp only [heard, clockOf, Process.serve, hearing_served, List.append_nil]; exact ⟨i1, i2, rfl⟩
  | goal hd hf =>
    rw [serve_now _ (fun _ e => by cases e)]
    simp only [heard, clockOf, Process.serve, hearing_served, List.append_nil]; exact ⟨i1, i2, i3⟩
  | cancel hd hf =>
    rw [serve_now _ (fun _ e => by cases e)]
    simp only [heard, clockOf, Process.serve, hearing_served, List.append_nil]; exact ⟨i1, i2, i3⟩
  | timer hd hf =>
    rw [serve_now _ (fun _ e => by cases e)]
    simp only [heard, clockOf, Process.serve, hearing_served, List.append_nil]; exact ⟨i1, i2, i3⟩
  | check hd hf =>
    rw [serve_now _ (fun _ e => by cases e)]
    simp only [heard, clockOf, Process.serve, hearing_served, List.append_nil]; exact ⟨i1, i2, i3⟩
  | call hd hf =>
    rw [serve_now _ (fun _ e => by cases e)]
    simp only [heard, clockOf, Process.serve, hearing_served, List.append_nil]; exact ⟨i1, i2, i3⟩

/-- While the process is alive the listener does what it does alone. -/
theorem listener_eq [Rigid X] (D : Duration) (now : Time) (ops : List (POp X)) (h : (history D now ops).1.dead = false) :
    (history D now ops).1.listener = (Spin.history D (heard now ops)).1 ∧
    hearing (history D now ops).2 = (Spin.history D (heard now ops)).2 ∧
    (history D now ops).1.server.now = clockOf now ops := by
  induction ops using Spin.snoc_cases with
  | h0 => exact ⟨rfl, rfl, rfl⟩
  | h1 l a ih =>
    have hl := alive_before h
    obtain ⟨i1, i2, i3⟩ := ih hl
    exact listener_step a hl i1 i2 i3

/-- Also in the step in which the process dies. -/
theorem listener_eq_snoc [Rigid X] (D : Duration) (now : Time) (l : List (POp X)) (a : POp X) (h : (history D now l).1.dead = false) :
    (history D now (l ++ [a])).1.listener = (Spin.history D (heard now (l ++ [a]))).1 ∧
    hearing (history D now (l ++ [a])).2 = (Spin.history D (heard now (l ++ [a]))).2 ∧
    (history D now (l ++ [a])).1.server.now = clockOf now (l ++ [a]) := by
  obtain ⟨i1, i2, i3⟩ := listener_eq D now l h
  exact listener_step a h i1 i2 i3

/-! ### The buffer -/

/-- A step of the listener is no call of the buffer, or one. -/
theorem listen_buf [Rigid X] (s : Spin.St X) (op : Spin.Op X) :
    (s.step op).1.lis.rb.buf = s.lis.rb.buf ∨ ∃ o, (s.step op).1.lis.rb.buf = s.lis.rb.buf.step o := by
  have hr : ∀ (rb : RBuf X) (op : ROp X), (rb.step op).1.buf = rb.buf ∨ ∃ o, (rb.step op).1.buf = rb.buf.step o := by
    intro rb op
    rw [Spin.rstep_buf]
    cases h : Spin.dataOf op with
    | none => left; simp [h, Buf.run]
    | some o => right; exact ⟨o, by simp [h, Buf.run]⟩
  have hlis : ∀ (l : Listener X) (lop : LOp X), (l.step lop).1.rb.buf = l.rb.buf ∨ ∃ o, (l.step lop).1.rb.buf = l.rb.buf.step o := by
    intro l lop
    have ho := lout l lop
    generalize l.step lop = r at ho ⊢
    cases ho with
    | jump => exact hr _ _
    | escape => exact hr _ _
    | set => exact hr _ _
    | other => exact hr _ _
    | _ => exact .inl rfl
  have hw : ∀ (s : Spin.St X) st q, (s.setWaiting st q).lis = s.lis := fun s st q => by cases st <;> rfl
  have ho := Spin.sout s op
  generalize s.step op = r at ho ⊢
  cases ho with
  | work hp hc => exact hlis _ _
  | call hp => 
    show ((Spin.St.setWaiting _ _ _).after _).1.lis.rb.buf = _ ∨ _
    exact hlis _ _
  | other hp => exact hlis _ _
  | full => left; simp only [hw]
  | push => left; simp only [hw]
  | _ => exact .inl rfl

theorem serve_buf [Rigid X] (s : Server X) {sop : SOp X} (h : ∀ t, sop ≠ .buffer t) : (s.step sop).1.buf = s.buf := by
  cases sop with
  | clock t => rfl
  | goal g => rfl
  | buffer op => exact absurd rfl (h op)
  | cancel id => show (s.cancel id).1.buf = _; unfold Server.cancel; split <;> (try split) <;> rfl
  | checkStart => show (s.checkStart).1.buf = _; unfold Server.checkStart; split <;> rfl
  | goalStep i text =>
    show (s.goalStep i text).1.buf = _
    have hg : ∀ c r, (s.goalDone i c r text).1.buf = s.buf := by
      intro c r; unfold Server.goalDone; split <;> rfl
    unfold Server.goalStep
    repeat' split
    all_goals first | rfl | exact hg _ _
  | checkStep text =>
    show (s.checkStep text).1.buf = _
    have hg : ∀ c a r, (s.checkDone c a r text).1.buf = s.buf := by
      intro c a r; unfold Server.checkDone; split <;> rfl
    unfold Server.checkStep
    repeat' split
    all_goals first | rfl | exact hg _ _ _

/-- A goal is accepted when it comes. -/
theorem serve_accepted [Rigid X] {s : Server X} {sop : SOp X} (h : ∀ g, sop ≠ .goal g) {id : Nat} {g : Goal}
    (hm : SEv.accepted id g ∈ (s.step sop).2) : False := by
  cases sop with
  | clock t => cases hm
  | goal g => exact h g rfl
  | buffer op => cases hm
  | cancel id' =>
    have hm : SEv.accepted id g ∈ (s.cancel id').2 := hm
    revert hm
    unfold Server.cancel
    repeat' split
    all_goals simp
  | checkStart =>
    have hm : SEv.accepted id g ∈ (s.checkStart).2 := hm
    revert hm
    unfold Server.checkStart
    repeat' split
    all_goals simp
  | goalStep i text =>
    have hm : SEv.accepted id g ∈ (s.goalStep i text).2 := hm
    revert hm
    have hg : ∀ c r, SEv.accepted id g ∉ (s.goalDone i c r text).2 := by
      intro c r; unfold Server.goalDone; split <;> (try cases r) <;> simp [Server.leaves]
    unfold Server.goalStep
    repeat' split
    all_goals first | exact hg _ _ | simp
  | checkStep text =>
    have hm : SEv.accepted id g ∈ (s.checkStep text).2 := hm
    revert hm
    have hg : ∀ c a r, SEv.accepted id g ∉ (s.checkDone c a r text).2 := by
      intro c a r; unfold Server.checkDone; split <;> (try cases r) <;> simp [Server.leaves]
    unfold Server.checkStep
    repeat' split
    all_goals first | exact hg _ _ _ | simp

/-- The thread does not end the listener. -/
theorem thread_owner [Rigid X] (s : Spin.St X) (t : Time) : (s.step (.thread t)).1.owner = s.owner := by
  show (s.thread t).1.owner = s.owner
  have hw : ∀ (s : Spin.St X) st q, (s.setWaiting st q).owner = s.owner := fun s st q => by cases st <;> rfl
  have ha : ∀ (s : Spin.St X) x, (s.after x).1.owner = s.owner := by
    intro s x; unfold Spin.St.after; rfl
  unfold Spin.St.thread
  repeat' split
  all_goals first | rfl | exact ha _ _ | exact (ha _ _).trans (hw _ _ _)

/-- The server's buffer is the listener's. -/
theorem buf_shared [Rigid X] (D : Duration) (now : Time) (ops : List (POp X)) :
    (history D now ops).1.server.buf = (history D now ops).1.listener.lis.rb.buf := by
  induction ops using Spin.snoc_cases with
  | h0 => rfl
  | h1 l a ih =>
    rw [history_snoc]
    dsimp only
    have ho := pout (history D now l).1 a
    generalize (history D now l).1.step a = r at ho ⊢
    cases ho with
    | dead => exact ih
    | busy => exact ih
    | listen => rfl
    | clock hd => exact ih
    | goal => exact ih
    | cancel => exact (serve_buf _ (fun _ e => by cases e)).trans ih
    | timer => exact (serve_buf _ (fun _ e => by cases e)).trans ih
    | check => exact (serve_buf _ (fun _ e => by cases e)).trans ih
    | call => exact (serve_buf _ (fun _ e => by cases e)).trans ih

/-! ### The server's own history -/

/-- From `s` on, the steps `l` of the program are the steps `q` of a server. -/
inductive Sim [Rigid X] (s : Process X) : List (POp X) → List (SOp X) → Prop where
  | nil : Sim s [] []
  | same {l q a} (h : Sim s l q) (h1 : ((Process.run l s).1.step a).1.server = (Process.run l s).1.server)
      (h2 : serving ((Process.run l s).1.step a).2 = []) : Sim s (l ++ [a]) q
  | more {l q a x} (h : Sim s l q) (h1 : ((Process.run l s).1.step a).1.server = ((Process.run l s).1.server.step x).1)
      (h2 : serving ((Process.run l s).1.step a).2 = ((Process.run l s).1.server.step x).2) : Sim s (l ++ [a]) (q ++ [x])

theorem Sim.run [Rigid X] {s : Process X} {l : List (POp X)} {q : List (SOp X)} (h : Sim s l q) :
    Server.run q s.server [] = ((Process.run l s).1.server, serving (Process.run l s).2) := by
  induction h with
  | nil => rfl
  | same h h1 h2 ih => rw [ih, run_snoc, h1]; simp [serving_append, h2]
  | more h h1 h2 ih =>
    rw [srun_append, ih, run_snoc]
    simp [Server.run, serving_append, h1, h2]

/-- The steps of the server, up to one of them, are those of the program up to one of its steps. -/
theorem Sim.prefix [Rigid X] {s : Process X} {l : List (POp X)} {q q' : List (SOp X)} (h : Sim s l q) (hq : q' <+: q) :
    ∃ l', l' <+: l ∧ Sim s l' q' ∧ (q' ≠ q → l' ≠ l) := by
  induction h with
  | nil => exact ⟨[], List.prefix_rfl, (List.prefix_nil.1 hq) ▸ .nil, fun h => absurd (List.prefix_nil.1 hq) h⟩
  | @same l q a h h1 h2 ih =>
    by_cases he : q' = q
    · subst he; exact ⟨l ++ [a], List.prefix_rfl, .same h h1 h2, fun h => absurd rfl h⟩
    · obtain ⟨l', i1, i2, i3⟩ := ih hq
      refine ⟨l', i1.trans (List.prefix_append _ _), i2, fun _ e => ?_⟩
      subst e
      have := i1.length_le
      simp at this
      omega
  | @more l q a x h h1 h2 ih =>
    by_cases he : q' = q ++ [x]
    · subst he; exact ⟨l ++ [a], List.prefix_rfl, .more h h1 h2, fun h => absurd rfl h⟩
    · have hq2 : q' <+: q := by
        rcases List.prefix_concat_iff.1 hq with e | e
        · exact absurd e he
        · exact e
      obtain ⟨l', i1, i2, -⟩ := ih hq2
      refine ⟨l', i1.trans (List.prefix_append _ _), i2, fun _ e => ?_⟩
      subst e
      have := i1.length_le
      simp at this
      omega

/-- Every history of the program is one of a server. -/
theorem sim [Rigid X] (D : Duration) (now : Time) (pre l : List (POp X)) : ∃ q, Sim (history D now pre).1 l q := by
  induction l using Spin.snoc_cases with
  | h0 => exact ⟨[], .nil⟩
  | h1 l a ih =>
    obtain ⟨q, ih⟩ := ih
    have hb := buf_shared D now (pre ++ l)
    rw [history_append] at hb
    dsimp only at hb
    have ho := pout (Process.run l (history D now pre).1).1 a
    generalize hs : Process.run l (history D now pre).1 = s at ho hb
    generalize hr : s.1.step a = r at ho
    have fin : ∀ x, r = s.1.serve x → ∃ q, Sim (history D now pre).1 (l ++ [a]) q := fun x e =>
      ⟨q ++ [x], .more ih (by rw [hs, hr, e]; rfl) (by rw [hs, hr, e]; simp [Process.serve])⟩
    have none : r = (s.1, []) → ∃ q, Sim (history D now pre).1 (l ++ [a]) q := fun e =>
      ⟨q, .same ih (by rw [hs, hr, e]) (by rw [hs, hr, e]; rfl)⟩
    cases ho with
    | dead => exact none rfl
    | busy => exact none rfl
    | @listen op hd lop h1 h2 =>
      rcases listen_buf s.1.listener lop with e | ⟨o, e⟩
      · refine ⟨q, .same ih ?_ ?_⟩
        · rw [hs, hr]; simp only [Process.listen]; rw [e, ← hb]
        · rw [hs, hr]; simp [Process.listen]
      · refine ⟨q ++ [.buffer o], .more ih ?_ ?_⟩
        · rw [hs, hr]; simp only [Process.listen, Server.step]; rw [e, ← hb]
        · rw [hs, hr]; simp [Process.listen, Server.step]
    | clock => exact fin _ rfl
    | goal => exact fin _ rfl
    | cancel => exact fin _ rfl
    | timer => exact fin _ rfl
    | check => exact fin _ rfl
    | call => exact fin _ rfl

theorem Sim.history [Rigid X] {D : Duration} {now : Time} {l : List (POp X)} {q : List (SOp X)}
    (h : Sim (history D now []).1 l q) : Server.history D now q = ((history D now l).1.server, serving (history D now l).2) := h.run

theorem Sim.append [Rigid X] {D : Duration} {now : Time} {l l' : List (POp X)} {q q' : List (SOp X)}
    (h : Sim (BufProg.history D now []).1 l q) (h' : Sim (BufProg.history D now l).1 l' q') :
    Server.history D now (q ++ q') = ((BufProg.history D now (l ++ l')).1.server, serving (BufProg.history D now (l ++ l')).2) := by
  unfold Server.history
  rw [srun_append]
  have := h.history
  unfold Server.history at this
  rw [this, history_append, srun_evs, h'.run, serving_append]

/-! ### Consequences for the server -/

theorem reachable [Rigid X] (D : Duration) (now : Time) (ops : List (POp X)) : Reachable D (history D now ops).1.server.buf := by
  obtain ⟨q, h⟩ := sim D now [] ops
  have := history_reach D now q
  rw [h.history] at this
  exact this

theorem sinv [Rigid X] (D : Duration) (now : Time) (ops : List (POp X)) :
    SInv (history D now ops).1.server (serving (history D now ops).2) := by
  obtain ⟨q, h⟩ := sim D now [] ops
  have := SInv.history D now q
  rw [h.history] at this
  exact this

/-! ### The main thread -/

/-- How many steps a call of `goalCB` can still make. -/
def GPhase.left : GPhase X → Nat
  | .accepted => 5
  | .ending _ => 4
  | .late _ => 3
  | .look => 2
  | .push _ => 1
  | .look2 _ => 1

/-- How many steps `checkTransforms` can still make with the goal it looks at, at most. -/
def CPhase.left : CPhase X → Nat
  | .fresh => 4
  | .late => 3
  | .look => 2
  | .look2 _ => 1

/-- How many steps the running callback can still make, at most. -/
def left (s : Server X) : Nat :=
  match s.check with
  | some c => 4 * (s.active.length - c.pos) + CPhase.left c.phase
  | none => match s.calls with
    | [] => 0
    | c :: _ => GPhase.left c.phase

/-- No callback runs. -/
def Idle (s : Server X) : Prop := s.calls = [] ∧ s.check = none

/-- At most one callback runs. -/
def Lone (s : Server X) : Prop := s.calls.length ≤ 1 ∧ (s.check ≠ none → s.calls = [])

theorem free_iff (s : Process X) : s.free = true ↔ Idle s.server ∧ s.listener.owner = .using := by
  unfold Process.free Idle
  simp [and_assoc]

theorem left_pos {s : Server X} (h : ¬ Idle s) : 0 < left s := by
  unfold left
  cases hk : s.check with
  | some c => dsimp only; cases c.phase <;> simp only [CPhase.left] <;> omega
  | none =>
    dsimp only
    cases hc : s.calls with
    | nil => exact absurd ⟨hc, hk⟩ h
    | cons c r => dsimp only; cases c.phase <;> simp [GPhase.left]

theorem left_idle {s : Server X} (h : Idle s) : left s = 0 := by
  unfold left; rw [h.2, h.1]

theorem check_left [Rigid X] {s : Server X} (hl : Lone s) {c : Check X} (hk : s.check = some c) (text : String) :
    left (s.checkStep text).1 < left s ∧ Lone (s.checkStep text).1 := by
  have hc : s.calls = [] := hl.2 (by rw [hk]; exact fun h => by cases h)
  have e0 : left s = 4 * (s.active.length - c.pos) + CPhase.left c.phase := by unfold left; rw [hk]
  have pos : 0 < left s := left_pos fun h => by rw [h.2] at hk; cases hk
  have stop : ∀ s' : Server X, s'.check = none → s'.calls = [] → left s' < left s ∧ Lone s' := by
    intro s' h1 h2
    rw [left_idle ⟨h2, h1⟩]
    exact ⟨pos, by rw [h2]; exact Nat.zero_le _, fun h => absurd h1 h⟩
  have go : ∀ (s' : Server X) (c' : Check X), s'.check = some c' → s'.calls = [] →
      4 * (s'.active.length - c'.pos) + CPhase.left c'.phase < left s → left s' < left s ∧ Lone s' := by
    intro s' c' h1 h2 h3
    refine ⟨?_, by rw [h2]; exact Nat.zero_le _, fun _ => h2⟩
    have : left s' = 4 * (s'.active.length - c'.pos) + CPhase.left c'.phase := by unfold left; rw [h1]
    omega
  unfold Server.checkStep
  rw [hk]
  dsimp only
  cases ha : s.active[c.pos]? with
  | none => exact stop _ rfl hc
  | some a =>
    have hlt : c.pos < s.active.length := by
      rcases Nat.lt_or_ge c.pos s.active.length with h | h
      · exact h
      · rw [List.getElem?_eq_none h] at ha; cases ha
    have done : ∀ r, (c.phase = .look ∨ ∃ m1, c.phase = .look2 m1) →
        left (s.checkDone c a r text).1 < left s ∧ Lone (s.checkDone c a r text).1 := by
      intro r hp
      unfold Server.checkDone
      split
      · refine go _ _ rfl hc ?_
        rw [e0]
        show 4 * ((s.active.eraseIdx c.pos).length - c.pos) + 4 < _
        rw [List.length_eraseIdx, if_pos hlt]
        have : 0 < CPhase.left c.phase := by
          rcases hp with h | ⟨m1, h⟩ <;> rw [h] <;> simp [CPhase.left]
        omega
      · exact stop _ rfl hc
    dsimp only
    cases hp : c.phase with
    | fresh =>
      dsimp only
      have e1 : left s = 4 * (s.active.length - c.pos) + 4 := by rw [e0, hp]; rfl
      split
      · refine go _ _ rfl hc ?_; rw [e1]; show 4 * (s.active.length - c.pos) + 2 < _; omega
      · refine go _ _ rfl hc ?_; rw [e1]; show 4 * (s.active.length - c.pos) + 3 < _; omega
      · exact stop _ rfl hc
      · exact stop _ rfl hc
    | late =>
      dsimp only
      have e1 : left s = 4 * (s.active.length - c.pos) + 3 := by rw [e0, hp]; rfl
      split
      · refine go _ _ rfl hc ?_; rw [e1]; show 4 * (s.active.length - c.pos) + 2 < _; omega
      · refine go _ _ rfl hc ?_; rw [e1]; show 4 * (s.active.length - (c.pos + 1)) + 4 < _; omega
    | look =>
      dsimp only
      have e1 : left s = 4 * (s.active.length - c.pos) + 2 := by rw [e0, hp]; rfl
      split
      · exact done _ (.inl hp)
      · refine go _ _ rfl hc ?_; rw [e1]; show 4 * (s.active.length - c.pos) + 1 < _; omega
    | look2 m1 => exact done _ (.inr ⟨m1, hp⟩)

theorem call_left [Rigid X] {s : Server X} (hl : Lone s) (hk : s.check = none) (text : String) :
    (left (s.goalStep 0 text).1 < left s ∨ Idle s ∧ (s.goalStep 0 text).1 = s) ∧ Lone (s.goalStep 0 text).1 := by
  unfold Server.goalStep
  cases hc : s.calls with
  | nil =>
    simp only [List.getElem?_nil]
    exact ⟨.inr ⟨⟨hc, hk⟩, trivial⟩, hl⟩
  | cons c r =>
    have hr : r = [] := by
      have := hl.1
      rw [hc] at this
      cases r with
      | nil => rfl
      | cons _ _ => simp at this
    subst hr
    have e0 : left s = GPhase.left c.phase := by unfold left; rw [hk, hc]
    have pos : 0 < left s := left_pos fun h => by rw [h.1] at hc; cases hc
    have stop : ∀ s' : Server X, s'.check = none → s'.calls = [] → (left s' < left s ∨ Idle s ∧ s' = s) ∧ Lone s' := by
      intro s' h1 h2
      rw [left_idle ⟨h2, h1⟩]
      exact ⟨.inl pos, by rw [h2]; exact Nat.zero_le _, fun h => absurd h1 h⟩
    have go : ∀ (s' : Server X) (c' : GCall X), s'.check = none → s'.calls = [c'] → GPhase.left c'.phase < left s →
        (left s' < left s ∨ Idle s ∧ s' = s) ∧ Lone s' := by
      intro s' c' h1 h2 h3
      refine ⟨.inl ?_, by rw [h2]; exact Nat.le_refl _, fun h => absurd h1 h⟩
      have : left s' = GPhase.left c'.phase := by unfold left; rw [h1, h2]
      omega
    have done : ∀ r, (left (s.goalDone 0 c r text).1 < left s ∨ Idle s ∧ (s.goalDone 0 c r text).1 = s) ∧
        Lone (s.goalDone 0 c r text).1 := by
      intro r
      unfold Server.goalDone
      split <;> exact stop _ hk (by show s.calls.eraseIdx 0 = []; rw [hc]; rfl)
    simp only [List.getElem?_cons_zero, List.set_cons_zero, List.eraseIdx_cons_zero]
    cases hp : c.phase with
    | accepted =>
      dsimp only
      split
      · exact go _ _ hk rfl (by rw [e0, hp]; show 4 < 5; omega)
      · exact stop _ hk rfl
    | ending e =>
      dsimp only
      split
      · exact go _ _ hk rfl (by rw [e0, hp]; show 2 < 4; omega)
      · exact go _ _ hk rfl (by rw [e0, hp]; show 3 < 4; omega)
      · exact stop _ hk rfl
      · exact stop _ hk rfl
    | late e =>
      dsimp only
      split
      · exact go _ _ hk rfl (by rw [e0, hp]; show 2 < 3; omega)
      · exact go _ _ hk rfl (by rw [e0, hp]; show 1 < 3; omega)
    | look =>
      dsimp only
      split
      · exact done _
      · exact go _ _ hk rfl (by rw [e0, hp]; show 1 < 2; omega)
    | look2 m1 => exact done _
    | push e =>
      dsimp only
      rw [hk]
      exact stop _ rfl rfl

/-- At most one callback runs. -/
theorem lone [Rigid X] (D : Duration) (now : Time) (ops : List (POp X)) : Lone (history D now ops).1.server := by
  induction ops using Spin.snoc_cases with
  | h0 => exact ⟨Nat.zero_le _, fun _ => rfl⟩
  | h1 l a ih =>
    rw [history_snoc]
    dsimp only
    have ho := pout (history D now l).1 a
    generalize (history D now l).1 = s at ih ho ⊢
    generalize s.step a = r at ho ⊢
    cases ho with
    | dead => exact ih
    | busy => exact ih
    | listen => exact ih
    | clock => exact ih
    | @goal hd hf g =>
      have h := ((free_iff s).1 hf).1
      refine ⟨?_, fun hk => absurd h.2 hk⟩
      show (s.server.calls ++ [_]).length ≤ 1
      rw [h.1]; exact Nat.le_refl _
    | @cancel hd hf id =>
      have h := ((free_iff s).1 hf).1
      have h1 : (s.server.cancel id).1.calls = s.server.calls ∧ (s.server.cancel id).1.check = s.server.check := by
        unfold Server.cancel; rw [h.2]; dsimp only; split <;> exact ⟨rfl, by first | rfl | exact h.2.symm | exact h.2⟩
      show Lone (s.server.cancel id).1
      unfold Lone
      rw [h1.1, h1.2]; exact ih
    | timer hd hf =>
      have h := ((free_iff s).1 hf).1
      show Lone s.server.checkStart.1
      unfold Server.checkStart
      rw [h.2]
      exact ⟨by show s.server.calls.length ≤ 1; rw [h.1]; exact Nat.zero_le _, fun _ => h.1⟩
    | @check hd text hf =>
      obtain ⟨c, hk⟩ := Option.isSome_iff_exists.1 hf
      exact (check_left ih hk text).2
    | @call hd text hf => exact (call_left ih hf text).2

/-- While a callback runs, every step of the main thread brings its end nearer and nothing else delays it. -/
theorem step_left [Rigid X] {s : Process X} (hl : Lone s.server) (hn : ¬ Idle s.server) (hd : s.dead = false) (op : POp X) :
    left (s.step op).1.server + spinCount [op] ≤ left s.server := by
  have nf : s.free = true → False := fun h => hn ((free_iff s).1 h).1
  have ho := pout s op
  generalize s.step op = r at ho ⊢
  have none : ∀ {op : POp X}, (∀ t, op ≠ .spin t) → spinCount [op] = 0 := by
    intro op h; cases op <;> first | rfl | exact absurd rfl (h _)
  cases ho with
  | dead h => rw [hd] at h; cases h
  | busy h1 h2 _ hs => rw [none hs]; exact Nat.le_refl _
  | @listen _ _ lop h1 h2 =>
    rw [none (by rintro t rfl; cases h1)]; exact Nat.le_refl _
  | clock => exact Nat.le_refl _
  | goal _ hf => exact (nf hf).elim
  | cancel _ hf => exact (nf hf).elim
  | timer _ hf => exact (nf hf).elim
  | @check _ text hf =>
    obtain ⟨c, hk⟩ := Option.isSome_iff_exists.1 hf
    exact (check_left hl hk text).1
  | @call _ text hf =>
    rcases (call_left hl hf text).1 with h | h
    · exact h
    · exact absurd h.1 hn

/-- After enough steps of the main thread the callback that runs has ended; `r'` is the first time. -/
theorem ends [Rigid X] (D : Duration) (now : Time) (l r : List (POp X)) (h : (history D now (l ++ r)).1.dead = false)
    (hn : left (history D now l).1.server ≤ spinCount r) :
    ∃ r', r' <+: r ∧ Idle (history D now (l ++ r')).1.server ∧
      ∀ r'', r'' <+: r' → r'' ≠ r' → ¬ Idle (history D now (l ++ r'')).1.server := by
  have main : (∃ r', r' <+: r ∧ Idle (history D now (l ++ r')).1.server) := by
    refine Classical.byContradiction fun hno => ?_
    have hno' : ∀ r', r' <+: r → ¬ Idle (history D now (l ++ r')).1.server := fun r' h1 h2 => hno ⟨r', h1, h2⟩
    have key : left (history D now (l ++ r)).1.server + spinCount r ≤ left (history D now l).1.server := by
      clear hn hno
      induction r using Spin.snoc_cases with
      | h0 => rw [List.append_nil]; exact Nat.le_refl _
      | h1 r a ih =>
        rw [← List.append_assoc] at h ⊢
        have := ih (alive_before h) fun r' hr' => hno' r' (hr'.trans (List.prefix_append _ _))
        have hs := step_left (lone D now (l ++ r)) (hno' r (List.prefix_append _ _)) (alive_before h) a
        rw [history_snoc]
        dsimp only
        have : spinCount (r ++ [a]) = spinCount r + spinCount [a] := List.countP_append ..
        omega
    have := left_pos (hno' r List.prefix_rfl)
    omega
  obtain ⟨r', h1, h2⟩ := main
  have least : ∀ n, ∀ r', r'.length = n → r' <+: r → Idle (history D now (l ++ r')).1.server → ∃ r', r' <+: r ∧ Idle (history D now (l ++ r')).1.server ∧
      ∀ r'', r'' <+: r' → r'' ≠ r' → ¬ Idle (history D now (l ++ r'')).1.server := by
    intro n
    induction n using Nat.strongRecOn with
    | _ n ih =>
      intro r' hlen h1 h2
      refine Classical.byContradiction fun hno => ?_
      refine hno ⟨r', h1, h2, fun r'' h3 h4 h5 => ?_⟩
      have hlt : r''.length < n := by
        rcases Nat.lt_or_ge r''.length n with h | h
        · exact h
        · exact absurd (List.IsPrefix.eq_of_length h3 (Nat.le_antisymm h3.length_le (by omega))) h4
      exact hno (ih _ hlt r'' rfl (h3.trans h1) h5)
  exact least _ r' rfl h1 h2

/-! ### Deadlines -/

/-- The step of the program that is a step of the server. -/
theorem Sim.split [Rigid X] {s : Process X} {l : List (POp X)} {q : List (SOp X)} {x : SOp X} (h : Sim s l (q ++ [x])) :
    ∃ l0 a, l0 ++ [a] <+: l ∧ Sim s l0 q ∧ Sim s (l0 ++ [a]) (q ++ [x]) := by
  generalize hq : q ++ [x] = q' at h
  induction h with
  | nil => simp at hq
  | same h h1 h2 ih =>
    obtain ⟨l0, a, i1, i2, i3⟩ := ih hq
    exact ⟨l0, a, i1.trans (List.prefix_append _ _), i2, i3⟩
  | @more l q' a x' h h1 h2 ih =>
    obtain ⟨e1, e2⟩ := List.append_inj' hq rfl
    subst e1
    exact ⟨l, a, List.prefix_rfl, h, .more h h1 h2⟩

theorem untouched_calls {s : Server X} {g : Goal} {id : Nat} (h : Untouched s g id) : s.calls ≠ [] := by
  intro e; unfold Untouched at h; rw [e] at h; cases h

/-- A step of the main thread in a goal's callback: it is not in its first phase any more. -/
theorem call_touched [Rigid X] {s : Server X} (hl : Lone s) (text : String) (g : Goal) (id : Nat) :
    ¬ Untouched (s.goalStep 0 text).1 g id := by
  have one : ∀ (s' : Server X) (c : GCall X), s'.calls = [c] → c.phase ≠ .accepted → ¬ Untouched s' g id := by
    intro s' c h1 h2 h3
    unfold Untouched at h3
    rw [h1, List.mem_singleton] at h3
    rw [← h3] at h2; exact h2 rfl
  have none : ∀ s' : Server X, s'.calls = [] → ¬ Untouched s' g id := fun s' h h' => untouched_calls h' h
  unfold Server.goalStep
  cases hc : s.calls with
  | nil => simp only [List.getElem?_nil]; exact none _ hc
  | cons c r =>
    have hr : r = [] := by
      have := hl.1
      rw [hc] at this
      cases r with
      | nil => rfl
      | cons _ _ => simp at this
    subst hr
    have done : ∀ r, ¬ Untouched (s.goalDone 0 c r text).1 g id := by
      intro r
      unfold Server.goalDone
      split <;> exact none _ (by show s.calls.eraseIdx 0 = []; rw [hc]; rfl)
    simp only [List.getElem?_cons_zero, List.set_cons_zero, List.eraseIdx_cons_zero]
    cases hp : c.phase with
    | accepted =>
      dsimp only
      split
      · exact one _ _ rfl (fun e => by cases e)
      · exact none _ rfl
    | ending e =>
      dsimp only
      split
      · exact one _ _ rfl (fun e => by cases e)
      · exact one _ _ rfl (fun e => by cases e)
      · exact none _ rfl
      · exact none _ rfl
    | late e =>
      dsimp only
      split
      · exact one _ _ rfl (fun e => by cases e)
      · exact one _ _ rfl (fun e => by cases e)
    | look =>
      dsimp only
      split
      · exact done _
      · exact one _ _ rfl (fun e => by cases e)
    | look2 m1 => exact done _
    | push e =>
      dsimp only
      split
      · exact one _ _ hc (by rw [hp]; exact fun e => by cases e)
      · exact none _ rfl

/-- A goal's callback that has made no step has just begun. -/
theorem untouched_begun [Rigid X] {D : Duration} {now : Time} {l : List (POp X)} {g : Goal} {id : Nat}
    (h : Untouched (history D now l).1.server g id) (hd : (history D now l).1.dead = false) :
    ∃ a b, l = a ++ .goal g :: b ∧ spinCount b = 0 ∧ PEv.served (.accepted id g) ∉ (history D now a).2 ∧
      PEv.served (.accepted id g) ∈ (history D now (a ++ [.goal g])).2 := by
  induction l using Spin.snoc_cases with
  | h0 => exact absurd rfl (untouched_calls h)
  | h1 l x ih =>
    have hdl := alive_before hd
    have more : Untouched (history D now l).1.server g id → spinCount [x] = 0 → ∃ a b, l ++ [x] = a ++ .goal g :: b ∧ spinCount b = 0 ∧
        PEv.served (.accepted id g) ∉ (history D now a).2 ∧ PEv.served (.accepted id g) ∈ (history D now (a ++ [.goal g])).2 := by
      intro h hx
      obtain ⟨a, b, rfl, h2, h3, h4⟩ := ih h hdl
      refine ⟨a, b ++ [x], by simp, ?_, h3, h4⟩
      show List.countP _ _ = 0
      rw [List.countP_append]
      unfold spinCount at h2 hx
      omega
    rw [history_snoc] at h
    dsimp only at h
    have ho := pout (history D now l).1 x
    have hlone := lone D now l
    have hst : (history D now (l ++ [x])).2 = (history D now l).2 ++ ((history D now l).1.step x).2 := by rw [history_snoc]
    have hknown := (sinv D now l).known
    generalize (history D now l).1 = s at ho h more hdl hlone hst hknown
    generalize s.step x = r at ho h hst
    have free : s.free = true → s.server.calls = [] := fun h => ((free_iff s).1 h).1.1
    have zero : ∀ {op : POp X}, (∀ t, op ≠ .spin t) → spinCount [op] = 0 := by
      intro op h; cases op <;> first | rfl | exact absurd rfl (h _)
    cases ho with
    | dead h' => rw [hdl] at h'; cases h'
    | busy _ _ _ hs => exact more h (zero hs)
    | @listen _ _ lop h1 h2 => exact more h (zero (by rintro t rfl; cases h1))
    | clock => exact more h rfl
    | @goal _ hf g' =>
      have h : ({ id := id, goal := g, phase := .accepted } : GCall X) ∈ s.server.calls ++ [{ id := s.server.next, goal := g', phase := .accepted }] := h
      rw [free hf] at h
      simp only [List.nil_append, List.mem_singleton] at h
      injection h with h1 h2
      subst h1 h2
      refine ⟨l, [], rfl, rfl, fun hm => ?_, ?_⟩
      · exact Nat.lt_irrefl _ ((hknown _).2 ⟨g, mem_serving.2 hm⟩)
      · rw [hst]
        exact List.mem_append_right _ (List.mem_singleton.2 rfl)
    | @cancel _ hf id' =>
      have h : ({ id := id, goal := g, phase := .accepted } : GCall X) ∈ (s.server.cancel id').1.calls := h
      have e : (s.server.cancel id').1.calls = s.server.calls := by
        unfold Server.cancel; repeat' split
        all_goals rfl
      rw [e, free hf] at h; cases h
    | timer _ hf =>
      have h : ({ id := id, goal := g, phase := .accepted } : GCall X) ∈ (s.server.checkStart).1.calls := h
      have e : (s.server.checkStart).1.calls = s.server.calls := by
        unfold Server.checkStart; split <;> rfl
      rw [e, free hf] at h; cases h
    | @check _ text hf =>
      obtain ⟨c, hk⟩ := Option.isSome_iff_exists.1 hf
      have hc := hlone.2 (by rw [hk]; exact fun e => by cases e)
      have := untouched_calls h
      have h1 := check_left hlone hk text
      refine absurd ?_ this
      have e : (s.server.checkStep text).1.calls = s.server.calls := by
        have hg : ∀ c a r, (s.server.checkDone c a r text).1.calls = s.server.calls := by
          intro c a r; unfold Server.checkDone; split <;> rfl
        unfold Server.checkStep
        repeat' split
        all_goals first | rfl | exact hg _ _ _
      exact e.trans hc
    | @call _ text hf => exact absurd h (call_touched hlone text g id)

/-- The first step of a goal's callback, in the server and in the program. -/
theorem goal_starts [Rigid X] {D : Duration} {now : Time} {l : List (POp X)} {q p0 : List (SOp X)} {g : Goal} {id : Nat}
    (hs : Sim (history D now []).1 l q) (h : FirstStep D now g id p0 q) :
    ∃ l0, GoalStarts D now id g l0 l ∧ (history D now l0).1.dead = false ∧ (history D now l0).1.server = (Server.history D now p0).1 := by
  obtain ⟨op, h1, h2, h3⟩ := h
  obtain ⟨l', i1, i2, -⟩ := hs.prefix h1
  obtain ⟨l0, x, j1, j2, j3⟩ := i2.split
  rw [j2.history] at h2
  rw [j3.history] at h3
  have hd : (history D now l0).1.dead = false := by
    cases hd : (history D now l0).1.dead with
    | false => rfl
    | true =>
      exfalso
      refine h3 ?_
      rw [history_snoc]
      dsimp only
      unfold Process.step
      rw [if_pos hd]; exact h2
  obtain ⟨a, b, e, k1, k2, k3⟩ := untouched_begun h2 hd
  have hx : ∃ text, x = .spin text := by
    rw [history_snoc] at h3
    dsimp only at h2 h3
    have ho := pout (history D now l0).1 x
    generalize (history D now l0).1 = s at ho h2 h3 hd
    generalize s.step x = r at ho h3
    have free : s.free = true → False := fun h => untouched_calls h2 ((free_iff s).1 h).1.1
    cases ho with
    | dead h' => rw [hd] at h'; cases h'
    | busy => exact absurd h2 h3
    | listen => exact absurd h2 h3
    | clock => exact absurd h2 h3
    | goal _ hf => exact (free hf).elim
    | cancel _ hf => exact (free hf).elim
    | timer _ hf => exact (free hf).elim
    | @check _ text => exact ⟨text, rfl⟩
    | @call _ text => exact ⟨text, rfl⟩
  obtain ⟨text, rfl⟩ := hx
  exact ⟨l0, ⟨a, b, text, e, j1.trans i1, k1, k2, k3⟩, hd, by rw [j2.history]⟩

theorem GoalStarts.mono [Rigid X] {D : Duration} {now : Time} {id : Nat} {g : Goal} {p0 l l' : List (POp X)}
    (h : GoalStarts D now id g p0 l) (hl : l <+: l') : GoalStarts D now id g p0 l' := by
  obtain ⟨a, b, text, h1, h2, h3⟩ := h
  exact ⟨a, b, text, h1, h2.trans hl, h3⟩

/-- The deadlines of the server are those of the program. -/
theorem goal_deadline [Rigid X] {D : Duration} {now : Time} {l : List (POp X)} {q : List (SOp X)} {g : Goal} {id : Nat} {e : Time}
    (hs : Sim (history D now []).1 l q) (h : Deadline D now g id e q) : GoalDeadline D now id g e l := by
  obtain ⟨p0, h1, h2⟩ := h
  obtain ⟨l0, i1, i2, i3⟩ := goal_starts hs h1
  rw [← i3, (listener_eq D now l0 i2).2.2] at h2
  exact ⟨l0, i1, h2⟩

end Tf2.BufProg
