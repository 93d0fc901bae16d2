import Verif.Proofs.Threads
import Verif.Spec.Toy

/-!
# C46: concurrent calls

Programs of single memory accesses (`Model/Threads.lean`), any number of threads, any schedule
(a list of `COp`: which thread makes its next access, or begins a call).
-/
namespace Tf2

variable {X : Type}

/-- An execution: the final state and the recorded events. -/
abbrev exec [Rigid X] (sched : List (COp (BCall X))) (b : Buf X) : Conc (Buf X) (Ans X) × List (CEv (BCall X) (Ans X)) :=
  Conc.run BCall.code sched (Conc.init b) []

/-- C46.  Whatever the schedule, as long as no argument check of a five-argument lookup happens while another
thread is inside the critical section: the events are those of an execution of the object in which every call has its
effect, and its answer, at one instant between its beginning and its return (five instants for the five-argument
lookup), by the sequential functions; and whenever the mutex is free the memory is that of the object. -/
theorem C46_linearizable [Rigid X] (sched : List (COp (BCall X))) (b : Buf X)
    (hp : ∀ t, CEv.peek t true ∉ (exec sched b).2) :
    ∃ S, Ser.Run BCall.script (Ser.init b) (exec sched b).2 S ∧
      ((exec sched b).1.owner = none → (exec sched b).1.mem = S.mem) := by
  obtain ⟨S, h1, h2⟩ := sim_run BCall.code BCall.script impl_call b sched hp
  refine ⟨S, h1, fun ho => ?_⟩
  unfold Sim at h2
  rw [ho] at h2
  exact h2.1

/-- C46.  When the mutex is free, the memory is the result of the `setTransform` and `clear` calls, each as a
whole, in the order in which they acquired the mutex; in particular it is a state some sequential history reaches. -/
theorem C46_memory [Rigid X] (sched : List (COp (BCall X))) (D : Duration)
    (hp : ∀ t, CEv.peek t true ∉ (exec (X := X) sched (Buf.init D)).2)
    (ho : (exec (X := X) sched (Buf.init D)).1.owner = none) :
    (exec (X := X) sched (Buf.init D)).1.mem = (Buf.init D).run (changesOf (exec (X := X) sched (Buf.init D)).2) ∧
      Reachable D (exec (X := X) sched (Buf.init D)).1.mem := by
  obtain ⟨S, h1, h2⟩ := C46_linearizable sched (Buf.init D) hp
  rw [h2 ho]
  exact ⟨(ser_inv h1).1, _, (ser_inv h1).1⟩

/-- C46.  Every call but the five-argument lookup: it acquires the mutex once, between its beginning and its
return, and its answer is the sequential answer after the changes whose calls acquired the mutex before; or it does
not acquire it, changes nothing, and its answer does not depend on the buffer. -/
theorem C46_answer [Rigid X] (sched : List (COp (BCall X))) (b : Buf X)
    (hp : ∀ t, CEv.peek t true ∉ (exec sched b).2)
    (t : Nat) (op : BCall X) (r : Ans X) (e1 e2 e3 : List (CEv (BCall X) (Ans X)))
    (hev : (exec sched b).2 = e1 ++ .inv t op :: e2 ++ .res t r :: e3) (he : ∀ e ∈ e2, e.ends t = false)
    (hop : op.fiveArg = false) :
    (∃ a c, e2 = a ++ .acq t :: c ∧ (∀ e ∈ a ++ c, e.of t = false) ∧
        r = op.answer (b.run (changesOf (e1 ++ .inv t op :: a)))) ∨
      ((∀ e ∈ e2, e.of t = false) ∧ ∀ m, op.answer m = r ∧ op.effect m = m) := by
  obtain ⟨S, h1, _⟩ := C46_linearizable sched b hp
  rw [hev] at h1
  obtain ⟨S', h2, _⟩ := ser_run_append (e1 ++ .inv t op :: e2 ++ [.res t r]) (b := e3) (by simpa using h1)
  exact answer_one h2 hop he

/-- C46.  The five-argument lookup: three checks and two lookups, each at a moment between beginning and
return, in this order, each seeing exactly the changes that acquired the mutex before that moment. -/
theorem C46_five_arg [Rigid X] (sched : List (COp (BCall X))) (b : Buf X)
    (hp : ∀ t, CEv.peek t true ∉ (exec sched b).2)
    (t : Nat) (tg : Name) (tt : Time) (src : Name) (st : Time) (fx : Name) (r : Ans X) (e1 e2 e3 : List (CEv (BCall X) (Ans X)))
    (hev : (exec sched b).2 = e1 ++ .inv t (.lookup5 tg tt src st fx) :: e2 ++ .res t r :: e3)
    (he : ∀ e ∈ e2, e.ends t = false) :
    ∃ i1 i2 i3 i4 i5, e1.length + 1 ≤ i1 ∧ i1 ≤ i2 ∧ i2 ≤ i3 ∧ i3 ≤ i4 ∧ i4 ≤ i5 ∧ i5 ≤ e1.length + 1 + e2.length ∧
      r = .msg (fiveAnswer (b.run (changesOf ((exec sched b).2.take i1))) (b.run (changesOf ((exec sched b).2.take i2)))
        (b.run (changesOf ((exec sched b).2.take i3))) (b.run (changesOf ((exec sched b).2.take i4)))
        (b.run (changesOf ((exec sched b).2.take i5))) tg tt src st fx) := by
  obtain ⟨S, h1, _⟩ := C46_linearizable sched b hp
  have h0 := h1
  rw [hev] at h1
  obtain ⟨S', h2, _⟩ := ser_run_append ((e1 ++ [.inv t (.lookup5 tg tt src st fx)]) ++ (e2 ++ [.res t r])) (b := e3) (by simpa using h1)
  obtain ⟨S1, hpre, h⟩ := ser_run_append _ h2
  have hq : S1.thr t = some (BCall.lookup5 tg tt src st fx : BCall X).script := by
    obtain ⟨S0, _, h1⟩ := ser_run_append e1 hpre
    have h1 := ser_run_one h1
    cases h1
    simp [Ser.set]
  have := answers_run (exec sched b).2 t r e2 _ S1 S' _ hpre hq h he (by
    intro i hi
    rw [hev, show e1 ++ CEv.inv t (BCall.lookup5 tg tt src st fx) :: e2 ++ CEv.res t r :: e3 =
      (e1 ++ [CEv.inv t (BCall.lookup5 tg tt src st fx)] ++ e2) ++ CEv.res t r :: e3 by simp]
    rw [List.take_append_of_le_length (by simp at hi ⊢; omega)])
  simp only [List.length_append, List.length_singleton] at this
  exact answers_five (by omega) this

/-- C46.  A five-argument lookup during which no change acquires the mutex is atomic. -/
theorem C46_five_arg_undisturbed [Rigid X] (sched : List (COp (BCall X))) (b : Buf X)
    (hp : ∀ t, CEv.peek t true ∉ (exec sched b).2)
    (t : Nat) (tg : Name) (tt : Time) (src : Name) (st : Time) (fx : Name) (r : Ans X) (e1 e2 e3 : List (CEv (BCall X) (Ans X)))
    (hev : (exec sched b).2 = e1 ++ .inv t (.lookup5 tg tt src st fx) :: e2 ++ .res t r :: e3)
    (he : ∀ e ∈ e2, e.ends t = false)
    (hquiet : ∀ i, e1.length + 1 ≤ i → i ≤ e1.length + 1 + e2.length → changesOf ((exec sched b).2.take i) = changesOf e1) :
    r = (BCall.lookup5 tg tt src st fx).answer (b.run (changesOf e1)) := by
  obtain ⟨i1, i2, i3, i4, i5, h1, h2, h3, h4, h5, h6, hr⟩ := C46_five_arg sched b hp t tg tt src st fx r e1 e2 e3 hev he
  rw [hquiet i1 (by omega) (by omega), hquiet i2 (by omega) (by omega), hquiet i3 (by omega) (by omega),
    hquiet i4 (by omega) (by omega), hquiet i5 (by omega) (by omega)] at hr
  exact hr

/-- Without five-argument lookups the hypothesis of the theorems above always holds. -/
theorem C46_no_peek [Rigid X] (sched : List (COp (BCall X))) (b : Buf X)
    (h5 : ∀ t op, COp.call t op ∈ sched → op.fiveArg = false) (t : Nat) :
    CEv.peek t true ∉ (exec sched b).2 :=
  (noPeek_run BCall.code sched b (fun t op h => noPeek_call op (h5 t op h))).2 t true

/-! ### Examples and findings -/

/-- A buffer with `s` and `t` under `f`. -/
def twoLegs : Buf Int := (Buf.init 100).run [put ['f'] ['s'] 10 1, put ['f'] ['t'] 10 2]

/-- `n` steps of thread `t`. -/
abbrev goes (t n : Nat) : List (COp (BCall Int)) := List.replicate n (.go t)

/-- New data for a child of `f`. -/
abbrev newData (c : Name) (x : Int) : BCall Int := .set ⟨['f'], c, 20, x⟩ ['u'] false

/-- Two threads write, one reads, step by step in turns. -/
def turns : List (COp (BCall Int)) :=
  [.call 0 (newData ['s'] 100), .call 1 (newData ['g'] 7), .call 2 (.lookup ['f'] ['s'] 0)] ++
    (List.replicate 30 [COp.go 0, .go 1, .go 2]).flatten

/-- The hypotheses of the theorems are met by an execution in which three calls overlap. -/
example : (∀ t, CEv.peek t true ∉ (exec turns twoLegs).2) ∧
    (exec turns twoLegs).1.owner = none ∧
    (exec turns twoLegs).2 = [.inv 0 (newData ['s'] 100), .inv 1 (newData ['g'] 7), .inv 2 (.lookup ['f'] ['s'] 0),
      .acq 0, .acq 1, .res 0 (.set .accepted), .acq 2, .res 1 (.set .accepted),
      .res 2 (.msg (.ok ⟨['f'], ['s'], 20, 100⟩))] ∧
    changesOf (exec turns twoLegs).2 = [put ['f'] ['s'] 20 100, put ['f'] ['g'] 20 7] := by
  refine ⟨C46_no_peek turns twoLegs ?_, by decide +kernel, by decide +kernel, by decide +kernel⟩
  intro t op h
  simp [turns] at h
  rcases h with ⟨_, rfl⟩ | ⟨_, rfl⟩ | ⟨_, rfl⟩ <;> rfl

/-- A five-argument lookup interrupted between its two lookups by two writers. -/
def torn : List (COp (BCall Int)) :=
  [.call 0 (.lookup5 ['t'] 0 ['s'] 0 ['f'])] ++ goes 0 10 ++
    [.call 1 (newData ['s'] 100)] ++ goes 1 12 ++ [.call 1 (newData ['t'] 1000)] ++ goes 1 12 ++ goes 0 20

/-- Finding: the five-argument lookup is not atomic.  Its answer combines the source leg from before both
writes with the target leg from after both; none of the three states the buffer was in gives that answer. -/
theorem C46_five_arg_finding :
    (∀ t, CEv.peek t true ∉ (exec torn twoLegs).2) ∧
    CEv.res 0 (.msg (.ok ⟨['t'], ['s'], 20, -999⟩)) ∈ (exec torn twoLegs).2 ∧
    changesOf (exec torn twoLegs).2 = [put ['f'] ['s'] 20 100, put ['f'] ['t'] 20 1000] ∧
    ∀ n, twoLegs.run ((changesOf (exec torn twoLegs).2).take n) |>.lookupTransform5 ['t'] 0 ['s'] 0 ['f'] |>
      (· ≠ .ok ⟨['t'], ['s'], 20, -999⟩) := by
  have hev : changesOf (exec torn twoLegs).2 = [put ['f'] ['s'] 20 100, put ['f'] ['t'] 20 1000] := by decide +kernel
  refine ⟨?_, by decide +kernel, hev, ?_⟩
  · intro t h
    have : ∀ e ∈ (exec torn twoLegs).2, (match e with | .peek _ true => true | _ => false) = false := by decide +kernel
    exact absurd (this _ h) (by simp)
  · rw [hev]
    intro n
    rcases n with _ | _ | n
    · decide +kernel
    · decide +kernel
    · have : List.take (n + 2) [put ['f'] ['s'] 20 100, put ['f'] ['t'] 20 1000] =
        [put ['f'] ['s'] 20 100, put ['f'] ['t'] 20 1000] := by simp
      rw [this]
      decide +kernel

/-- A five-argument lookup checks its arguments while `setTransform` is registering a new frame. -/
def racing : List (COp (BCall Int)) :=
  [.call 1 (.set ⟨['f'], ['n'], 20, 5⟩ ['u'] false)] ++ goes 1 4 ++ [.call 0 (.lookup5 ['n'] 0 ['s'] 0 ['f'])] ++ goes 0 2

/-- Finding: the argument checks of the five-argument lookup read `frameIDs_` without the mutex, also while
`setTransform` is changing it (in C++ a data race).  Here the check finds the new frame before `setTransform` has
finished: the name is in the map but not yet in the list of names. -/
theorem C46_race_finding :
    CEv.peek 0 true ∈ (exec racing twoLegs).2 ∧
    (exec racing twoLegs).1.owner = some 1 ∧
    (exec racing twoLegs).1.mem.frameExists ['n'] = true ∧
    ['n'] ∉ (exec racing twoLegs).1.mem.frameIDsReverse ∧
    ∀ r, CEv.res 0 r ∉ (exec racing twoLegs).2 := by
  refine ⟨by decide +kernel, by decide +kernel, by decide +kernel, by decide +kernel, fun r h => ?_⟩
  have : ∀ e ∈ (exec racing twoLegs).2, (match e with | .res 0 _ => true | _ => false) = false := by decide +kernel
  exact absurd (this _ h) (by simp)

/-- The hypotheses of `C46_five_arg` are met by the torn lookup. -/
example : (exec torn twoLegs).2 = [] ++ .inv 0 (.lookup5 ['t'] 0 ['s'] 0 ['f']) ::
      [.peek 0 false, .peek 0 false, .peek 0 false, .acq 0, .inv 1 (newData ['s'] 100), .acq 1, .res 1 (.set .accepted),
        .inv 1 (newData ['t'] 1000), .acq 1, .res 1 (.set .accepted), .acq 0] ++
      .res 0 (.msg (.ok ⟨['t'], ['s'], 20, -999⟩)) :: [] := by decide +kernel

end Tf2
