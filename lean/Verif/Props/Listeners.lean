import Verif.Proofs.Listeners
import Verif.Spec.Toy
import Verif.Spec.Requests

/-!
# C88: listeners for changed transforms
-/
namespace Tf2

variable {X : Type}

theorem run_account [Rigid X] (later : List (SigOp X)) : ∀ {s : SigBuf X}, SigInv s → ∀ {c : Nat}, c ∈ s.slots →
    (SigOp.unlisten c ∉ later) →
    c ∈ (SigBuf.run later s).1.slots ∧
    ringsOf c (SigBuf.run later s).2 + (SigBuf.run later s).1.ringing.count c + (SigBuf.run later s).1.due ≤
      s.ringing.count c + s.due + acceptedIn (SigBuf.run later s).2 ∧
    (NoThrow (SigBuf.run later s).2 →
      ringsOf c (SigBuf.run later s).2 + (SigBuf.run later s).1.ringing.count c + (SigBuf.run later s).1.due =
      s.ringing.count c + s.due + acceptedIn (SigBuf.run later s).2) := by
  induction later with
  | nil =>
    intro s h c hc _
    have e : ringsOf c [] = 0 := rfl
    have e' : acceptedIn [] = 0 := rfl
    simp only [SigBuf.run]
    rw [e, e']
    exact ⟨hc, by omega, fun _ => by omega⟩
  | cons op r ih =>
    intro s h c hc hun
    obtain ⟨a1, a2, a3⟩ := step_account h hc (op := op) (fun d e he => hun (by rw [e, he]; exact List.mem_cons_self ..))
    obtain ⟨b1, b2, b3⟩ := ih (h.step op) a1 (fun hm => hun (List.mem_cons_of_mem _ hm))
    rw [run_cons]
    dsimp only
    rw [ringsOf_append, acceptedIn_append]
    refine ⟨b1, by omega, fun hn => ?_⟩
    rw [NoThrow.append] at hn
    have := a3 hn.1
    have := b3 hn.2
    omega

/-! ### C88 -/

/-- **C88, exact account.** Whatever happened before, while a listener stays connected and no call throws: the number of its
calls, with those still to come, is the number of transforms accepted (with those whose listeners were still to be told):
one call for each, none for anything else. -/
theorem C88_account [Rigid X] (D : Duration) (ops later : List (SigOp X)) {c : Nat} (hc : c ∈ (SigBuf.run ops (SigBuf.init D)).1.slots)
    (hun : SigOp.unlisten c ∉ later) (hn : NoThrow (SigBuf.run later (SigBuf.run ops (SigBuf.init D)).1).2) :
    let s := (SigBuf.run ops (SigBuf.init D)).1
    let s' := (SigBuf.run later s).1
    ringsOf c (SigBuf.run later s).2 + s'.ringing.count c + s'.due =
      s.ringing.count c + s.due + acceptedIn (SigBuf.run later s).2 :=
  (run_account later ((SigInv.init D).run ops) hc hun).2.2 hn

/-- **C88, no change goes unnoticed.** A listener is connected, then a transform is accepted, then anything happens (other
transforms, other threads, calls from the listener itself) but the listener is not disconnected. As soon as nothing is under
way, the listener has been called after that transform was stored. -/
theorem C88_told [Rigid X] (D : Duration) (ops later : List (SigOp X)) (m : Msg X) (a : Name) (st : Bool) {c : Nat}
    (hc : c ∈ (SigBuf.run ops (SigBuf.init D)).1.slots)
    (hacc : SigEv.core (.setDone .accepted) ∈ ((SigBuf.run ops (SigBuf.init D)).1.step (.core (.set m a st))).2)
    (hnt : NoThrow ((SigBuf.run ops (SigBuf.init D)).1.step (.core (.set m a st))).2)
    (hun : SigOp.unlisten c ∉ later)
    (hn : NoThrow (SigBuf.run later ((SigBuf.run ops (SigBuf.init D)).1.step (.core (.set m a st))).1).2)
    (hq : (SigBuf.run later ((SigBuf.run ops (SigBuf.init D)).1.step (.core (.set m a st))).1).1.Quiet) :
    SigEv.rang c ∈ (SigBuf.run later ((SigBuf.run ops (SigBuf.init D)).1.step (.core (.set m a st))).1).2 := by
  have hI := (SigInv.init (X := X) D).run ops
  generalize (SigBuf.run ops (SigBuf.init D)).1 = s at *
  have h1 := step_account hI hc (op := .core (.set m a st)) (fun d h => by cases h)
  have h2 := (run_account later (hI.step (.core (.set m a st))) h1.1 hun).2.2 hn
  have h3 := h1.2.2 hnt
  have e : ringsOf c (s.step (.core (.set m a st))).2 = 0 := rings_map_core c _
  have hpos : 0 < acceptedIn (s.step (.core (.set m a st))).2 := List.count_pos_iff.2 hacc
  rw [hq.1, hq.2, List.count_nil] at h2
  have : 0 < ringsOf c (SigBuf.run later (s.step (.core (.set m a st))).1).2 := by omega
  exact List.count_pos_iff.1 this

/-- **C88, no false alarms.** In every history, a listener is called at most as often as transforms are accepted; refused
transforms, `clear`, requests and lookups call nobody. -/
theorem C88_at_most [Rigid X] (D : Duration) (ops : List (SigOp X)) (c : Nat) :
    ringsOf c (SigBuf.run ops (SigBuf.init D : SigBuf X)).2 ≤ acceptedIn (SigBuf.run ops (SigBuf.init D : SigBuf X)).2 := by
  have key : ∀ (ops : List (SigOp X)) {s : SigBuf X}, SigInv s →
      ringsOf c (SigBuf.run ops s).2 + (SigBuf.run ops s).1.ringing.count c + (SigBuf.run ops s).1.due ≤
        s.ringing.count c + s.due + acceptedIn (SigBuf.run ops s).2 := by
    intro ops
    induction ops with
    | nil => intro s _; have e : ringsOf c [] = 0 := rfl; simp only [SigBuf.run]; rw [e]; omega
    | cons op r ih =>
      intro s h
      have b := ih (h.step op)
      rw [run_cons]
      dsimp only
      rw [ringsOf_append, acceptedIn_append]
      by_cases hc : c ∈ s.slots ∧ op ≠ .unlisten c
      · have := (step_account h hc.1 (op := op) (fun d e he => hc.2 (by rw [e, he]))).2.1
        omega
      · have hstep : ringsOf c (s.step op).2 + (s.step op).1.ringing.count c + (s.step op).1.due ≤
            s.ringing.count c + s.due + acceptedIn (s.step op).2 := by
          cases op with
          | core op =>
            obtain ⟨h1, _⟩ := stored_count s.core op
            simp only [SigBuf.step]
            rw [rings_map_core]
            split
            · rename_i hs; rw [if_pos hs] at h1; omega
            · omega
          | listen =>
            have e : ringsOf c [SigEv.listening s.next] = 0 := by unfold ringsOf; rw [List.count_eq_zero]; simp
            simp only [SigBuf.step]; rw [e]; omega
          | unlisten d => have e : ringsOf c [] = 0 := rfl; simp only [SigBuf.step]; rw [e]; omega
          | emit =>
            have hs : c ∉ s.slots := fun h' => hc ⟨h', fun e => by cases e⟩
            have e : ringsOf c [] = 0 := rfl
            simp only [SigBuf.step]
            split
            · dsimp only; rw [e]; omega
            · dsimp only; rw [e, List.count_append, List.count_eq_zero.2 hs]; omega
          | ring k =>
            have hs : c ∉ s.slots := fun h' => hc ⟨h', fun e => by cases e⟩
            have e : ringsOf c [] = 0 := rfl
            simp only [SigBuf.step]
            split
            · dsimp only; rw [e]; omega
            · rename_i d hd
              have := count_eraseIdx hd c
              dsimp only
              have e3 : ringsOf c (if d ∈ s.slots then [SigEv.rang d] else []) = 0 := by
                unfold ringsOf; rw [List.count_eq_zero]
                split
                · rename_i hd'; simp; intro e; subst e; exact hs hd'
                · simp
              rw [e3]; omega
        omega
  have := key ops (SigInv.init D)
  have e1 : (SigBuf.init D : SigBuf X).ringing.count c = 0 := rfl
  have e2 : (SigBuf.init D : SigBuf X).due = 0 := rfl
  omega

/-- **C88, disconnecting.** Once a listener has been disconnected it is never called again, even by an emission that was under
way. -/
theorem C88_disconnected [Rigid X] (D : Duration) (ops later : List (SigOp X)) {c : Nat}
    (hc : c ∈ (SigBuf.run ops (SigBuf.init D)).1.slots) :
    SigEv.rang c ∉ (SigBuf.run (.unlisten c :: later) (SigBuf.run ops (SigBuf.init D)).1).2 := by
  have hI := (SigInv.init (X := X) D).run ops
  generalize (SigBuf.run ops (SigBuf.init D)).1 = s at *
  have key : ∀ (later : List (SigOp X)) {s : SigBuf X}, c ∉ s.slots → c < s.next → SigEv.rang c ∉ (SigBuf.run later s).2 := by
    intro later
    induction later with
    | nil => intro s _ _; simp [SigBuf.run]
    | cons op r ih =>
      intro s h1 h2
      rw [run_cons]
      dsimp only
      rw [List.mem_append, not_or]
      cases op with
      | core op =>
        refine ⟨?_, ih h1 h2⟩
        intro h
        obtain ⟨_, _, h⟩ := List.mem_map.1 h
        cases h
      | listen =>
        refine ⟨by simp [SigBuf.step], ih ?_ ?_⟩
        · show c ∉ s.slots ++ [s.next]
          rw [List.mem_append, not_or]
          exact ⟨h1, by simp; omega⟩
        · show c < s.next + 1
          omega
      | unlisten d =>
        exact ⟨by simp [SigBuf.step], ih (fun h => h1 (List.mem_filter.1 h).1) h2⟩
      | emit =>
        simp only [SigBuf.step]
        split
        · exact ⟨by simp, ih h1 h2⟩
        · exact ⟨by simp, ih h1 h2⟩
      | ring k =>
        simp only [SigBuf.step]
        split
        · exact ⟨by simp, ih h1 h2⟩
        · rename_i d hd
          refine ⟨?_, ih h1 h2⟩
          dsimp only
          split
          · rename_i hd'; simp; intro e; subst e; exact h1 hd'
          · simp
  rw [run_cons]
  refine fun h => ?_
  rcases List.mem_append.1 h with h | h
  · cases h
  · refine key later (s := (s.step (.unlisten c)).1) ?_ (hI.lt c hc) h
    show c ∉ s.slots.filter (· ≠ c)
    simp

/-! ### A history -/

/-- Two listeners; the second one is disconnected while it is being told. -/
def ringOps : List (SigOp Int) :=
  [.listen, .listen, .core (.set (tmsg ['w'] ['a'] 10 1) ['p'] false), .emit, .unlisten 1,
   .core (.set (tmsg ['w'] ['a'] 10 2) ['p'] false), .core .clear, .ring 0, .ring 0]

/-- The hypotheses of the theorems are met by it: the first listener is called once, the second not at all, the refused
transform and `clear` call nobody. -/
example : (SigBuf.run ringOps (SigBuf.init 100)).1.Quiet ∧
    (SigBuf.run ringOps (SigBuf.init 100)).2 = [.listening 0, .listening 1, .core (.setDone .accepted), .core (.setDone .repeated), .rang 0] ∧
    0 ∈ (SigBuf.run (ringOps.take 2) (SigBuf.init 100)).1.slots ∧
    SigEv.core (.setDone .accepted) ∈ ((SigBuf.run (ringOps.take 2) (SigBuf.init 100)).1.step (.core (.set (tmsg ['w'] ['a'] 10 1) ['p'] false))).2 ∧
    SigOp.unlisten 0 ∉ ringOps ∧ NoThrow (SigBuf.run ringOps (SigBuf.init 100)).2 := by
  have e : (SigBuf.run ringOps (SigBuf.init 100)).2 =
      [.listening 0, .listening 1, .core (.setDone .accepted), .core (.setDone .repeated), .rang 0] := by decide
  refine ⟨⟨by decide, by decide⟩, e, by decide, by decide, by simp [ringOps], ?_⟩
  rw [e]
  exact ⟨fun x => by simp, by simp⟩

/-! ### Findings -/

/-- **C88, finding.** A pending request whose time overflows makes `setTransform` throw before the listeners are told: the
transform is in the buffer, nothing is under way, and the listener was not called. -/
theorem C88_throw_finding : ∃ (ops : List (SigOp Int)) (m : Msg Int),
    let s := (SigBuf.run ops (SigBuf.init 100)).1
    let s' := (s.step (.core (.set m ['p'] false))).1
    0 ∈ s.slots ∧ s'.Quiet ∧ SigEv.core (.setDone .accepted) ∈ (s.step (.core (.set m ['p'] false))).2 ∧
    s'.core.buf.canTransform ['w'] ['a'] 10 = .ok true := by
  refine ⟨[.listen, .core .addCallback, .core (.addRequest 1 ['a'] ['w'] TIME_MAX)], tmsg ['w'] ['a'] 10 1, ?_⟩
  exact ⟨by decide, ⟨by decide, by decide⟩, by decide, by decide⟩

/-- **C88, finding.** `clear` removes everything and tells no listener. -/
theorem C88_clear_finding : ∃ (ops : List (SigOp Int)),
    let s := (SigBuf.run ops (SigBuf.init 100)).1
    let s' := (s.step (.core .clear)).1
    0 ∈ s.slots ∧ s'.Quiet ∧ (s.step (.core .clear)).2 = [] ∧
    s.core.buf.canTransform ['w'] ['a'] 10 = .ok true ∧ s'.core.buf.canTransform ['w'] ['a'] 10 = .ok false := by
  refine ⟨[.listen, .core (.set (tmsg ['w'] ['a'] 10 1) ['p'] false), .emit, .ring 0], ?_⟩
  exact ⟨by decide, ⟨by decide, by decide⟩, by decide, by decide, by decide⟩

end Tf2
