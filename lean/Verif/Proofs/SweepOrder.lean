import Verif.Spec.SweepOrder
import Verif.Proofs.RequestInv

/-! # The order in which the sweep answers -/
namespace Tf2

variable {X : Type}

section Lists
variable {α β : Type}

theorem lastFirst_concat (ps : List α) (y : α) : lastFirst (ps ++ [y]) = y :: ps := by
  cases ps with
  | nil => rfl
  | cons z zs =>
    simp only [List.cons_append, lastFirst]
    have h1 : ((z :: zs) ++ [y]).getLast (by simp) = y := List.getLast_append_of_ne_nil _ (by simp)
    have h2 : ((z :: zs) ++ [y]).dropLast = z :: zs := List.dropLast_concat
    simp only [List.cons_append] at h1 h2
    rw [h1, h2]

theorem lastFirst_perm (l : List α) : (lastFirst l).Perm l := by
  rcases List.eq_nil_or_concat l with rfl | ⟨ps, y, rfl⟩
  · exact List.Perm.refl _
  · rw [List.concat_eq_append, lastFirst_concat]
    exact (List.perm_append_singleton y ps).symm

theorem lastFirst_map (f : α → β) (l : List α) : lastFirst (l.map f) = (lastFirst l).map f := by
  rcases List.eq_nil_or_concat l with rfl | ⟨ps, y, rfl⟩
  · rfl
  · rw [List.concat_eq_append, List.map_append, List.map_singleton, lastFirst_concat, lastFirst_concat, List.map_cons]

/-- Induction along the scan. -/
theorem scan_ind {P : List α → Prop} (h0 : P []) (h1 : ∀ x rest, P rest → P (lastFirst rest) → P (x :: rest)) :
    ∀ l, P l := by
  have : ∀ n (l : List α), l.length ≤ n → P l := by
    intro n
    induction n with
    | zero => intro l hl; rw [List.length_eq_zero_iff.1 (by omega : l.length = 0)]; exact h0
    | succ n ih =>
      intro l hl
      cases l with
      | nil => exact h0
      | cons x rest =>
        simp only [List.length_cons] at hl
        exact h1 x rest (ih _ (by omega)) (ih _ (by rw [length_lastFirst]; omega))
  exact fun l => this l.length l (Nat.le_refl _)

theorem takenOut_cons (p : α → Bool) (x : α) (l : List α) :
    takenOut p (x :: l) = if p x then x :: takenOut p (lastFirst l) else takenOut p l := by rw [takenOut]

theorem leftWaiting_cons (p : α → Bool) (x : α) (l : List α) :
    leftWaiting p (x :: l) = if p x then leftWaiting p (lastFirst l) else x :: leftWaiting p l := by rw [leftWaiting]

theorem takenOut_nil (p : α → Bool) : takenOut p [] = [] := by rw [takenOut]
theorem leftWaiting_nil (p : α → Bool) : leftWaiting p [] = [] := by rw [leftWaiting]

theorem takenOut_perm (p : α → Bool) (l : List α) : (takenOut p l).Perm (l.filter p) := by
  induction l using scan_ind with
  | h0 => rw [takenOut_nil]; exact List.Perm.refl _
  | h1 x rest i1 i2 =>
    rw [takenOut_cons, List.filter_cons]
    cases p x with
    | true => exact (i2.trans ((lastFirst_perm rest).filter p)).cons x
    | false => exact i1

theorem leftWaiting_perm (p : α → Bool) (l : List α) : (leftWaiting p l).Perm (l.filter (fun x => !p x)) := by
  induction l using scan_ind with
  | h0 => rw [leftWaiting_nil]; exact List.Perm.refl _
  | h1 x rest i1 i2 =>
    rw [leftWaiting_cons, List.filter_cons]
    cases p x with
    | true => exact i2.trans ((lastFirst_perm rest).filter _)
    | false => exact i1.cons x

theorem takenOut_congr {p q : α → Bool} (l : List α) : (∀ x ∈ l, p x = q x) → takenOut p l = takenOut q l := by
  induction l using scan_ind with
  | h0 => intro _; rw [takenOut_nil, takenOut_nil]
  | h1 x rest i1 i2 =>
    intro h
    rw [takenOut_cons, takenOut_cons, h x (List.mem_cons_self ..),
      i1 (fun y hy => h y (List.mem_cons_of_mem _ hy)),
      i2 (fun y hy => h y (List.mem_cons_of_mem _ ((lastFirst_perm rest).mem_iff.1 hy)))]

theorem leftWaiting_congr {p q : α → Bool} (l : List α) :
    (∀ x ∈ l, p x = q x) → leftWaiting p l = leftWaiting q l := by
  induction l using scan_ind with
  | h0 => intro _; rw [leftWaiting_nil, leftWaiting_nil]
  | h1 x rest i1 i2 =>
    intro h
    rw [leftWaiting_cons, leftWaiting_cons, h x (List.mem_cons_self ..),
      i1 (fun y hy => h y (List.mem_cons_of_mem _ hy)),
      i2 (fun y hy => h y (List.mem_cons_of_mem _ ((lastFirst_perm rest).mem_iff.1 hy)))]

theorem takenOut_map (f : α → β) (p : β → Bool) (l : List α) :
    takenOut p (l.map f) = (takenOut (fun x => p (f x)) l).map f := by
  induction l using scan_ind with
  | h0 => rw [List.map_nil, takenOut_nil, takenOut_nil]; rfl
  | h1 x rest i1 i2 =>
    rw [List.map_cons, takenOut_cons, takenOut_cons, lastFirst_map, i1, i2]
    cases p (f x) <;> rfl

theorem leftWaiting_map (f : α → β) (p : β → Bool) (l : List α) :
    leftWaiting p (l.map f) = (leftWaiting (fun x => p (f x)) l).map f := by
  induction l using scan_ind with
  | h0 => rw [List.map_nil, leftWaiting_nil, leftWaiting_nil]; rfl
  | h1 x rest i1 i2 =>
    rw [List.map_cons, leftWaiting_cons, leftWaiting_cons, lastFirst_map, i1, i2]
    cases p (f x) <;> rfl

/-- When everything is due, the first is taken out first and the others from the last to the second. -/
theorem takenOut_all {p : α → Bool} : ∀ (n : Nat) (x : α) (l : List α), l.length ≤ n → (∀ y ∈ x :: l, p y = true) →
    takenOut p (x :: l) = x :: l.reverse := by
  intro n
  induction n with
  | zero =>
    intro x l hl h
    rw [List.length_eq_zero_iff.1 (by omega : l.length = 0), takenOut_cons, if_pos (h x (List.mem_cons_self ..))]
    simp only [lastFirst, takenOut_nil, List.reverse_nil]
  | succ n ih =>
    intro x l hl h
    rw [takenOut_cons, if_pos (h x (List.mem_cons_self ..))]
    rcases List.eq_nil_or_concat l with rfl | ⟨ps, y, rfl⟩
    · simp only [lastFirst, takenOut_nil, List.reverse_nil]
    · rw [List.concat_eq_append, lastFirst_concat, ih y ps (by simp at hl; omega) (fun z hz => h z (by
        rw [List.concat_eq_append]; grind))]
      simp

theorem takenOut_head (p : α → Bool) (l : List α) : (takenOut p l).head? = (l.filter p).head? := by
  induction l using scan_ind with
  | h0 => rw [takenOut_nil]; rfl
  | h1 x rest i1 _ =>
    rw [takenOut_cons, List.filter_cons]
    cases p x with
    | true => rfl
    | false => exact i1

theorem perm_short {l m : List α} (h : l.Perm m) (hl : m.length ≤ 1) : l = m := by
  match m, hl with
  | [], _ => exact h.eq_nil
  | [a], _ => exact List.perm_singleton.1 h

theorem takenOut_two (p : α → Bool) (l : List α) : (l.filter p).length ≤ 2 → takenOut p l = l.filter p := by
  induction l using scan_ind with
  | h0 => intro _; rw [takenOut_nil]; rfl
  | h1 x rest i1 _ =>
    intro h
    rw [takenOut_cons]
    rw [List.filter_cons] at h ⊢
    cases hp : p x with
    | true =>
      rw [hp] at h
      simp only [if_true, List.length_cons] at h ⊢
      rw [perm_short ((takenOut_perm p (lastFirst rest)).trans ((lastFirst_perm rest).filter p)) (by omega)]
    | false =>
      rw [hp] at h
      simp only [Bool.false_eq_true, if_false] at h ⊢
      exact i1 h

end Lists

/-- The loop's verdict takes the request out. -/
def Request.due (b : Buf X) (r : Request) : Bool :=
  decide (r.verdictIn b = .failure ∨ r.verdictIn b = .available)

theorem testIter_fire_at (b : Buf X) (cbs : List Nat) (pre rest tail : List Request) (r : Request)
    (calls : List Call) (locals : List (Option Bool)) (evs : List REv)
    (h : r.verdictIn b = .failure ∨ r.verdictIn b = .available) (hn : NamesFound b r) :
    ∃ tail' calls',
      testIter b cbs ⟨pre ++ r :: (rest ++ tail), pre.length + (rest.length + 1), pre.length, calls, locals, evs⟩ =
      .done ⟨pre ++ (lastFirst rest ++ tail'), pre.length + (lastFirst rest).length, pre.length, calls',
        locals ++ [none], evs ++ [firedEv b cbs r]⟩ := by
  have h1 : (pre ++ r :: (rest ++ tail))[pre.length]? = some r := by simp
  have h2 : (pre ++ r :: (rest ++ tail)).set pre.length (r.resolve b) =
      pre ++ r.resolve b :: (rest ++ tail) := by simp
  obtain ⟨⟨tn, htn⟩, ⟨sn, hsn⟩⟩ := hn
  have key : ∃ tail' back,
      (pre ++ r.resolve b :: (rest ++ tail))[pre.length + (rest.length + 1) - 1]? = some back ∧
      (if pre.length + (rest.length + 1) > 1 then
          (pre ++ r.resolve b :: (rest ++ tail)).set pre.length back
        else pre ++ r.resolve b :: (rest ++ tail)) = pre ++ (lastFirst rest ++ tail') := by
    rcases List.eq_nil_or_concat rest with rfl | ⟨ps, l, rfl⟩
    · refine ⟨r.resolve b :: tail, r.resolve b, ?_, ?_⟩
      · simp
      · simp [lastFirst]
    · refine ⟨l :: tail, l, ?_, ?_⟩
      · have : pre.length + ((ps.concat l).length + 1) - 1 = pre.length + (1 + ps.length) := by simp; omega
        rw [this]
        simp [Nat.add_comm 1 ps.length]
      · rw [if_pos (by simp; omega), List.concat_eq_append, lastFirst_concat]
        simp
  obtain ⟨tail', back, k3, k4⟩ := key
  have hsz : pre.length + (rest.length + 1) - 1 = pre.length + (lastFirst rest).length := by
    rw [length_lastFirst]; omega
  rw [hsz] at k3
  unfold Request.verdictIn at h
  by_cases hcb : r.cb ∈ cbs
  · refine ⟨tail', calls ++ [⟨r.cb, r.handle, tn, sn, pre.length, locals.length⟩], ?_⟩
    unfold testIter
    unfold firedEv Request.verdictIn
    rcases h with h | h <;>
      simp only [h1, h2, h, Request.resolve_time, Request.resolve_cb, Request.resolve_handle, k3, hcb, if_true, htn,
        hsn, k4, hsz]
  · refine ⟨tail', calls, ?_⟩
    unfold testIter
    unfold firedEv
    rcases h with h | h <;>
      simp only [h1, h2, h, Request.resolve_time, Request.resolve_cb, Request.resolve_handle, k3, hcb, if_false, k4, hsz]

theorem testLoop_order (b : Buf X) (cbs : List Nat) : ∀ (k : Nat) (rest pre tail : List Request)
    (calls : List Call) (locals : List (Option Bool)) (evs : List REv) (t : TestState), rest.length ≤ k →
    (∀ r ∈ rest, r.verdictIn b = .failure ∨ r.verdictIn b = .available → NamesFound b r) →
    testLoop b cbs k ⟨pre ++ (rest ++ tail), pre.length + rest.length, pre.length, calls, locals, evs⟩ = .done t →
    t.evs = evs ++ (takenOut (Request.due b) rest).map (firedEv b cbs) ∧
      t.mem.take t.size = pre ++ (leftWaiting (Request.due b) rest).map (Request.resolve b) := by
  intro k
  induction k with
  | zero =>
    intro rest pre tail calls locals evs t hk _ h
    have : rest = [] := List.length_eq_zero_iff.1 (by omega)
    subst this
    rw [testLoop] at h
    cases h
    rw [takenOut_nil, leftWaiting_nil]
    simp
  | succ k ih =>
    intro rest pre tail calls locals evs t hk hn h
    cases rest with
    | nil =>
      unfold testLoop at h
      rw [if_neg (by simp)] at h
      cases h
      rw [takenOut_nil, leftWaiting_nil]
      simp
    | cons r rs =>
      unfold testLoop at h
      rw [if_pos (by simp)] at h
      have hn' : ∀ r ∈ rs, r.verdictIn b = .failure ∨ r.verdictIn b = .available → NamesFound b r :=
        fun x hx => hn x (List.mem_cons_of_mem _ hx)
      have hlen : rs.length ≤ k := by simpa using hk
      rw [List.cons_append] at h
      rw [takenOut_cons, leftWaiting_cons]
      by_cases hv : r.verdictIn b = .failure ∨ r.verdictIn b = .available
      · have hd : Request.due b r = true := decide_eq_true hv
        obtain ⟨tail', calls', k1⟩ := testIter_fire_at b cbs pre rs tail r calls locals evs hv
          (hn r (List.mem_cons_self ..) hv)
        have hs : pre.length + (r :: rs).length = pre.length + (rs.length + 1) := by simp
        rw [hs, k1] at h
        simp only at h
        have := ih (lastFirst rs) pre tail' calls' (locals ++ [none]) (evs ++ [firedEv b cbs r]) t
          (by rw [length_lastFirst]; omega) (fun x hx => hn' x ((lastFirst_perm rs).mem_iff.1 hx)) h
        rw [if_pos hd, if_pos hd]
        exact ⟨by simpa using this.1, this.2⟩
      · have hd : ¬ Request.due b r = true := by simpa [Request.due] using hv
        cases hvv : r.verdictIn b with
        | failure => exact absurd (Or.inl hvv) hv
        | available => exact absurd (Or.inr hvv) hv
        | stay =>
          rw [testIter_stay b cbs pre rs tail r calls locals evs _ hvv] at h
          simp only at h
          have hs : pre.length + (r :: rs).length = (pre ++ [r.resolve b]).length + rs.length := by simp; omega
          rw [hs] at h
          have := ih rs (pre ++ [r.resolve b]) tail calls (locals ++ [none]) evs t hlen hn' h
          rw [if_neg hd, if_neg hd]
          exact ⟨this.1, by simpa using this.2⟩
        | threw e =>
          rw [testIter_threw b cbs pre rs tail r calls locals evs _ hvv] at h
          cases h
        | ub =>
          exfalso
          unfold testIter at h
          unfold Request.verdictIn at hvv
          have h1 : (pre ++ r :: (rs ++ tail))[pre.length]? = some r := by simp
          simp only [h1, Request.resolve_time, hvv] at h
          cases h

theorem testRun_order {b : Buf X} {cbs : List Nat} {reqs : List Request} {t : TestState}
    (hn : ∀ r ∈ reqs, r.verdictIn b = .failure ∨ r.verdictIn b = .available → NamesFound b r)
    (h : testRun b cbs reqs = .done t) :
    t.evs = (takenOut (Request.due b) reqs).map (firedEv b cbs) ∧
      t.mem.take t.size = (leftWaiting (Request.due b) reqs).map (Request.resolve b) := by
  have := testLoop_order b cbs reqs.length reqs [] [] [] [] [] t (Nat.le_refl _) hn
  simp only [List.append_nil, List.nil_append, List.length_nil, Nat.zero_add] at this
  exact this h

theorem answeredHandles_append (a b : List REv) :
    answeredHandles (a ++ b) = answeredHandles a ++ answeredHandles b := by
  induction a with
  | nil => rfl
  | cons e l ih => cases e <;> simp [answeredHandles, ih]

theorem extractedHandles_append (a b : List REv) :
    extractedHandles (a ++ b) = extractedHandles a ++ extractedHandles b := by
  induction a with
  | nil => rfl
  | cons e l ih => cases e <;> simp [extractedHandles, ih]

theorem answered_fired (b : Buf X) (cbs : List Nat) (l : List Request) :
    answeredHandles (l.map (firedEv b cbs)) = l.map Request.handle := by
  induction l with
  | nil => rfl
  | cons r l ih =>
    rw [List.map_cons, List.map_cons, ← ih]
    unfold firedEv
    by_cases h : r.cb ∈ cbs
    · rw [if_pos h]; rfl
    · rw [if_neg h]; rfl

theorem extracted_fired (b : Buf X) (cbs : List Nat) (l : List Request) :
    extractedHandles (l.map (firedEv b cbs)) =
      (l.filter (fun r => decide (r.cb ∈ cbs))).map Request.handle := by
  induction l with
  | nil => rfl
  | cons r l ih =>
    rw [List.map_cons, List.filter_cons]
    unfold firedEv
    by_cases h : r.cb ∈ cbs
    · rw [if_pos h, if_pos (by simpa using h), List.map_cons, ← ih]; rfl
    · rw [if_neg h, if_neg (by simpa using h), ← ih]; rfl

end Tf2
