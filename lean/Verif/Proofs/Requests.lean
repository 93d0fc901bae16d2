import Verif.Model.Requests
import Verif.Proofs.LookupOk

/-! # The request sweep and the request invariant -/
namespace Tf2

variable {X : Type}

/-- The verdict on a request as the loop computes it. -/
def Request.verdictIn (b : Buf X) (r : Request) : Verdict :=
  b.verdict (r.resolve b).tid (r.resolve b).sid r.time

/-- The event of a request leaving the vector. -/
def firedEv (b : Buf X) (cbs : List Nat) (r : Request) : REv :=
  if r.cb ∈ cbs then .extracted r.handle (decide (r.verdictIn b = .available)) else .dropped r.handle

/-- The names a request's ids stand for. -/
def NamesFound (b : Buf X) (r : Request) : Prop :=
  (∃ n, b.lookupFrameString (r.resolve b).tid = .ok n) ∧ ∃ n, b.lookupFrameString (r.resolve b).sid = .ok n

/-- What a call carries by value, compared with its request. -/
def CallFor (b : Buf X) (c : Call) (r : Request) : Prop :=
  c.cb = r.cb ∧ c.handle = r.handle ∧ b.lookupFrameString (r.resolve b).tid = .ok c.target ∧
    b.lookupFrameString (r.resolve b).sid = .ok c.source

theorem Request.resolve_time (b : Buf X) (r : Request) : (r.resolve b).time = r.time := rfl
theorem Request.resolve_cb (b : Buf X) (r : Request) : (r.resolve b).cb = r.cb := rfl
theorem Request.resolve_handle (b : Buf X) (r : Request) : (r.resolve b).handle = r.handle := rfl

/-- One iteration that keeps the request. -/
theorem testIter_stay (b : Buf X) (cbs : List Nat) (pre rest tail : List Request) (r : Request)
    (calls : List Call) (locals : List (Option Bool)) (evs : List REv) (sz : Nat)
    (h : r.verdictIn b = .stay) :
    testIter b cbs ⟨pre ++ r :: (rest ++ tail), sz, pre.length, calls, locals, evs⟩ =
      .done ⟨(pre ++ [r.resolve b]) ++ (rest ++ tail), sz, (pre ++ [r.resolve b]).length, calls,
        locals ++ [none], evs⟩ := by
  have h1 : (pre ++ r :: (rest ++ tail))[pre.length]? = some r := by simp
  have h2 : (pre ++ r :: (rest ++ tail)).set pre.length (r.resolve b) =
      (pre ++ [r.resolve b]) ++ (rest ++ tail) := by simp
  unfold testIter
  simp only [h1, h2]
  unfold Request.verdictIn at h
  rw [Request.resolve_time, h]
  simp

theorem testIter_threw (b : Buf X) (cbs : List Nat) (pre rest tail : List Request) (r : Request)
    (calls : List Call) (locals : List (Option Bool)) (evs : List REv) (sz : Nat) {e : Exc}
    (h : r.verdictIn b = .threw e) :
    testIter b cbs ⟨pre ++ r :: (rest ++ tail), sz, pre.length, calls, locals, evs⟩ =
      .threw ⟨pre ++ r.resolve b :: (rest ++ tail), sz, pre.length, calls, locals, evs⟩ e := by
  have h1 : (pre ++ r :: (rest ++ tail))[pre.length]? = some r := by simp
  have h2 : (pre ++ r :: (rest ++ tail)).set pre.length (r.resolve b) =
      pre ++ r.resolve b :: (rest ++ tail) := by simp
  unfold testIter
  simp only [h1, h2]
  unfold Request.verdictIn at h
  rw [Request.resolve_time, h]

/-- The vector after a request has been answered: the last element takes its place. -/
def afterFire : List Request → List Request
  | [] => []
  | ps => match ps.getLast? with
    | some l => l :: ps.dropLast
    | none => []

theorem testIter_fire (b : Buf X) (cbs : List Nat) (pre rest tail : List Request) (r : Request)
    (calls : List Call) (locals : List (Option Bool)) (evs : List REv)
    (h : r.verdictIn b = .failure ∨ r.verdictIn b = .available) (hn : NamesFound b r) :
    ∃ rest' tail' calls', rest'.length = rest.length ∧ rest'.Perm rest ∧
      testIter b cbs ⟨pre ++ r :: (rest ++ tail), pre.length + (rest.length + 1), pre.length, calls, locals, evs⟩ =
      .done ⟨pre ++ (rest' ++ tail'), pre.length + rest'.length, pre.length, calls', locals ++ [none],
        evs ++ [firedEv b cbs r]⟩ ∧
      ((r.cb ∈ cbs ∧ ∃ c, CallFor b c r ∧ calls' = calls ++ [c]) ∨ (r.cb ∉ cbs ∧ calls' = calls)) := by
  have h1 : (pre ++ r :: (rest ++ tail))[pre.length]? = some r := by simp
  have h2 : (pre ++ r :: (rest ++ tail)).set pre.length (r.resolve b) =
      pre ++ r.resolve b :: (rest ++ tail) := by simp
  obtain ⟨⟨tn, htn⟩, ⟨sn, hsn⟩⟩ := hn
  -- the slot of the last element
  have key : ∃ rest' tail' back, rest'.length = rest.length ∧ rest'.Perm rest ∧
      (pre ++ r.resolve b :: (rest ++ tail))[pre.length + (rest.length + 1) - 1]? = some back ∧
      (if pre.length + (rest.length + 1) > 1 then
          (pre ++ r.resolve b :: (rest ++ tail)).set pre.length back
        else pre ++ r.resolve b :: (rest ++ tail)) = pre ++ (rest' ++ tail') := by
    rcases List.eq_nil_or_concat rest with rfl | ⟨ps, l, rfl⟩
    · refine ⟨[], r.resolve b :: tail, r.resolve b, rfl, List.Perm.refl _, ?_, ?_⟩
      · simp
      · simp
    · refine ⟨l :: ps, l :: tail, l, by simp, ?_, ?_, ?_⟩
      · simpa using (List.perm_append_singleton l ps).symm
      · have : pre.length + ((ps.concat l).length + 1) - 1 = pre.length + (1 + ps.length) := by simp; omega
        rw [this]
        simp [List.getElem?_append, Nat.add_comm 1 ps.length]
      · rw [if_pos (by simp; omega)]
        simp
  obtain ⟨rest', tail', back, k1, k2, k3, k4⟩ := key
  have hsz : pre.length + (rest.length + 1) - 1 = pre.length + rest'.length := by rw [k1]; omega
  rw [hsz] at k3
  unfold Request.verdictIn at h
  by_cases hcb : r.cb ∈ cbs
  · refine ⟨rest', tail', calls ++ [⟨r.cb, r.handle, tn, sn, pre.length, locals.length⟩], k1, k2, ?_,
      Or.inl ⟨hcb, _, ⟨rfl, rfl, htn, hsn⟩, rfl⟩⟩
    unfold testIter
    unfold firedEv Request.verdictIn
    rcases h with h | h <;>
      simp only [h1, h2, h, Request.resolve_time, Request.resolve_cb, Request.resolve_handle, k3, hcb, if_true, htn,
        hsn, k4, hsz]
  · refine ⟨rest', tail', calls, k1, k2, ?_, Or.inr ⟨hcb, rfl⟩⟩
    unfold testIter
    unfold firedEv
    rcases h with h | h <;>
      simp only [h1, h2, h, Request.resolve_time, Request.resolve_cb, Request.resolve_handle, k3, hcb, if_false, k4, hsz]

/-- The calls collected for the answered requests. -/
def CallsFor (b : Buf X) (cbs : List Nat) (fired : List Request) (new : List Call) : Prop :=
  new.map Call.handle = (fired.filter (fun r => decide (r.cb ∈ cbs))).map Request.handle ∧
    ∀ c ∈ new, ∃ r ∈ fired, CallFor b c r


/-- What the loop does to the part `rest` of the vector it has not yet looked at. -/
def LoopOut (b : Buf X) (cbs : List Nat) (pre rest : List Request) (calls : List Call) (evs : List REv)
    (res : TestRes) : Prop :=
  ∃ (kept fired left : List Request) (new : List Call) (t : TestState),
    (kept ++ fired ++ left).Perm rest ∧
    (∀ r ∈ kept, r.verdictIn b = .stay) ∧
    (∀ r ∈ fired, r.verdictIn b = .failure ∨ r.verdictIn b = .available) ∧
    t.evs = evs ++ fired.map (firedEv b cbs) ∧ t.calls = calls ++ new ∧ CallsFor b cbs fired new ∧
    ((left = [] ∧ res = .done t ∧ t.mem.take t.size = pre ++ kept.map (Request.resolve b)) ∨
     (∃ r l e, left = r :: l ∧ r.verdictIn b = .threw e ∧ res = .threw t e ∧
       t.mem.take t.size = pre ++ kept.map (Request.resolve b) ++ r.resolve b :: l))

theorem testLoop_spec (b : Buf X) (cbs : List Nat) : ∀ (k : Nat) (rest pre tail : List Request)
    (calls : List Call) (locals : List (Option Bool)) (evs : List REv), rest.length ≤ k →
    (∀ r ∈ rest, r.verdictIn b ≠ .ub) →
    (∀ r ∈ rest, r.verdictIn b = .failure ∨ r.verdictIn b = .available → NamesFound b r) →
    LoopOut b cbs pre rest calls evs
      (testLoop b cbs k ⟨pre ++ (rest ++ tail), pre.length + rest.length, pre.length, calls, locals, evs⟩) := by
  intro k
  induction k with
  | zero =>
    intro rest pre tail calls locals evs hk _ _
    have : rest = [] := List.length_eq_zero_iff.1 (by omega)
    subst this
    exact ⟨[], [], [], [], _, List.Perm.refl _, by simp, by simp, by simp, by simp, ⟨rfl, by simp⟩,
      Or.inl ⟨rfl, rfl, by simp⟩⟩
  | succ k ih =>
    intro rest pre tail calls locals evs hk hub hn
    cases rest with
    | nil =>
      unfold testLoop
      rw [if_neg (by simp)]
      exact ⟨[], [], [], [], _, List.Perm.refl _, by simp, by simp, by simp, by simp, ⟨rfl, by simp⟩,
        Or.inl ⟨rfl, rfl, by simp⟩⟩
    | cons r rs =>
      unfold testLoop
      rw [if_pos (by simp)]
      have hub' : ∀ r ∈ rs, r.verdictIn b ≠ .ub := fun x hx => hub x (List.mem_cons_of_mem _ hx)
      have hn' : ∀ r ∈ rs, r.verdictIn b = .failure ∨ r.verdictIn b = .available → NamesFound b r :=
        fun x hx => hn x (List.mem_cons_of_mem _ hx)
      have hlen : rs.length ≤ k := by simpa using hk
      rw [List.cons_append]
      cases hv : r.verdictIn b with
      | ub => exact absurd hv (hub r (List.mem_cons_self ..))
      | stay =>
        rw [testIter_stay b cbs pre rs tail r calls locals evs _ hv]
        simp only
        have hs : pre.length + (r :: rs).length = (pre ++ [r.resolve b]).length + rs.length := by simp; omega
        rw [hs]
        obtain ⟨kept, fired, left, new, t, p1, p2, p3, p4, p5, p6, p7⟩ :=
          ih rs (pre ++ [r.resolve b]) tail calls (locals ++ [none]) evs hlen hub' hn'
        refine ⟨r :: kept, fired, left, new, t, ?_, ?_, p3, p4, p5, p6, ?_⟩
        · simpa using p1
        · intro x hx
          rcases List.mem_cons.1 hx with rfl | hx
          · exact hv
          · exact p2 x hx
        · rcases p7 with ⟨q1, q2, q3⟩ | ⟨r', l, e, q1, q2, q3, q4⟩
          · exact Or.inl ⟨q1, q2, by simpa using q3⟩
          · exact Or.inr ⟨r', l, e, q1, q2, q3, by simpa using q4⟩
      | threw e =>
        rw [testIter_threw b cbs pre rs tail r calls locals evs _ hv]
        simp only
        refine ⟨[], [], r :: rs, [], _, List.Perm.refl _, by simp, by simp, by simp, by simp, ⟨rfl, by simp⟩,
          Or.inr ⟨r, rs, e, rfl, hv, rfl, ?_⟩⟩
        have : pre ++ r.resolve b :: (rs ++ tail) = (pre ++ r.resolve b :: rs) ++ tail := by simp
        simp only [this]
        rw [List.take_append_of_le_length (by simp), List.take_of_length_le (by simp)]
        simp
      | _ =>
        all_goals
          have hf : r.verdictIn b = .failure ∨ r.verdictIn b = .available := by rw [hv]; simp
          obtain ⟨rest', tail', calls', k1, k2, k3, k4⟩ := testIter_fire b cbs pre rs tail r calls locals evs hf
            (hn r (List.mem_cons_self ..) hf)
          have hs : pre.length + (r :: rs).length = pre.length + (rs.length + 1) := by simp
          rw [hs, k3]
          simp only
          obtain ⟨kept, fired, left, new, t, p1, p2, p3, p4, p5, p6, p7⟩ :=
            ih rest' pre tail' calls' (locals ++ [none]) (evs ++ [firedEv b cbs r]) (by omega)
              (fun x hx => hub' x (k2.mem_iff.1 hx)) (fun x hx => hn' x (k2.mem_iff.1 hx))
          have hp : (kept ++ (r :: fired) ++ left).Perm (r :: rs) := by
            have : (kept ++ (r :: fired) ++ left).Perm (r :: (kept ++ fired ++ left)) := by
              simp only [List.append_assoc, List.cons_append]
              exact List.perm_middle
            exact this.trans ((p1.trans k2).cons r)
          have p3' : ∀ x ∈ r :: fired, x.verdictIn b = .failure ∨ x.verdictIn b = .available := by
            intro x hx
            rcases List.mem_cons.1 hx with rfl | hx
            · exact hf
            · exact p3 x hx
          rcases k4 with ⟨hcb, c, hc, rfl⟩ | ⟨hcb, rfl⟩
          · refine ⟨kept, r :: fired, left, c :: new, t, hp, p2, p3', by simpa using p4, by simpa using p5, ?_, p7⟩
            refine ⟨?_, ?_⟩
            · simp [hcb, p6.1, hc.2.1]
            · intro x hx
              rcases List.mem_cons.1 hx with rfl | hx
              · exact ⟨r, List.mem_cons_self .., hc⟩
              · obtain ⟨y, hy, hxy⟩ := p6.2 x hx
                exact ⟨y, List.mem_cons_of_mem _ hy, hxy⟩
          · refine ⟨kept, r :: fired, left, new, t, hp, p2, p3', by simpa using p4, p5, ?_, p7⟩
            refine ⟨?_, ?_⟩
            · simp [hcb, p6.1]
            · intro x hx
              obtain ⟨y, hy, hxy⟩ := p6.2 x hx
              exact ⟨y, List.mem_cons_of_mem _ hy, hxy⟩

/-- The whole sweep. -/
theorem testRun_spec (b : Buf X) (cbs : List Nat) (reqs : List Request)
    (hub : ∀ r ∈ reqs, r.verdictIn b ≠ .ub)
    (hn : ∀ r ∈ reqs, r.verdictIn b = .failure ∨ r.verdictIn b = .available → NamesFound b r) :
    LoopOut b cbs [] reqs [] [] (testRun b cbs reqs) := by
  have := testLoop_spec b cbs reqs.length reqs [] [] [] [] [] (Nat.le_refl _) hub hn
  simpa [testRun] using this

/-- The local variables the calls refer to are out of scope when the loop has ended. -/
theorem testIter_locals {b : Buf X} {cbs : List Nat} {s t : TestState} (h : testIter b cbs s = .done t)
    (h1 : ∀ x ∈ s.locals, x = none) (h2 : ∀ c ∈ s.calls, c.resultVar < s.locals.length) :
    (∀ x ∈ t.locals, x = none) ∧ ∀ c ∈ t.calls, c.resultVar < t.locals.length := by
  have g1 : ∀ x ∈ s.locals ++ [none], x = none := by
    intro x hx
    rcases List.mem_append.1 hx with hx | hx
    · exact h1 x hx
    · simpa using hx
  have g2 : ∀ c ∈ s.calls, c.resultVar < (s.locals ++ [none]).length := by
    intro c hc; have := h2 c hc; simp; omega
  unfold testIter at h
  dsimp only at h
  repeat' split at h
  all_goals
    first
    | (injection h with h
       subst h
       refine ⟨g1, ?_⟩
       first
       | exact g2
       | (intro c hc
          rcases List.mem_append.1 hc with hc | hc
          · exact g2 c hc
          · simp only [List.mem_singleton] at hc
            subst hc
            simp))
    | cases h

theorem testLoop_locals {b : Buf X} {cbs : List Nat} : ∀ (k : Nat) {s t : TestState},
    testLoop b cbs k s = .done t →
    (∀ x ∈ s.locals, x = none) → (∀ c ∈ s.calls, c.resultVar < s.locals.length) →
    (∀ x ∈ t.locals, x = none) ∧ ∀ c ∈ t.calls, c.resultVar < t.locals.length := by
  intro k
  induction k with
  | zero => intro s t h h1 h2; injection h with h; subst h; exact ⟨h1, h2⟩
  | succ k ih =>
    intro s t h h1 h2
    unfold testLoop at h
    by_cases hi : s.i < s.size
    · rw [if_pos hi] at h
      cases hd : testIter b cbs s with
      | ub => rw [hd] at h; cases h
      | threw s' e => rw [hd] at h; cases h
      | done s' =>
        rw [hd] at h
        obtain ⟨g1, g2⟩ := testIter_locals hd h1 h2
        exact ih h g1 g2
    · rw [if_neg hi] at h; injection h with h; subst h; exact ⟨h1, h2⟩

/-- The vector never outgrows its memory. -/
theorem testLoop_size {b : Buf X} {cbs : List Nat} : ∀ (k : Nat) {s t : TestState},
    testLoop b cbs k s = .done t → s.size ≤ s.mem.length → t.size ≤ t.mem.length := by
  intro k
  induction k with
  | zero => intro s t h h1; injection h with h; subst h; exact h1
  | succ k ih =>
    intro s t h h1
    unfold testLoop at h
    by_cases hi : s.i < s.size
    · rw [if_pos hi] at h
      cases hd : testIter b cbs s with
      | ub => rw [hd] at h; cases h
      | threw s' e => rw [hd] at h; cases h
      | done s' =>
        rw [hd] at h
        refine ih h ?_
        unfold testIter at hd
        dsimp only at hd
        repeat' split at hd
        all_goals
          first
          | (injection hd with hd; subst hd; simp only [List.length_set]; first | omega | (split <;> simp only [List.length_set] <;> omega))
          | cases hd
    · rw [if_neg hi] at h; injection h with h; subst h; exact h1

theorem testRun_size {b : Buf X} {cbs : List Nat} {reqs : List Request} {t : TestState}
    (h : testRun b cbs reqs = .done t) : t.size ≤ t.mem.length := testLoop_size _ h (Nat.le_refl _)

end Tf2
