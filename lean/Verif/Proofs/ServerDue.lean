import Verif.Proofs.BufferServer

/-!
# Buffer server: why and how goals are resolved
-/
namespace Tf2

variable {X : Type}

/-- It was time to look. -/
def WasDue [Rigid X] (D : Duration) (now : Time) (g : Goal) (id : Nat) (ops : List (SOp X)) : Prop :=
  ∃ p, p <+: ops ∧ Due D now g id p

/-- It was time to look, and the first half was done later. -/
def WasHalf [Rigid X] (D : Duration) (now : Time) (g : Goal) (id : Nat) (m1 : Msg X) (ops : List (SOp X)) : Prop :=
  ∃ p q, p <+: q ∧ q <+: ops ∧ Due D now g id p ∧ g.look1 (Server.history D now q).1.buf = .inr m1

/-- It was time to look, and the lookup gave this result. -/
def WasDone [Rigid X] (D : Duration) (now : Time) (g : Goal) (id : Nat) (r : Result X) (ops : List (SOp X)) : Prop :=
  ∃ p q1 q2 text, p <+: q1 ∧ q1 <+: q2 ∧ q2 <+: ops ∧ Due D now g id p ∧
    serverResult (g.lookupOver (Server.history D now q1).1.buf (Server.history D now q2).1.buf) text = some r

section
variable [Rigid X] {D : Duration} {now : Time} {g : Goal} {id : Nat} {ops ops' : List (SOp X)}

theorem Deadline.mono {e : Time} (h : Deadline D now g id e ops) (hp : ops <+: ops') : Deadline D now g id e ops' := by
  obtain ⟨p, ⟨op, h1, h2⟩, h3⟩ := h; exact ⟨p, ⟨op, h1.trans hp, h2⟩, h3⟩
theorem WasDue.mono (h : WasDue D now g id ops) (hp : ops <+: ops') : WasDue D now g id ops' := by
  obtain ⟨p, h1, h2⟩ := h; exact ⟨p, h1.trans hp, h2⟩
theorem WasHalf.mono {m1 : Msg X} (h : WasHalf D now g id m1 ops) (hp : ops <+: ops') : WasHalf D now g id m1 ops' := by
  obtain ⟨p, q, h0, h1, h2⟩ := h; exact ⟨p, q, h0, h1.trans hp, h2⟩
theorem WasDone.mono {r : Result X} (h : WasDone D now g id r ops) (hp : ops <+: ops') : WasDone D now g id r ops' := by
  obtain ⟨p, q, q2, t, h0, h1, h2, h3⟩ := h; exact ⟨p, q, q2, t, h0, h1, h2.trans hp, h3⟩
end

/-- What a call of `goalCB` knows in a phase. -/
def GKnows [Rigid X] (D : Duration) (now : Time) (g : Goal) (id : Nat) (ops : List (SOp X)) : GPhase X → Prop
  | .accepted => True
  | .ending e | .late e | .push e => Deadline D now g id e ops
  | .look => WasDue D now g id ops
  | .look2 m1 => WasHalf D now g id m1 ops

/-- What `checkTransforms` knows in a phase. -/
def CKnows [Rigid X] (D : Duration) (now : Time) (g : Goal) (id : Nat) (ops : List (SOp X)) : CPhase X → Prop
  | .fresh | .late => True
  | .look => WasDue D now g id ops
  | .look2 m1 => WasHalf D now g id m1 ops

theorem GKnows.mono [Rigid X] {D : Duration} {now : Time} {g : Goal} {id : Nat} {ops ops' : List (SOp X)} {p : GPhase X}
    (h : GKnows D now g id ops p) (hp : ops <+: ops') : GKnows D now g id ops' p := by
  cases p with
  | accepted => trivial
  | ending e | late e | push e => exact Deadline.mono h hp
  | look => exact WasDue.mono h hp
  | look2 m => exact WasHalf.mono h hp

theorem CKnows.mono [Rigid X] {D : Duration} {now : Time} {g : Goal} {id : Nat} {ops ops' : List (SOp X)} {p : CPhase X}
    (h : CKnows D now g id ops p) (hp : ops <+: ops') : CKnows D now g id ops' p := by
  cases p with
  | fresh | late => trivial
  | look => exact WasDue.mono h hp
  | look2 m => exact WasHalf.mono h hp

/-- Everything known at a moment. -/
structure JInv [Rigid X] (D : Duration) (now : Time) (ops : List (SOp X)) (s : Server X) (evs : List (SEv X)) : Prop where
  calls : ∀ c ∈ s.calls, SEv.accepted c.id c.goal ∈ evs ∧ GKnows D now c.goal c.id ops c.phase
  active : ∀ a ∈ s.active, SEv.accepted a.id a.goal ∈ evs ∧ Deadline D now a.goal a.id a.endTime ops
  check : ∀ c a, s.check = some c → s.active[c.pos]? = some a → CKnows D now a.goal a.id ops c.phase
  done : ∀ id r, SEv.succeeded id r ∈ evs → ∃ g, SEv.accepted id g ∈ evs ∧ WasDone D now g id r ops
  out : ∀ id, SEv.escaped id ∈ evs → ∃ g p, SEv.accepted id g ∈ evs ∧ FirstStep D now g id p ops ∧
    timeAdd (Server.history D now p).1.now g.timeout = none
  clean : SEv.undefined ∉ evs ∧ SEv.checkEscaped ∉ evs

theorem JInv.mono [Rigid X] {D : Duration} {now : Time} {ops ops' : List (SOp X)} {s : Server X} {evs evs' : List (SEv X)}
    (h : JInv D now ops s evs) (hp : ops <+: ops') (he : ∀ e ∈ evs, e ∈ evs')
    (hn : ∀ e ∈ evs', e ∈ evs ∨ ∃ i g, e = .accepted i g) : JInv D now ops' s evs' := by
  refine ⟨fun c hc => ⟨he _ (h.calls c hc).1, (h.calls c hc).2.mono hp⟩,
    fun a ha => ⟨he _ (h.active a ha).1, (h.active a ha).2.mono hp⟩,
    fun c a hc ha => (h.check c a hc ha).mono hp, fun id r hm => ?_, fun id hm => ?_, ?_, ?_⟩
  · rcases hn _ hm with hm | ⟨i, g, hm⟩
    · obtain ⟨g, h1, h2⟩ := h.done id r hm; exact ⟨g, he _ h1, h2.mono hp⟩
    · cases hm
  · rcases hn _ hm with hm | ⟨i, g, hm⟩
    · obtain ⟨g, p, h1, ⟨op, h2, h2'⟩, h3⟩ := h.out id hm; exact ⟨g, p, he _ h1, ⟨op, h2.trans hp, h2'⟩, h3⟩
    · cases hm
  · intro hm
    rcases hn _ hm with hm | ⟨i, g, hm⟩
    · exact h.clean.1 hm
    · cases hm
  · intro hm
    rcases hn _ hm with hm | ⟨i, g, hm⟩
    · exact h.clean.2 hm
    · cases hm

/-- One call changes its phase. -/
theorem JInv.setCall [Rigid X] {D : Duration} {now : Time} {ops : List (SOp X)} {s : Server X} {evs : List (SEv X)}
    (h : JInv D now ops s evs) {i : Nat} {c : GCall X} (hc : s.calls[i]? = some c) {p : GPhase X}
    (hk : GKnows D now c.goal c.id ops p) : JInv D now ops { s with calls := s.calls.set i { c with phase := p } } evs := by
  refine ⟨fun x hx => ?_, h.active, h.check, h.done, h.out, h.clean⟩
  rcases List.mem_or_eq_of_mem_set hx with hx | rfl
  · exact h.calls x hx
  · exact ⟨(h.calls c (List.mem_of_getElem? hc)).1, hk⟩

/-- One call returns. -/
theorem JInv.eraseCall [Rigid X] {D : Duration} {now : Time} {ops : List (SOp X)} {s : Server X} {evs : List (SEv X)}
    (h : JInv D now ops s evs) (i : Nat) : JInv D now ops { s with calls := s.calls.eraseIdx i } evs :=
  ⟨fun x hx => h.calls x (List.mem_of_mem_eraseIdx hx), h.active, h.check, h.done, h.out, h.clean⟩

/-- `checkTransforms` changes its phase. -/
theorem JInv.setCheck [Rigid X] {D : Duration} {now : Time} {ops : List (SOp X)} {s : Server X} {evs : List (SEv X)}
    (h : JInv D now ops s evs) {c : Option (Check X)}
    (hk : ∀ d a, c = some d → s.active[d.pos]? = some a → CKnows D now a.goal a.id ops d.phase) :
    JInv D now ops { s with check := c } evs :=
  ⟨h.calls, h.active, hk, h.done, h.out, h.clean⟩

/-- A goal succeeds. -/
theorem JInv.succeed [Rigid X] {D : Duration} {now : Time} {ops : List (SOp X)} {s : Server X} {evs : List (SEv X)}
    (h : JInv D now ops s evs) {id : Nat} {g : Goal} {r : Result X} (ha : SEv.accepted id g ∈ evs) (hd : WasDone D now g id r ops) :
    JInv D now ops s (evs ++ [.succeeded id r]) := by
  refine ⟨fun c hc => ⟨List.mem_append_left _ (h.calls c hc).1, (h.calls c hc).2⟩,
    fun a ha => ⟨List.mem_append_left _ (h.active a ha).1, (h.active a ha).2⟩, h.check, fun i x hm => ?_, fun i hm => ?_, ?_, ?_⟩
  · rcases List.mem_append.1 hm with hm | hm
    · obtain ⟨g, h1, h2⟩ := h.done i x hm; exact ⟨g, List.mem_append_left _ h1, h2⟩
    · simp at hm; rw [hm.1, hm.2]; exact ⟨g, List.mem_append_left _ ha, hd⟩
  · obtain ⟨g, p, h1, h2⟩ := h.out i (by simpa using hm); exact ⟨g, p, List.mem_append_left _ h1, h2⟩
  · simpa using h.clean.1
  · simpa using h.clean.2

/-- A call that has moved on is no longer in its first phase. -/
theorem moved {s : Server X} {evs : List (SEv X)} (h : SInv s evs) {i : Nat} {c : GCall X} (hc : s.calls[i]? = some c) {g : Goal} {l : List (GCall X)}
    (hl : (∃ p, p ≠ GPhase.accepted ∧ l = s.calls.set i { c with phase := p }) ∨ l = s.calls.eraseIdx i) :
    { id := c.id, goal := g, phase := .accepted } ∉ l := by
  have hnd : ∀ j d, s.calls[j]? = some d → d.id = c.id → j = i := by
    intro j d hj hid
    refine Classical.byContradiction fun hne => ?_
    have h1 : (s.calls.map GCall.id)[j]? = some c.id := by rw [List.getElem?_map, hj, ← hid]; rfl
    have h2 : (s.calls.map GCall.id)[i]? = some c.id := by rw [List.getElem?_map, hc]; rfl
    have hn : (s.calls.map GCall.id).Nodup := by
      rw [List.nodup_iff_count]
      intro a
      have e1 := h.acct a
      have e2 : (List.range s.next).count a ≤ 1 := List.nodup_iff_count.1 List.nodup_range a
      have e3 : (s.calls.map GCall.id).count a ≤ s.held a := by
        unfold Server.held Server.inCallback
        exact Nat.le_add_right _ _
      omega
    have hj' := (List.getElem?_eq_some_iff.1 h1).1
    exact hne ((List.getElem?_inj hj' hn).1 (h1.trans h2.symm))
  intro hm
  rcases hl with ⟨p, hp, rfl⟩ | rfl
  · obtain ⟨j, hj⟩ := List.getElem?_of_mem hm
    rw [List.getElem?_set] at hj
    split at hj
    · split at hj
      · injection hj with hj; injection hj with _ _ hj; exact hp hj
      · cases hj
    · rename_i hne
      exact hne (hnd j _ hj rfl).symm
  · obtain ⟨j, hne, hj⟩ := List.mem_eraseIdx_iff_getElem?.1 hm
    exact hne (hnd j _ hj rfl)

theorem SOut.jinv [Rigid X] {D : Duration} {now : Time} {ops : List (SOp X)} {r : Server X × List (SEv X)} (op : SOp X)
    (h : JInv D now ops (Server.history D now ops).1 (Server.history D now ops).2) (ho : SOut (Server.history D now ops).1 r)
    (hi : SInv (Server.history D now ops).1 (Server.history D now ops).2) (hn : (Server.history D now (ops ++ [op])).1 = r.1) :
    JInv D now (ops ++ [op]) r.1 ((Server.history D now ops).2 ++ r.2) := by
  have hp : ops <+: ops ++ [op] := List.prefix_append ..
  have up : ∀ {s' : Server X} {evs' : List (SEv X)}, JInv D now ops s' evs' → JInv D now (ops ++ [op]) s' evs' :=
    fun h => h.mono hp (fun _ h => h) (fun _ h => .inl h)
  have hp0 : ops <+: ops := List.prefix_refl _
  generalize hs : (Server.history D now ops).1 = s at *
  generalize he : (Server.history D now ops).2 = evs at *
  cases ho with
  | idle => simpa using up h
  | goal g =>
    refine up ⟨fun c hc => ?_, fun a ha => ⟨List.mem_append_left _ (h.active a ha).1, (h.active a ha).2⟩, h.check,
      fun i x hm => ?_, fun i hm => ?_, by simpa using h.clean.1, by simpa using h.clean.2⟩
    · rcases List.mem_append.1 hc with hc | hc
      · exact ⟨List.mem_append_left _ (h.calls c hc).1, (h.calls c hc).2⟩
      · rw [List.mem_singleton.1 hc]; exact ⟨by simp, trivial⟩
    · obtain ⟨g, h1, h2⟩ := h.done i x (by simpa using hm); exact ⟨g, List.mem_append_left _ h1, h2⟩
    · obtain ⟨g, p, h1, h2⟩ := h.out i (by simpa using hm); exact ⟨g, p, List.mem_append_left _ h1, h2⟩
  | ending i c hc e hph ht =>
    rw [List.append_nil]
    refine (up h).setCall hc ⟨ops, ⟨op, List.prefix_rfl, ?_, ?_⟩, by rw [hs]; exact ht⟩
    · rw [hs]
      have := List.mem_of_getElem? hc
      unfold Untouched; rw [← hph]; exact this
    · rw [hn]
      exact moved hi hc (.inl ⟨_, (fun e => by cases e), rfl⟩)
  | overflow i c hc hph ht =>
    have h' := up (h.eraseCall i)
    refine ⟨fun x hx => ⟨List.mem_append_left _ (h'.calls x hx).1, (h'.calls x hx).2⟩,
      fun a ha => ⟨List.mem_append_left _ (h'.active a ha).1, (h'.active a ha).2⟩, h'.check, fun i x hm => ?_, fun i hm => ?_,
      by simpa using h.clean.1, by simpa using h.clean.2⟩
    · obtain ⟨g, h1, h2⟩ := h'.done i x (by simpa using hm); exact ⟨g, List.mem_append_left _ h1, h2⟩
    · rcases List.mem_append.1 hm with hm | hm
      · obtain ⟨g, p, h1, h2⟩ := h'.out i hm; exact ⟨g, p, List.mem_append_left _ h1, h2⟩
      · simp at hm
        rw [hm]
        refine ⟨c.goal, ops, List.mem_append_left _ (h.calls c (List.mem_of_getElem? hc)).1, ⟨op, List.prefix_rfl, ?_, ?_⟩,
          by rw [hs]; exact ht⟩
        · rw [hs]
          have := List.mem_of_getElem? hc
          unfold Untouched; rw [← hph]; exact this
        · rw [hn]
          exact moved hi hc (.inr rfl)
  | avail i c hc e hph ha =>
    rw [List.append_nil]
    exact up (h.setCall hc ⟨ops, hp0, .inl (by rw [hs]; exact ha)⟩)
  | unavail i c hc e hph ha =>
    rw [List.append_nil]
    have := (h.calls c (List.mem_of_getElem? hc)).2
    rw [hph] at this
    exact up (h.setCall hc this)
  | expired i c hc e hph hle =>
    rw [List.append_nil]
    have := (h.calls c (List.mem_of_getElem? hc)).2
    rw [hph] at this
    exact up (h.setCall hc ⟨ops, hp0, .inr ⟨e, this, by rw [hs]; exact hle⟩⟩)
  | toPush i c hc e hph hle =>
    rw [List.append_nil]
    have := (h.calls c (List.mem_of_getElem? hc)).2
    rw [hph] at this
    exact up (h.setCall hc this)
  | half i c hc m1 hph hl =>
    rw [List.append_nil]
    have := (h.calls c (List.mem_of_getElem? hc)).2
    rw [hph] at this
    obtain ⟨p, h1, h2⟩ := this
    exact up (h.setCall hc ⟨p, ops, h1, hp0, h2, by rw [hs]; exact hl⟩)
  | done1 i c hc r hph hl text m hm =>
    have hk := h.calls c (List.mem_of_getElem? hc)
    rw [hph] at hk
    obtain ⟨p, h1, h2⟩ := hk.2
    refine up ((h.eraseCall i).succeed hk.1 ⟨p, ops, ops, text, h1, hp0, hp0, h2, ?_⟩)
    unfold Goal.lookupOver; rw [hs, hl]; exact hm
  | done2 i c hc m1 hph text m hm =>
    have hk := h.calls c (List.mem_of_getElem? hc)
    rw [hph] at hk
    obtain ⟨p, q, h1, h2, h3, h4⟩ := hk.2
    refine up ((h.eraseCall i).succeed hk.1 ⟨p, q, ops, text, h1, h2, hp0, h3, ?_⟩)
    unfold Goal.lookupOver; rw [hs, h4]; exact hm
  | push i c hc e hph hk =>
    rw [List.append_nil]
    have hkn := h.calls c (List.mem_of_getElem? hc)
    rw [hph] at hkn
    refine up ⟨(h.eraseCall i).calls, fun a ha => ?_, fun c a hc => ?_, h.done, h.out, h.clean⟩
    · rcases List.mem_append.1 ha with ha | ha
      · exact h.active a ha
      · rw [List.mem_singleton.1 ha]; exact ⟨hkn.1, hkn.2⟩
    · simp [hk] at hc
  | cancel i a ha hk =>
    refine up ⟨fun c hc => ⟨List.mem_append_left _ (h.calls c hc).1, (h.calls c hc).2⟩,
      fun a ha => ?_, fun c a hc => ?_, fun i x hm => ?_, fun i hm => ?_, by simpa using h.clean.1, by simpa using h.clean.2⟩
    · have := h.active a (List.mem_of_mem_eraseIdx ha)
      exact ⟨List.mem_append_left _ this.1, this.2⟩
    · simp [hk] at hc
    · obtain ⟨g, h1, h2⟩ := h.done i x (by simpa using hm); exact ⟨g, List.mem_append_left _ h1, h2⟩
    · obtain ⟨g, p, h1, h2⟩ := h.out i (by simpa using hm); exact ⟨g, p, List.mem_append_left _ h1, h2⟩
  | checkStart hk =>
    rw [List.append_nil]
    exact up (h.setCheck (by intro d a hd _; injection hd with hd; subst hd; trivial))
  | checkEnd c hk ha =>
    rw [List.append_nil]
    exact up (h.setCheck (by intro d a hd _; cases hd))
  | cAvail c hk a ha hph hv =>
    rw [List.append_nil]
    refine up (h.setCheck ?_)
    intro d a' hd ha'
    injection hd with hd; subst hd
    rw [ha] at ha'; injection ha' with ha'; subst ha'
    exact ⟨ops, hp0, .inl (by rw [hs]; exact hv)⟩
  | cUnavail c hk a ha hph hv =>
    rw [List.append_nil]
    exact up (h.setCheck (by intro d a hd _; injection hd with hd; subst hd; trivial))
  | cExpired c hk a ha hph hle =>
    rw [List.append_nil]
    refine up (h.setCheck ?_)
    intro d a' hd ha'
    injection hd with hd; subst hd
    rw [ha] at ha'; injection ha' with ha'; subst ha'
    exact ⟨ops, hp0, .inr ⟨_, (h.active a (List.mem_of_getElem? ha)).2, by rw [hs]; omega⟩⟩
  | cNext c hk a ha hph hle =>
    rw [List.append_nil]
    exact up (h.setCheck (by intro d a hd _; injection hd with hd; subst hd; trivial))
  | cHalf c hk a ha hph m1 hl =>
    rw [List.append_nil]
    refine up (h.setCheck ?_)
    intro d a' hd ha'
    injection hd with hd; subst hd
    rw [ha] at ha'; injection ha' with ha'; subst ha'
    have := h.check c a hk ha
    rw [hph] at this
    obtain ⟨p, h1, h2⟩ := this
    exact ⟨p, ops, h1, hp0, h2, by rw [hs]; exact hl⟩
  | cDone1 c hk a ha hph r hl text m hm =>
    have hkn := h.check c a hk ha
    rw [hph] at hkn
    obtain ⟨p, h1, h2⟩ := hkn
    have hj : JInv D now ops { s with active := s.active.eraseIdx c.pos, check := some { c with phase := .fresh } } evs :=
      ⟨h.calls, fun x hx => h.active x (List.mem_of_mem_eraseIdx hx),
        by intro d a hd _; injection hd with hd; subst hd; trivial, h.done, h.out, h.clean⟩
    refine up (hj.succeed (h.active a (List.mem_of_getElem? ha)).1 ⟨p, ops, ops, text, h1, hp0, hp0, h2, ?_⟩)
    unfold Goal.lookupOver; rw [hs, hl]; exact hm
  | cDone2 c hk a ha m1 hph text m hm =>
    have hkn := h.check c a hk ha
    rw [hph] at hkn
    obtain ⟨p, q, h1, h2, h3, h4⟩ := hkn
    have hj : JInv D now ops { s with active := s.active.eraseIdx c.pos, check := some { c with phase := .fresh } } evs :=
      ⟨h.calls, fun x hx => h.active x (List.mem_of_mem_eraseIdx hx),
        by intro d a hd _; injection hd with hd; subst hd; trivial, h.done, h.out, h.clean⟩
    refine up (hj.succeed (h.active a (List.mem_of_getElem? ha)).1 ⟨p, q, ops, text, h1, h2, hp0, h3, ?_⟩)
    unfold Goal.lookupOver; rw [hs, h4]; exact hm
  | clock t =>
    rw [List.append_nil]
    exact up ⟨h.calls, h.active, h.check, h.done, h.out, h.clean⟩
  | buffer o =>
    rw [List.append_nil]
    exact up ⟨h.calls, h.active, h.check, h.done, h.out, h.clean⟩

theorem JInv.history [Rigid X] (D : Duration) (now : Time) (ops : List (SOp X)) :
    JInv D now ops (Server.history D now ops).1 (Server.history D now ops).2 := by
  induction ops using snocInd with
  | h0 => exact ⟨by simp [Server.history, Server.run, Server.init], by simp [Server.history, Server.run, Server.init],
      by simp [Server.history, Server.run, Server.init], by simp [Server.history, Server.run], by simp [Server.history, Server.run],
      by simp [Server.history, Server.run]⟩
  | h l a ih =>
    have := SOut.jinv a ih (Server.step_out (history_reach D now l) a) (SInv.history D now l) (by rw [history_snoc])
    rw [history_snoc]; exact this

theorem history_more [Rigid X] (D : Duration) (now : Time) (p z : List (SOp X)) {e : SEv X} (h : e ∈ (Server.history D now p).2) :
    e ∈ (Server.history D now (p ++ z)).2 := by
  unfold Server.history at h ⊢
  rw [srun_append, srun_evs]
  exact List.mem_append_left _ h

/-- A goal that is no longer in its first phase never is again. -/
theorem touched [Rigid X] {D : Duration} {now : Time} {g : Goal} {id : Nat} {p q : List (SOp X)} (hpq : p <+: q)
    (hk : id < (Server.history D now p).1.next) (hp : ¬ Untouched (Server.history D now p).1 g id) :
    ¬ Untouched (Server.history D now q).1 g id := by
  obtain ⟨z, rfl⟩ := hpq
  induction z using snocInd generalizing p with
  | h0 => rw [List.append_nil]; exact hp
  | h z a ih =>
    have ih := ih hk hp
    have hn : id < (Server.history D now (p ++ z)).1.next := by
      obtain ⟨g', hg⟩ := ((SInv.history D now p).known id).1 hk
      refine ((SInv.history D now (p ++ z)).known id).2 ⟨g', ?_⟩
      exact history_more D now p z hg
    rw [← List.append_assoc, history_snoc]
    have ho := Server.step_out (history_reach D now (p ++ z)) a
    generalize (Server.history D now (p ++ z)).1 = s at ho ih hn
    dsimp only
    generalize s.step a = r at ho
    have set : ∀ i (c : GCall X) (p : GPhase X), p ≠ .accepted → ({ id := id, goal := g, phase := .accepted } : GCall X) ∉ s.calls.set i { c with phase := p } := by
      intro i c p hp hm
      rcases List.mem_or_eq_of_mem_set hm with h | h
      · exact ih h
      · injection h with _ _ h; exact hp h.symm
    have era : ∀ i, ({ id := id, goal := g, phase := .accepted } : GCall X) ∉ s.calls.eraseIdx i := fun i hm => ih (List.mem_of_mem_eraseIdx hm)
    cases ho with
    | goal g' =>
      intro hm
      rcases List.mem_append.1 hm with h | h
      · exact ih h
      · rw [List.mem_singleton] at h
        injection h with h
        omega
    | _ => first | exact ih | exact set _ _ _ (fun e => by cases e) | exact era _

/-- There is one first step. -/
theorem FirstStep.once [Rigid X] {D : Duration} {now : Time} {g : Goal} {id : Nat} {p p' ops : List (SOp X)}
    (h : FirstStep D now g id p ops) (h' : FirstStep D now g id p' ops) : p = p' := by
  obtain ⟨op, h1, h2, h3⟩ := h
  obtain ⟨op', h1', h2', h3'⟩ := h'
  have key : ∀ {p p' : List (SOp X)} {op op' : SOp X}, p ++ [op] <+: ops → p' ++ [op'] <+: ops →
      Untouched (Server.history D now p).1 g id → ¬ Untouched (Server.history D now (p ++ [op])).1 g id →
      Untouched (Server.history D now p').1 g id → p'.length ≤ p.length := by
    intro p p' op op' h1 h1' h2 h3 h2'
    refine Classical.byContradiction fun hlt => ?_
    have hpp : p ++ [op] <+: p' := List.prefix_of_prefix_length_le h1 ((List.prefix_append _ _).trans h1') (by simp; omega)
    have hk : id < (Server.history D now (p ++ [op])).1.next := by
      refine ((SInv.history D now _).known id).2 ⟨g, ?_⟩
      exact history_more D now p [op] ((JInv.history D now p).calls _ h2).1
    exact touched hpp hk h3 h2'
  have hle := key h1 h1' h2 h3 h2'
  have hge := key h1' h1 h2' h3' h2
  have := List.prefix_of_prefix_length_le ((List.prefix_append p [op]).trans h1) ((List.prefix_append p' [op']).trans h1') hge
  exact this.eq_of_length (Nat.le_antisymm hge hle)

/-- A goal has at most one deadline. -/
theorem Deadline.once [Rigid X] {D : Duration} {now : Time} {g : Goal} {id : Nat} {e e' : Time} {ops : List (SOp X)}
    (h : Deadline D now g id e ops) (h' : Deadline D now g id e' ops) : e = e' := by
  obtain ⟨p, h1, h2⟩ := h
  obtain ⟨p', h1', h2'⟩ := h'
  obtain rfl := h1.once h1'
  rw [h2] at h2'; injection h2'

end Tf2
