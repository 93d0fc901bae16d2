import Verif.Proofs.FilterWait
import Verif.Props.Requests

/-! # No message waits in vain: every orderly step -/
namespace Tf2

variable {X : Type}

/-- Invariant of orderly runs. -/
structure WInv (D : Duration) (s : Filt X) : Prop where
  rinv : RInv D s.rb s.revs
  cbIn : s.cb ∈ s.rb.cbs
  waits : Awaits s.rb.live s.revs s.cb s.targets s.tol s.msgs s.adding
  exp : s.expected = s.targets.length * Filt.perTarget s.tol

theorem WInv.congr {D : Duration} {s s' : Filt X} (h : WInv D s) (h1 : s'.rb = s.rb) (h2 : s'.revs = s.revs)
    (h3 : s'.cb = s.cb) (h4 : s'.targets = s.targets) (h5 : s'.tol = s.tol) (h6 : s'.expected = s.expected)
    (h7 : s'.msgs = s.msgs) (h8 : s'.adding = s.adding) : WInv D s' := by
  obtain ⟨a, b, c, d⟩ := h
  constructor
  · rw [h1, h2]; exact a
  · rw [h1, h3]; exact b
  · rw [h1, h2, h3, h4, h5, h7, h8]; exact c
  · rw [h4, h5, h6]; exact d

theorem deliver_revs (s : Filt X) (o : Out) : (s.deliver o).1.revs = s.revs ∧ (s.deliver o).1.cb = s.cb := by
  unfold Filt.deliver; split <;> exact ⟨rfl, rfl⟩

theorem WInv.deliver {D : Duration} {s : Filt X} (h : WInv D s) (o : Out) : WInv D (s.deliver o).1 := by
  obtain ⟨-, q2, q3, -, -, q6, q7, q8, q9⟩ := s.deliver_parts o
  obtain ⟨r1, r2⟩ := deliver_revs s o
  exact h.congr q6 r1 r2 q7 q8 q9 q3 q2

theorem Progress.ask1 {T : List Name} {tol : Duration} {a b : Adding} (h : Progress T tol a) {t : Name} {ts : List Name}
    (hr : a.rest = t :: ts) (hs : a.second = false) (hm : b.msg = a.msg)
    (hn : b.success + b.handles.length = a.success + a.handles.length + 1)
    (hb : tol = 0 ∧ b.rest = ts ∧ b.second = false ∨ tol ≠ 0 ∧ b.rest = t :: ts ∧ b.second = true) :
    Progress T tol b := by
  obtain ⟨done, e1, e2, e3, e4⟩ := h
  rw [hs] at e2
  simp only [Bool.false_eq_true, if_false, Nat.add_zero] at e2
  rcases hb with ⟨h0, h1, h2⟩ | ⟨h0, h1, h2⟩
  · refine ⟨done ++ [t], ?_, ?_, ?_, ?_⟩
    · rw [e1, hr, h1]; simp
    · rw [hn, e2, h2]; simp [Filt.perTarget, h0]
    · rw [h2]; simp
    · intro _ h; exact absurd h0 h
  · refine ⟨done, ?_, ?_, ?_, ?_⟩
    · rw [e1, hr, h1]
    · rw [hn, e2, h2]; simp
    · intro _; rw [h1]; exact ⟨h0, by simp⟩
    · rw [hm]; exact e4

theorem Progress.ask2 {T : List Name} {tol : Duration} {a b : Adding} (h : Progress T tol a) {t : Name} {ts : List Name}
    (hr : a.rest = t :: ts) (hs : a.second = true) (hm : b.msg = a.msg) {t2 : Time}
    (h2 : timeAdd a.msg.stamp tol = some t2)
    (hn : b.success + b.handles.length = a.success + a.handles.length + 1)
    (hb1 : b.rest = ts) (hb2 : b.second = false) : Progress T tol b := by
  obtain ⟨done, e1, e2, e3, e4⟩ := h
  rw [hs] at e2
  simp only [if_true] at e2
  obtain ⟨h0, -⟩ := e3 hs
  refine ⟨done ++ [t], ?_, ?_, ?_, ?_⟩
  · rw [e1, hr, hb1]; simp
  · rw [hn, e2, hb2]; simp [Filt.perTarget, h0]; omega
  · rw [hb2]; simp
  · rw [hm]; intro _ _; exact ⟨t2, h2⟩

/-- The answer to one request of `add`. -/
theorem WInv.answer [Rigid X] {D : Duration} {s : Filt X} (h : WInv D s) {i : Nat} {a a' : Adding}
    (ha : s.adding[i]? = some a) {t : Name} {tm : Time} {ro : RBuf X × List REv} (hro : ro = s.rb.addRequest s.cb t a.msg.frame tm)
    (ho : AddOut D s.rb s.cb t a.msg.frame tm ro.1 ro.2)
    (hlim : (addedHandles (s.addAnswer i a a' ro).1.revs).length < 2 ^ 32) (hm : a'.msg = a.msg)
    (hT : t ∈ s.targets) (htm : tm = a.msg.stamp ∨ s.tol ≠ 0 ∧ timeAdd a.msg.stamp s.tol = some tm)
    (hp1 : Progress s.targets s.tol { a' with success := a.success + 1, handles := a.handles })
    (hp2 : ∀ k, Progress s.targets s.tol { a' with success := a.success, handles := a.handles ++ [k] })
    (hh : a'.handles = a.handles) (hsu : a'.success = a.success) :
    WInv D (s.addAnswer i a a' ro).1 := by
  have hrevs : (s.addAnswer i a a' ro).1.revs = s.revs ++ ro.2 := by
    unfold Filt.addAnswer
    simp only
    split <;> first | rfl | exact (deliver_revs _ _).1
  rw [hrevs] at hlim
  have hlim' : (addedHandles (s.revs ++ ro.2)).length < 2 ^ 64 - 1 := by omega
  have hri : RInv D ro.1 (s.revs ++ ro.2) := by
    rw [hro] at hlim' ⊢; exact h.rinv.addRequest s.cb t a.msg.frame tm hlim'
  have hlive : ∀ k cb t' src' tm', REv.added k cb t' src' tm' ∈ s.revs → (k ∈ ro.1.live ↔ k ∈ s.rb.live) :=
    fun k cb t' src' tm' hk => addOut_live ho h.rinv hlim' hk
  have hw : Awaits ro.1.live (s.revs ++ ro.2) s.cb s.targets s.tol s.msgs s.adding := by
    refine h.waits.mono (fun e he => List.mem_append_left _ he) ?_
    intro k hk
    rcases mem_allHandles.1 hk with ⟨m, hm, hk⟩ | ⟨x, hx, hk⟩
    · obtain ⟨t', tm', k1, -⟩ := h.waits.asked m hm k hk
      exact hlive k _ _ _ _ k1
    · obtain ⟨t', tm', k1, -⟩ := h.waits.askedA x hx k hk
      exact hlive k _ _ _ _ k1
  obtain ⟨rb, new⟩ := ro
  simp only at ho hri hw hlive hlim' ⊢
  have imm : rb.cbs = s.rb.cbs → WInv D { s.buf (rb, new) with adding := s.adding.set i { a' with success := a.success + 1 } } := by
    intro hcbs
    refine ⟨hri, by show s.cb ∈ rb.cbs; rw [hcbs]; exact h.cbIn, ?_, h.exp⟩
    refine hw.immediate ha hm hh ?_
    rw [← hh] at hp1; exact hp1
  have erase : rb.cbs = s.rb.cbs → WInv D { s.buf (rb, new) with adding := s.adding.eraseIdx i } := by
    intro hcbs
    exact ⟨hri, by show s.cb ∈ rb.cbs; rw [hcbs]; exact h.cbIn, hw.sub (List.Sublist.refl _) (List.eraseIdx_sublist ..), h.exp⟩
  cases ho with
  | same _ => exact imm rfl
  | now _ _ => exact imm rfl
  | never _ _ _ => exact (erase rfl).deliver _
  | threw _ _ _ _ => exact erase rfl
  | pending hne hc hno r hr =>
    refine ⟨hri, h.cbIn, ?_, h.exp⟩
    refine hw.handle (b := { a' with handles := a.handles ++ [(RBuf.nextHandle s.rb.reqCounter).2] }) ha hm rfl ?_ ?_ ?_ ?_
    · have := hp2 (RBuf.nextHandle s.rb.reqCounter).2; rw [← hsu] at this; exact this
    · intro hk
      have hle : (RBuf.nextHandle s.rb.reqCounter).2 ≤ s.rb.reqCounter := by
        rcases mem_allHandles.1 hk with ⟨m, hm, hk⟩ | ⟨x, hx, hk⟩
        · obtain ⟨t', tm', k1, -⟩ := h.waits.asked m hm _ hk
          exact (h.rinv.le_counter k1).2
        · obtain ⟨t', tm', k1, -⟩ := h.waits.askedA x hx _ hk
          exact (h.rinv.le_counter k1).2
      rw [addedHandles_append, h.rinv.added] at hlim'
      simp only [addedHandles, List.length_append, List.length_range', List.length_cons, List.length_nil] at hlim'
      have hnext : (RBuf.nextHandle s.rb.reqCounter).2 = s.rb.reqCounter + 1 := by
        unfold RBuf.nextHandle
        have : (s.rb.reqCounter + 1) % 2 ^ 64 = s.rb.reqCounter + 1 := Nat.mod_eq_of_lt (by omega)
        simp only [this]
        rw [if_neg (by omega)]
      omega
    · rw [mem_live]
      exact .inl ⟨r, by simp, by rw [hr]⟩
    · exact ⟨t, tm, by simp, hT, htm⟩

theorem cancelAll_rinv [Rigid X] {D : Duration} (hs : List Nat) : ∀ (s : Filt X), RInv D s.rb s.revs →
    RInv D (s.cancelAll hs).rb (s.cancelAll hs).revs ∧ (∀ e ∈ s.revs, e ∈ (s.cancelAll hs).revs) ∧
      (s.cancelAll hs).cb = s.cb := by
  induction hs with
  | nil => intro s h; exact ⟨h, fun _ h => h, rfl⟩
  | cons k r ih =>
    intro s h
    have h1 : RInv D (s.rb.cancelRequest k).1 (s.revs ++ [.cancelled k]) := by
      refine h.filterReqs (.cancelled k) (fun r => decide (r.handle ≠ k % 2 ^ 32)) rfl rfl rfl rfl rfl rfl rfl
        (by simp) ?_
      intro r _ hp
      left
      simp only [ne_eq, decide_not, Bool.not_eq_eq_eq_not, Bool.not_false, decide_eq_true_eq] at hp
      exact ⟨k, rfl, hp.symm⟩
    obtain ⟨a, b, c⟩ := ih (s.buf (s.rb.cancelRequest k)) h1
    exact ⟨a, fun e he => b e (List.mem_append_left _ he), c⟩

theorem WInv.next [Rigid X] {D : Duration} {s : Filt X} (h : WInv D s) (hc : Counted s) (i : Nat)
    (hlim : (addedHandles (s.addNext i).1.revs).length < 2 ^ 32) (hsm : s.rb.reqCounter < 2 ^ 32) :
    WInv D (s.addNext i).1 := by
  unfold Filt.addNext at hlim ⊢
  cases ha : s.adding[i]? with
  | none => exact h
  | some a =>
    rw [ha] at hlim
    have hmem := List.mem_of_getElem? ha
    have hprog := h.waits.prog a hmem
    have her : WInv D { s with adding := s.adding.eraseIdx i } :=
      ⟨h.rinv, h.cbIn, h.waits.sub (List.Sublist.refl _) (List.eraseIdx_sublist ..), h.exp⟩
    simp only at hlim ⊢
    cases hr : a.rest with
    | nil =>
      simp only
      have ho := Filt.addFinish_out (s := { s with adding := s.adding.eraseIdx i }) hc a
      generalize ({ s with adding := s.adding.eraseIdx i } : Filt X).addFinish a = r at ho
      cases ho with
      | pass _ => exact her.deliver _
      | queue hne _ =>
        simp only at hne
        rw [h.exp] at hne
        exact ⟨h.rinv, h.cbIn, h.waits.queue ha hr hne, h.exp⟩
      | push hne _ _ f r hm =>
        simp only at hne hm
        rw [h.exp] at hne
        have hq := h.waits.queue ha hr hne
        have hsub : Awaits s.rb.live s.revs s.cb s.targets s.tol
            (r ++ [{ msg := a.msg, handles := a.handles, success := a.success }]) (s.adding.eraseIdx i) := by
          refine hq.sub ?_ (List.Sublist.refl _)
          rw [hm, List.cons_append]
          exact List.sublist_cons_self ..
        obtain ⟨c1, c2, c3⟩ := cancelAll_rinv f.handles ({ s with adding := s.adding.eraseIdx i } : Filt X) h.rinv
        obtain ⟨-, p2, p3, -, -, -, -, -, p9, p10, p11, p12⟩ :=
          Filt.cancelAll_parts f.handles ({ s with adding := s.adding.eraseIdx i } : Filt X)
        have hw : WInv D { ({ s with adding := s.adding.eraseIdx i } : Filt X).cancelAll f.handles with
            msgs := r ++ [{ msg := a.msg, handles := a.handles, success := a.success }], count := s.count - 1 + 1 } := by
          refine ⟨c1, by simp only [p9, c3]; exact h.cbIn, ?_, by simp only [p10, p11, p12]; exact h.exp⟩
          simp only [p10, p11, p2, c3]
          refine hsub.mono c2 ?_
          intro k hk
          refine cancelAll_live f.handles _ ?_
          intro x hx
          have hxk : x ≠ k := by
            rintro rfl
            have hnd := hq.nodup
            rw [hm] at hnd
            unfold allHandles at hnd hk
            rw [List.cons_append, List.flatMap_cons, List.append_assoc] at hnd
            exact (List.nodup_append.1 hnd).2.2 x hx x hk rfl
          obtain ⟨t', tm', k1, -⟩ := h.waits.asked f (by rw [hm]; exact List.mem_cons_self ..) x hx
          have := (h.rinv.le_counter k1).2
          rw [Nat.mod_eq_of_lt (by omega)]
          exact hxk
        generalize hg : ({ s with adding := s.adding.eraseIdx i } : Filt X).cancelAll f.handles = g at *
        obtain ⟨-, q2, q3, -, -, q6, q7, q8, q9⟩ := g.deliver_parts ⟨f.msg.id, some .unknown⟩
        obtain ⟨r1, r2⟩ := deliver_revs g ⟨f.msg.id, some .unknown⟩
        exact hw.congr q6 r1 r2 q7 q8 q9 rfl q2
    | cons t ts =>
      simp only
      rw [hr] at hlim
      simp only at hlim
      have hT : t ∈ s.targets := by
        obtain ⟨done, e1, -⟩ := hprog
        rw [e1, hr]; simp
      cases hs : a.second with
      | true =>
        rw [hs, if_pos rfl] at hlim
        rw [if_pos rfl]
        cases h2 : timeAdd a.msg.stamp s.tol with
        | none => exact her
        | some t2 =>
          rw [h2] at hlim
          simp only at hlim ⊢
          have h0 : s.tol ≠ 0 := by
            obtain ⟨done, -, -, e3, -⟩ := hprog
            exact (e3 hs).1
          refine h.answer ha rfl (addRequest_out h.rinv.wf ..) hlim rfl hT (.inr ⟨h0, h2⟩) ?_ ?_ rfl rfl
          · exact hprog.ask2 hr hs rfl h2 (by simp; omega) rfl rfl
          · intro k; exact hprog.ask2 hr hs rfl h2 (by simp; omega) rfl rfl
      | false =>
        rw [hs, if_neg (by simp)] at hlim
        rw [if_neg (by simp)]
        refine h.answer ha rfl (addRequest_out h.rinv.wf ..) hlim ?_ hT (.inl rfl) ?_ ?_ ?_ ?_
        · split <;> rfl
        · by_cases h0 : s.tol = 0
          · simp only [if_pos h0]
            exact hprog.ask1 hr hs rfl (by simp; omega) (.inl ⟨h0, rfl, rfl⟩)
          · simp only [if_neg h0]
            exact hprog.ask1 hr hs rfl (by simp; omega) (.inr ⟨h0, rfl, rfl⟩)
        · intro k
          by_cases h0 : s.tol = 0
          · simp only [if_pos h0]
            exact hprog.ask1 hr hs rfl (by simp; omega) (.inl ⟨h0, rfl, rfl⟩)
          · simp only [if_neg h0]
            exact hprog.ask1 hr hs rfl (by simp; omega) (.inr ⟨h0, rfl, rfl⟩)
        · split <;> rfl
        · split <;> rfl

theorem invoke_live {D : Duration} {s : RBuf X} {evs : List REv} (h : RInv D s evs) {i : Nat} {c : Call}
    (hc : s.inflight[i]? = some c) (k : Nat) :
    k ∈ ({ s with inflight := s.inflight.eraseIdx i } : RBuf X).live ↔ k ∈ s.live ∧ k ≠ c.handle := by
  have hp := (eraseIdx_perm hc).map Call.handle
  rw [List.map_cons] at hp
  have hcnt : cnt s evs c.handle ≤ 1 := by
    have := h.count c.handle
    have h2 := h.nodup.count (a := c.handle)
    split at h2 <;> omega
  have hnot : c.handle ∉ ({ s with inflight := s.inflight.eraseIdx i } : RBuf X).live := by
    intro hin
    have := List.count_pos_iff.2 hin
    have h3 := hp.count_eq c.handle
    simp only [cnt, RBuf.live, RBuf.pending, RBuf.scheduled, List.count_append, List.count_cons_self] at this hcnt h3
    omega
  constructor
  · intro hk
    refine ⟨?_, fun e => hnot (e ▸ hk)⟩
    rw [mem_live] at hk ⊢
    rcases hk with hk | ⟨x, hx, e⟩
    · exact .inl hk
    · exact .inr ⟨x, List.mem_of_mem_eraseIdx hx, e⟩
  · rintro ⟨hk, hne⟩
    rw [mem_live] at hk ⊢
    rcases hk with hk | ⟨x, hx, e⟩
    · exact .inl hk
    · right
      have : k ∈ c.handle :: (s.inflight.eraseIdx i).map Call.handle := hp.mem_iff.2 (List.mem_map.2 ⟨x, hx, e⟩)
      rcases List.mem_cons.1 this with h1 | h1
      · exact absurd h1 hne
      · obtain ⟨y, hy, e'⟩ := List.mem_map.1 h1
        exact ⟨y, hy, e'⟩

/-- Handles of messages held were asked for with the filter's callback. -/
theorem WInv.mine {D : Duration} {s : Filt X} (h : WInv D s) {k : Nat} (hk : k ∈ allHandles s.msgs s.adding) :
    ∃ t src tm, REv.added k s.cb t src tm ∈ s.revs := by
  rcases mem_allHandles.1 hk with ⟨m, hm, hk⟩ | ⟨x, hx, hk⟩
  · obtain ⟨t', tm', k1, -⟩ := h.waits.asked m hm k hk
    exact ⟨_, _, _, k1⟩
  · obtain ⟨t', tm', k1, -⟩ := h.waits.askedA x hx k hk
    exact ⟨_, _, _, k1⟩

theorem WInv.invoke [Rigid X] {D : Duration} {s : Filt X} (h : WInv D s) (ha : s.adding = []) (i : Nat) (av : Bool) :
    WInv D (s.invoke i av).1 := by
  have hri := h.rinv.invoke i
  unfold Filt.invoke RBuf.invoke at *
  cases hc : s.rb.inflight[i]? with
  | none => simp only [hc, List.append_nil] at hri ⊢; exact h.congr rfl (by simp [Filt.buf]) rfl rfl rfl rfl rfl rfl
  | some c =>
    simp only [hc] at hri ⊢
    have hL := invoke_live h.rinv hc
    have hci := h.rinv.infl c (List.mem_of_getElem? hc)
    obtain ⟨⟨tmc, hca⟩, -⟩ := hci
    have other : ∀ e : REv, (c.cb ≠ s.cb ∨ ∀ k ∈ allHandles s.msgs s.adding, k ≠ c.handle) →
        RInv D ({ s.rb with inflight := s.rb.inflight.eraseIdx i } : RBuf X) (s.revs ++ [e]) →
        WInv D (s.buf ({ s.rb with inflight := s.rb.inflight.eraseIdx i }, [e])) := by
      intro e hne hri
      refine ⟨hri, h.cbIn, ?_, h.exp⟩
      refine h.waits.mono (fun x hx => List.mem_append_left _ hx) ?_
      intro k hk
      refine (hL k).trans ⟨fun x => x.1, fun x => ⟨x, ?_⟩⟩
      rcases hne with hne | hne
      · rintro rfl
        obtain ⟨t, src, tm, hk'⟩ := h.mine hk
        exact hne (added_unique h.rinv.nodup hca hk').1
      · exact hne k hk
    by_cases hcb : c.cb ∈ s.rb.cbs
    · simp only [if_pos hcb] at hri ⊢
      by_cases hcc : c.cb = s.cb
      · simp only [if_pos hcc]
        have ho := Filt.transformable_out (D := D) (s.buf ({ s.rb with inflight := s.rb.inflight.eraseIdx i },
          [REv.invoked c.cb c.handle c.target c.source])) c.handle av h.rinv.wf
        generalize (s.buf ({ s.rb with inflight := s.rb.inflight.eraseIdx i },
          [REv.invoked c.cb c.handle c.target c.source])).transformable c.handle av = r at ho
        have hw0 := h.waits
        rw [ha] at hw0
        have hin : c.handle ∈ s.rb.live := mem_live.2 (.inr ⟨c, List.mem_of_getElem? hc, rfl⟩)
        have hev : ∀ e ∈ s.revs, e ∈ s.revs ++ [REv.invoked c.cb c.handle c.target c.source] :=
          fun e he => List.mem_append_left _ he
        cases ho with
        | notFound hn =>
          refine other _ (.inr ?_) hri
          intro k hk
          rw [ha] at hk
          rcases mem_allHandles.1 hk with ⟨m, hm, hk⟩ | ⟨x, hx, -⟩
          · rintro rfl; exact hn m hm hk
          · cases hx
        | wait j m hm hh hlt =>
          simp only [Filt.buf] at hm hlt
          refine ⟨hri, h.cbIn, ?_, h.exp⟩
          show Awaits _ _ _ _ _ _ s.adding
          rw [ha]
          exact hw0.count hev hL hin hm hh (by rw [← h.exp]; exact hlt)
        | threw j m hm hh hlt ht =>
          simp only [Filt.buf] at hm ht
          obtain ⟨t2, e⟩ := (h.waits.open_ m (List.mem_of_getElem? hm)).2.2 ht.1
          rw [ht.2] at e; cases e
        | decided j m hm hh hlt v hv =>
          simp only [Filt.buf] at hm
          refine WInv.deliver ?_ _
          refine ⟨hri, h.cbIn, ?_, h.exp⟩
          show Awaits _ _ _ _ _ _ s.adding
          rw [ha]
          exact hw0.decide hev hL hm hh
      · simp only [if_neg hcc]
        exact other _ (.inl hcc) hri
    · simp only [if_neg hcb] at hri ⊢
      exact other _ (.inl (fun e => hcb (e ▸ h.cbIn))) hri

theorem register_facts [Rigid X] {D : Duration} {s : Filt X} (h : RInv D s.rb s.revs)
    (hlim : (addedHandles s.revs).length < 2 ^ 64 - 1)
    (hn : REv.registerHangs ∉ s.register.revs) : RInv D s.register.rb s.register.revs ∧
      s.register.cb ∈ s.register.rb.cbs := by
  have hri := h.step .addCallback
  simp only [RBuf.step] at hri
  unfold Filt.register RBuf.addCallback at *
  cases hx : RBuf.nextCb s.rb.cbs (s.rb.cbs.length + 1) s.rb.cbCounter with
  | none => simp [hx] at hn
  | some c =>
    simp only [hx] at hri ⊢
    refine ⟨hri ?_, by simp⟩
    rw [addedHandles_append]; simpa [addedHandles] using hlim

theorem register_more (s : Filt X) : s.register.targets = s.targets ∧ s.register.tol = s.tol ∧
    s.register.expected = s.expected ∧ ∃ n, s.register.revs = s.revs ++ n := by
  unfold Filt.register
  split <;> exact ⟨rfl, rfl, rfl, _, rfl⟩

theorem rstep_cbs [Rigid X] (s : RBuf X) (op : ROp X) {cb : Nat} (hcb : cb ∈ s.cbs) (h1 : op ≠ .removeCallback cb) :
    cb ∈ (s.step op).1.cbs := by
  cases op with
  | set m a st =>
    simp only [RBuf.step, RBuf.setTransform]
    split
    · rw [(test_buf _).2.1]; exact hcb
    · exact hcb
    · exact hcb
  | clear => exact hcb
  | addCallback =>
    simp only [RBuf.step, RBuf.addCallback]
    split
    · exact hcb
    · exact List.mem_append_left _ hcb
  | removeCallback c =>
    refine List.mem_filter.2 ⟨hcb, ?_⟩
    simp only [decide_eq_true_eq]
    rintro rfl; exact h1 rfl
  | addRequest cb' t src time =>
    simp only [RBuf.step, RBuf.addRequest]
    repeat' split
    all_goals exact hcb
  | cancelRequest _ => exact hcb
  | invoke k => simp only [RBuf.step, RBuf.invoke]; split <;> exact hcb

/-- The log of the buffer only grows. -/
theorem revs_grow [Rigid X] (s : Filt X) (op : FOp X) : ∃ n, (s.step op).1.revs = s.revs ++ n := by
  have refl : ∀ s : Filt X, ∃ n, s.revs = s.revs ++ n := fun s => ⟨[], by simp⟩
  have hd : ∀ (s s0 : Filt X) (o : Out), (∃ n, s.revs = s0.revs ++ n) → ∃ n, (s.deliver o).1.revs = s0.revs ++ n := by
    intro s s0 o h; rw [(deliver_revs s o).1]; exact h
  have hca : ∀ (hs : List Nat) (s : Filt X), ∃ n, (s.cancelAll hs).revs = s.revs ++ n := by
    intro hs
    induction hs with
    | nil => intro s; exact refl s
    | cons k r ih =>
      intro s
      obtain ⟨n, e⟩ := ih (s.buf (s.rb.cancelRequest k))
      exact ⟨(s.rb.cancelRequest k).2 ++ n, by rw [Filt.cancelAll, e]; simp only [Filt.buf, List.append_assoc]⟩
  have hans : ∀ (s : Filt X) (i : Nat) (a a' : Adding) (r : RBuf X × List REv),
      ∃ n, (s.addAnswer i a a' r).1.revs = s.revs ++ n := by
    intro s i a a' r
    refine ⟨r.2, ?_⟩
    unfold Filt.addAnswer
    simp only
    split <;> first | rfl | exact (deliver_revs _ _).1
  cases op with
  | setTargets ts => exact refl s
  | setTolerance tol => exact refl s
  | setQueueSize n => exact refl s
  | clear =>
    simp only [Filt.step, Filt.clear]
    obtain ⟨-, -, -, n, e⟩ := register_more (s.buf (s.rb.removeCallback s.cb))
    exact ⟨(s.rb.removeCallback s.cb).2 ++ n, by rw [e]; simp only [Filt.buf, List.append_assoc]⟩
  | addStart f t =>
    simp only [Filt.step, Filt.addStart]
    split
    · exact refl s
    · split
      · exact hd _ s _ (refl s)
      · exact refl s
  | addNext i =>
    simp only [Filt.step, Filt.addNext]
    cases s.adding[i]? with
    | none => exact refl s
    | some a =>
      simp only
      cases a.rest with
      | nil =>
        simp only [Filt.addFinish]
        split
        · exact hd _ s _ (refl s)
        · split
          · split
            · exact refl s
            · exact hd _ s _ (hca _ { s with adding := s.adding.eraseIdx i })
          · exact refl s
      | cons t ts =>
        simp only
        split
        · split
          · exact refl s
          · exact hans ..
        · exact hans ..
  | invoke k av =>
    simp only [Filt.step, Filt.invoke]
    have h1 : ∃ n, (s.buf (s.rb.invoke k)).revs = s.revs ++ n := ⟨_, rfl⟩
    split
    · split
      · refine ⟨(s.rb.invoke k).2, ?_⟩
        unfold Filt.transformable
        split
        · rfl
        · split
          · rfl
          · simp only
            repeat' split
            all_goals first | rfl | exact (deliver_revs _ _).1
      · exact h1
    · exact h1
    · exact h1
  | runQueued => simp only [Filt.step, Filt.runQueued]; split <;> exact refl s
  | buffer op =>
    cases op with
    | invoke k => exact refl s
    | _ => exact ⟨_, rfl⟩

/-- Every orderly step keeps the invariant, unless the sweep throws or no callback handle is free. -/
theorem WInv.step [Rigid X] {D : Duration} {s : Filt X} (h : WInv D s) (hc : Counted s) (op : FOp X) (ho : s.Orderly op)
    (hlim : (addedHandles (s.step op).1.revs).length < 2 ^ 32) (hn : ∀ e, REv.testThrew e ∉ (s.step op).1.revs)
    (hr : REv.registerHangs ∉ (s.step op).1.revs) : WInv D (s.step op).1 := by
  have hl0 : (addedHandles s.revs).length < 2 ^ 32 := by
    obtain ⟨n, e⟩ := revs_grow s op
    rw [e, addedHandles_append, List.length_append] at hlim; omega
  cases op with
  | setTargets ts =>
    refine ⟨h.rinv, h.cbIn, ?_, by simp [Filt.step, Filt.setTargets]⟩
    simp only [Filt.step, Filt.setTargets, ho.1, ho.2]; exact Awaits.nil ..
  | setTolerance tol =>
    refine ⟨h.rinv, h.cbIn, ?_, rfl⟩
    simp only [Filt.step, Filt.setTolerance, ho.1, ho.2]; exact Awaits.nil ..
  | setQueueSize n => exact h.congr rfl rfl rfl rfl rfl rfl rfl rfl
  | clear =>
    simp only [Filt.step, Filt.clear] at hr hlim ⊢
    have hri : RInv D (s.buf (s.rb.removeCallback s.cb)).rb (s.buf (s.rb.removeCallback s.cb)).revs := by
      refine h.rinv.step (.removeCallback s.cb) ?_
      rw [addedHandles_append]
      simp only [RBuf.step, RBuf.removeCallback, addedHandles, List.append_nil]; omega
    obtain ⟨f1, f2⟩ := register_facts hri (by
      simp only [Filt.buf, addedHandles_append, RBuf.removeCallback, addedHandles, List.append_nil]; omega) hr
    obtain ⟨m1, m2, m3, -⟩ := register_more (s.buf (s.rb.removeCallback s.cb))
    refine ⟨f1, f2, ?_, by simp only [m1, m2, m3]; exact h.exp⟩
    have had : (s.buf (s.rb.removeCallback s.cb)).register.adding = [] :=
      ((s.buf (s.rb.removeCallback s.cb)).register_parts).2.1.trans ho
    simp only [had]
    exact Awaits.nil ..
  | addStart f t =>
    simp only [Filt.step, Filt.addStart]
    split
    · exact h.congr rfl rfl rfl rfl rfl rfl rfl rfl
    · split
      · exact WInv.deliver (s := { s with next := s.next + 1 }) (h.congr rfl rfl rfl rfl rfl rfl rfl rfl) _
      · exact ⟨h.rinv, h.cbIn, h.waits.start _, h.exp⟩
  | addNext i =>
    refine h.next hc i hlim ?_
    have : (addedHandles s.revs).length = s.rb.reqCounter := by rw [h.rinv.added]; simp
    omega
  | invoke k av => exact h.invoke ho k av
  | runQueued => simp only [Filt.step, Filt.runQueued]; split <;> exact h.congr rfl rfl rfl rfl rfl rfl rfl rfl
  | buffer op =>
    have gen : (∀ i, op ≠ .invoke i) → op ≠ .removeCallback s.cb →
        (∀ x, op = .cancelRequest x → ∀ t src tm, REv.added (x % 2 ^ 32) s.cb t src tm ∉ s.revs) →
        (addedHandles (s.revs ++ (s.rb.step op).2)).length < 2 ^ 32 → (∀ e, REv.testThrew e ∉ s.revs ++ (s.rb.step op).2) →
        WInv D (s.buf (s.rb.step op)) := by
      intro g1 g2 g3 g4 g5
      have g4' : (addedHandles (s.revs ++ (s.rb.step op).2)).length < 2 ^ 64 - 1 := by omega
      refine ⟨h.rinv.step op g4', rstep_cbs s.rb op h.cbIn g2, ?_, h.exp⟩
      refine h.waits.mono (fun e he => List.mem_append_left _ he) ?_
      intro k hk
      obtain ⟨t, src, tm, hm⟩ := h.mine hk
      refine rstep_live h.rinv op g4' (fun e he => g5 e (List.mem_append_right _ he)) h.cbIn hm g2 ?_ g1
      intro x hx e
      exact g3 x hx t src tm (e ▸ hm)
    cases op with
    | invoke k => exact h
    | removeCallback c =>
      refine gen (by simp) ?_ (by simp) hlim hn
      intro e; injection e with e; exact ho e
    | cancelRequest x =>
      refine gen (by simp) (by simp) ?_ hlim hn
      intro y e; injection e with e; subst e; exact ho
    | _ => exact gen (by simp) (by simp) (by simp) hlim hn

/-! ### Runs -/

theorem revs_run [Rigid X] (ops : List (FOp X)) : ∀ (s : Filt X) (evs : List FEv),
    ∃ n, (Filt.run ops s evs).1.revs = s.revs ++ n := by
  induction ops with
  | nil => intro s evs; exact ⟨[], by simp [Filt.run]⟩
  | cons op r ih =>
    intro s evs
    obtain ⟨n, e⟩ := revs_grow s op
    obtain ⟨n', e'⟩ := ih (s.step op).1 (evs ++ (s.step op).2)
    exact ⟨n ++ n', by rw [Filt.run, e', e, List.append_assoc]⟩

theorem WInv.run [Rigid X] {D : Duration} (ops : List (FOp X)) : ∀ {s : Filt X} {evs : List FEv}, WInv D s →
    FInv D s evs → OrderlyRun ops s → (addedHandles (Filt.run ops s evs).1.revs).length < 2 ^ 32 →
    (∀ e, REv.testThrew e ∉ (Filt.run ops s evs).1.revs) → REv.registerHangs ∉ (Filt.run ops s evs).1.revs →
    WInv D (Filt.run ops s evs).1 := by
  induction ops with
  | nil => intro s evs h _ _ _ _ _; exact h
  | cons op r ih =>
    intro s evs h hf ho hlim hn hr
    obtain ⟨n, e⟩ := revs_run r (s.step op).1 (evs ++ (s.step op).2)
    simp only [Filt.run] at hlim hn hr ⊢
    have e1 := e
    have hlim' := hlim
    have hn' := hn
    have hr' := hr
    rw [e, addedHandles_append, List.length_append] at hlim'
    refine ih (h.step hf.counted op ho.1 (by omega) ?_ ?_) (hf.step op).1 ho.2 hlim hn hr
    · intro x hx; exact hn x (by rw [e]; exact List.mem_append_left _ hx)
    · intro hx; exact hr (by rw [e]; exact List.mem_append_left _ hx)

theorem WInv.init [Rigid X] (D : Duration) (pre : List (ROp X)) (target : Name) (qsize : Nat) (queued : Bool)
    (hlim : (addedHandles (RBuf.history D pre).2).length < 2 ^ 32)
    (hr : REv.registerHangs ∉ (Filt.init (RBuf.history D pre).1 (RBuf.history D pre).2 target qsize queued).revs) :
    WInv D (Filt.init (RBuf.history D pre).1 (RBuf.history D pre).2 target qsize queued) := by
  have hri : RInv D (RBuf.history D pre).1 (RBuf.history D pre).2 :=
    RInv.run pre (RInv.init D) (by unfold RBuf.history at hlim; omega)
  unfold Filt.init at hr ⊢
  generalize hs : ({
                      rb := (RBuf.history D pre).1, revs := (RBuf.history D pre).2, targets := [], tol := 0, expected := 1
                      qsize := qsize, cb := 0, msgs := [], count := 0, adding := []
                      cbq := if queued then some [] else none, next := 0 } : Filt X) = s0 at hr ⊢
  have h1 : RInv D s0.rb s0.revs := by rw [← hs]; exact hri
  have h2 : (addedHandles s0.revs).length < 2 ^ 64 - 1 := by rw [← hs]; simp only; omega
  obtain ⟨f1, f2⟩ := register_facts h1 h2 (by simpa [Filt.setTargets] using hr)
  have hm : s0.msgs = [] ∧ s0.adding = [] := by rw [← hs]; exact ⟨rfl, rfl⟩
  obtain ⟨-, p2, p3, -⟩ := s0.register_parts
  refine ⟨f1, f2, ?_, by simp [Filt.setTargets]⟩
  simp only [Filt.setTargets, p2, p3, hm.1, hm.2]
  exact Awaits.nil ..

theorem initRevs [Rigid X] (rb : RBuf X) (revs : List REv) (target : Name) (qsize : Nat) (queued : Bool) :
    ∃ n, (Filt.init rb revs target qsize queued).revs = revs ++ n := by
  unfold Filt.init
  obtain ⟨-, -, -, n, e⟩ := register_more ({
                      rb := rb, revs := revs, targets := [], tol := 0, expected := 1
                      qsize := qsize, cb := 0, msgs := [], count := 0, adding := []
                      cbq := if queued then some [] else none, next := 0 } : Filt X)
  exact ⟨n, e⟩

theorem WInv.history [Rigid X] (D : Duration) (pre : List (ROp X)) (target : Name) (qsize : Nat) (queued : Bool)
    (ops : List (FOp X))
    (ho : OrderlyRun ops (Filt.init (RBuf.history D pre).1 (RBuf.history D pre).2 target qsize queued))
    (hlim : (addedHandles (Filt.history D pre target qsize queued ops).1.revs).length < 2 ^ 32)
    (hn : ∀ e, REv.testThrew e ∉ (Filt.history D pre target qsize queued ops).1.revs)
    (hr : REv.registerHangs ∉ (Filt.history D pre target qsize queued ops).1.revs) :
    WInv D (Filt.history D pre target qsize queued ops).1 := by
  unfold Filt.history at *
  obtain ⟨n1, e1⟩ := initRevs (RBuf.history D pre).1 (RBuf.history D pre).2 target qsize queued
  obtain ⟨n2, e2⟩ := revs_run ops (Filt.init (RBuf.history D pre).1 (RBuf.history D pre).2 target qsize queued) []
  refine WInv.run ops (WInv.init D pre target qsize queued ?_ ?_) (FInv.start D pre target qsize queued) ho hlim hn hr
  · rw [e2, e1, addedHandles_append, addedHandles_append, List.length_append, List.length_append] at hlim; omega
  · intro h; exact hr (by rw [e2]; exact List.mem_append_left _ h)

/-- A message that waits has an unanswered request. -/
theorem WInv.pending {D : Duration} {s : Filt X} (h : WInv D s) (hs : s.rb.scheduled = []) {m : MInfo}
    (hm : m ∈ s.msgs) : ∃ k ∈ s.rb.pending, AskedFor s.revs s.cb s.targets s.tol m.msg k := by
  obtain ⟨h1, h2, -⟩ := h.waits.open_ m hm
  have hne : m.handles.filter (fun k => decide (k ∈ s.rb.live)) ≠ [] := by
    intro e; rw [e] at h2; simp at h2; omega
  obtain ⟨k, hk⟩ := List.exists_mem_of_ne_nil _ hne
  obtain ⟨k1, k2⟩ := List.mem_filter.1 hk
  refine ⟨k, ?_, h.waits.asked m hm k k1⟩
  have : k ∈ s.rb.live := by simpa using k2
  unfold RBuf.live at this
  rwa [hs, List.append_nil] at this

/-! ### Pending requests cannot be answered -/

/-- No pending request can be answered. -/
def Unanswerable (s : RBuf X) : Prop :=
  ∀ r ∈ s.reqs, s.buf.canTransformNoLock (r.resolve s.buf).tid (r.resolve s.buf).sid r.time = .ok false

theorem resolve_resolve (b : Buf X) (r : Request) : (r.resolve b).resolve b = r.resolve b := by
  simp only [Request.resolve]
  congr 1 <;> split <;> simp_all

theorem Unanswerable.sub {s s' : RBuf X} (h : Unanswerable s) (hb : s'.buf = s.buf) (hs : ∀ r ∈ s'.reqs, r ∈ s.reqs) :
    Unanswerable s' := by
  intro r hr; rw [hb]; exact h r (hs r hr)

theorem Unanswerable.test [Rigid X] {D : Duration} {s : RBuf X} {evs : List REv} (h : RInv D s evs)
    (hn : ∀ e, REv.testThrew e ∉ s.test.2) : Unanswerable s.test.1 := by
  have o := test_out h.wf h.reqs
  generalize s.test.1 = s' at o ⊢
  generalize s.test.2 = new at o hn
  cases o with
  | threw _ _ _ => exact absurd (List.mem_append_right _ (List.mem_singleton.2 rfl)) (hn .runtime)
  | done perm keptV firedV cf =>
    intro r hr
    obtain ⟨r0, h0, rfl⟩ := List.mem_map.1 hr
    have hf := verdict_facts h.wf (r0.resolve s.buf).tid (r0.resolve s.buf).sid r0.time
    have hv := keptV r0 h0
    unfold Request.verdictIn at hv
    rw [hv] at hf
    simp only [resolve_resolve]
    exact hf.1

theorem AddOut.unanswerable {D : Duration} {s s' : RBuf X} {cb : Nat} {t src : Name} {tm : Time} {new : List REv}
    (o : AddOut D s cb t src tm s' new) (h : Unanswerable s) : Unanswerable s' := by
  cases o with
  | pending hne hc ho r hr =>
    intro x hx
    rcases List.mem_append.1 hx with hx | hx
    · exact h x hx
    · rw [List.mem_singleton.1 hx, hr]
      have e1 : ∀ n : Name, (if s.buf.lookupFrameNumber n = 0 then
          s.buf.lookupFrameNumber (if s.buf.lookupFrameNumber n = 0 then n else []) else s.buf.lookupFrameNumber n) =
          s.buf.lookupFrameNumber n := by intro n; split <;> simp_all
      simp only [Request.resolve, e1]
      exact hc
  | _ => exact h

theorem cancelAll_unanswerable (hs : List Nat) : ∀ (s : Filt X), Unanswerable s.rb → Unanswerable (s.cancelAll hs).rb := by
  induction hs with
  | nil => intro s h; exact h
  | cons k r ih =>
    intro s h
    exact ih _ (h.sub (s' := (s.rb.cancelRequest k).1) rfl (fun r hr => (List.mem_filter.1 hr).1))

theorem Unanswerable.step [Rigid X] {D : Duration} {s : Filt X} (h : Unanswerable s.rb) (hw : WF D s.rb.buf)
    (hc : Counted s) (op : FOp X) (hk : op.keepsBuffer) : Unanswerable (s.step op).1.rb := by
  have hd : ∀ (s : Filt X) (o : Out), Unanswerable s.rb → Unanswerable (s.deliver o).1.rb := by
    intro s o h; rw [(s.deliver_parts o).2.2.2.2.2.1]; exact h
  have hinv : ∀ k, Unanswerable (s.rb.invoke k).1 := by
    intro k; unfold RBuf.invoke; split <;> exact h
  have hans : ∀ (i : Nat) (a a' : Adding) (t src : Name) (tm : Time) (ro : RBuf X × List REv),
      AddOut D s.rb s.cb t src tm ro.1 ro.2 → Unanswerable (s.addAnswer i a a' ro).1.rb := by
    intro i a a' t src tm ro ho
    have hu := ho.unanswerable h
    unfold Filt.addAnswer
    simp only
    split <;> first | exact hu | exact hd _ _ hu
  cases op with
  | setTargets ts => exact h
  | setTolerance tol => exact h
  | setQueueSize n => exact h
  | clear =>
    simp only [Filt.step, Filt.clear]
    have h1 : Unanswerable (s.buf (s.rb.removeCallback s.cb)).rb :=
      h.sub rfl (fun r hr => (List.mem_filter.1 hr).1)
    generalize s.buf (s.rb.removeCallback s.cb) = s1 at h1
    simp only [Filt.register, RBuf.addCallback]
    cases RBuf.nextCb s1.rb.cbs (s1.rb.cbs.length + 1) s1.rb.cbCounter <;> exact h1
  | addStart f t =>
    simp only [Filt.step, Filt.addStart]
    split
    · exact h
    · split
      · exact hd _ _ h
      · exact h
  | addNext i =>
    have ho := Filt.addNext_out hw hc i
    simp only [Filt.step]
    generalize s.addNext i = r at ho
    cases ho with
    | idle _ => exact h
    | finish a ha hr r ho =>
      cases ho with
      | pass _ => exact hd _ _ h
      | push _ _ _ f l hm => exact hd _ _ (cancelAll_unanswerable f.handles _ h)
      | queue _ _ => exact h
    | overflow _ _ _ _ _ _ _ => exact h
    | ask1 a ha t ts hr hs ro ho => exact hans _ _ _ _ _ _ _ ho
    | ask2 a ha t ts hr hs t2 h2 ro ho => exact hans _ _ _ _ _ _ _ ho
  | invoke k av =>
    simp only [Filt.step, Filt.invoke]
    split
    · split
      · unfold Filt.transformable
        split
        · exact hinv k
        · split
          · exact hinv k
          · simp only
            repeat' split
            all_goals first | exact hinv k | exact hd _ _ (hinv k)
      · exact hinv k
    · exact hinv k
    · exact hinv k
  | runQueued => simp only [Filt.step, Filt.runQueued]; split <;> exact h
  | buffer op =>
    cases op with
    | set m a st => exact hk.elim
    | clear => exact hk.elim
    | addCallback =>
      simp only [Filt.step, RBuf.step, RBuf.addCallback, Filt.buf]
      split <;> exact h
    | removeCallback cb => exact h.sub (s' := (s.rb.removeCallback cb).1) rfl (fun r hr => (List.mem_filter.1 hr).1)
    | addRequest cb t src time => exact (addRequest_out hw cb t src time).unanswerable h
    | cancelRequest k => exact h.sub (s' := (s.rb.cancelRequest k).1) rfl (fun r hr => (List.mem_filter.1 hr).1)
    | invoke k => exact h

theorem Unanswerable.run [Rigid X] {D : Duration} (ops : List (FOp X)) : ∀ {s : Filt X} {evs : List FEv},
    Unanswerable s.rb → FInv D s evs → (∀ op ∈ ops, op.keepsBuffer) → Unanswerable (Filt.run ops s evs).1.rb := by
  induction ops with
  | nil => intro s evs h _ _; exact h
  | cons op r ih =>
    intro s evs h hf hk
    exact ih (h.step hf.reach.wf hf.counted op (hk op (List.mem_cons_self ..))) (hf.step op).1
      (fun o ho => hk o (List.mem_cons_of_mem _ ho))

/-- After an accepted `setTransform` no pending request can be answered. -/
theorem Unanswerable.set [Rigid X] {D : Duration} {s : Filt X} (h : WInv D s) {m : Msg X} {a : Name} {st : Bool}
    (hacc : (s.rb.buf.setTransform m a st).2 = .accepted)
    (hn : ∀ e, REv.testThrew e ∉ (s.step (.buffer (.set m a st))).1.revs) :
    Unanswerable (s.step (.buffer (.set m a st))).1.rb := by
  simp only [Filt.step, RBuf.step, RBuf.setTransform, Filt.buf] at hn ⊢
  have hw : WF D (s.rb.buf.setTransform m a st).1 := h.rinv.wf.setTransform m a st
  have hb : ∀ n i, s.rb.buf.frameIDs n = some i → (s.rb.buf.setTransform m a st).1.frameIDs n = some i :=
    fun n i hn => frameIDs_step h.rinv.wf (.set m a st) hn
  generalize s.rb.buf.setTransform m a st = r at *
  obtain ⟨b, r⟩ := r
  simp only at hacc
  subst hacc
  exact Unanswerable.test (h.rinv.rebuf hw hb)
    (fun e he => hn e (List.mem_append_right _ (List.mem_cons_of_mem _ he)))

/-- A pending request of the filter that cannot be answered. -/
theorem WInv.not_ready [Rigid X] {D : Duration} {s : Filt X} (h : WInv D s) (hu : Unanswerable s.rb) {m : FMsg} {k : Nat}
    (hk : k ∈ s.rb.pending) (ha : AskedFor s.revs s.cb s.targets s.tol m k) :
    ¬ AllReady s.rb.buf s.targets s.tol m.frame m.stamp := by
  obtain ⟨t, tm, k1, k2, k3⟩ := ha
  obtain ⟨r, hr, rfl⟩ := List.mem_map.1 hk
  obtain ⟨t', src', hne, e1, e2⟩ := h.rinv.reqs r hr
  obtain ⟨-, rfl, rfl, hti⟩ := added_unique h.rinv.nodup k1 e1
  have hf := hu r hr
  obtain ⟨i1, i2⟩ := e2.resolve_tid
  rw [i1, i2, ← hti] at hf
  have hcan := canTransform_false_of_noLock hne hf
  intro hall
  obtain ⟨a1, a2⟩ := hall t k2
  rcases k3 with rfl | ⟨h0, h2⟩
  · rw [hcan] at a1; cases a1
  · obtain ⟨t2, b1, b2⟩ := a2 h0
    rw [h2] at b1; cases b1
    rw [hcan] at b2; cases b2

end Tf2
