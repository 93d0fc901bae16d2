import Verif.Proofs.RequestProgress

/-!
# Requests with several threads: a call that runs alone
-/
namespace Tf2.Par

variable {X : Type}

theorem at_at (s : Sys X) (u : Nat) (p q : Option (Stage X)) : (s.at u p).at u q = s.at u q := by
  unfold Sys.at
  congr 1
  funext v
  simp only [put]
  split <;> rfl

theorem at_eq (s : Sys X) (u : Nat) (p : Option (Stage X)) (h : s.thr u = p) : s.at u p = s := by
  unfold Sys.at
  have : put s.thr u p = s.thr := by
    funext v
    simp only [put]
    split
    · rename_i hv; rw [hv, h]
    · rfl
  rw [this]

/-- Thread `u` goes on for some steps. -/
def Goes [Rigid X] (u : Nat) (s : Sys X) (s' : Sys X) (new : List Ev) : Prop :=
  ∃ n, ∀ evs, Sys.run (List.replicate n (.go u)) s evs = (s', evs ++ new)

theorem Goes.refl [Rigid X] (u : Nat) (s : Sys X) : Goes u s s [] := ⟨0, fun evs => by rw [List.append_nil]; rfl⟩

theorem Goes.one [Rigid X] {u : Nat} {s s' : Sys X} {new : List Ev} (h : s.go u = (s', new)) : Goes u s s' new :=
  ⟨1, fun evs => by simp only [List.replicate_one, Sys.run, Sys.step, h]⟩

theorem Goes.trans [Rigid X] {u : Nat} {s s1 s2 : Sys X} {a b : List Ev} (h : Goes u s s1 a) (h' : Goes u s1 s2 b) :
    Goes u s s2 (a ++ b) := by
  obtain ⟨n, h⟩ := h
  obtain ⟨m, h'⟩ := h'
  refine ⟨n + m, fun evs => ?_⟩
  rw [← List.replicate_append_replicate, run_split, h, h', List.append_assoc]

/-- The events of answering: neither returned to the caller nor a callback. -/
def Ev.inner : Ev → Bool
  | .extracted _ _ _ => true
  | .dropped _ _ => true
  | .asked _ => true
  | .tested _ => true
  | .cleared _ => true
  | _ => false

/-- The same in the sequential model. -/
def rinner : REv → Bool
  | .extracted _ _ => true
  | .dropped _ => true
  | _ => false

def Inner (evs : List Ev) : Prop := ∀ e ∈ evs, e.inner = true

theorem Inner.nil : Inner [] := fun _ h => nomatch h
theorem Inner.one {e : Ev} (h : e.inner = true) : Inner [e] := by
  intro x hx; rw [List.mem_singleton] at hx; rw [hx]; exact h
theorem Inner.append {a b : List Ev} (h : Inner a) (h' : Inner b) : Inner (a ++ b) := by
  intro x hx; rcases List.mem_append.1 hx with hx | hx
  · exact h x hx
  · exact h' x hx

/-- An answer, as the loop of the sequential model has it. -/
theorem answer_alone {s : Sys X} {u : Nat} {t : TestState} {r : Request} {av : Bool}
    (hf : Ev.undefined u ∉ (answer s u t r av).2) : ∃ back calls' ls, t.mem[t.size - 1]? = some back ∧
      (answer s u t r av).1 = s.at u (some (.look { mem := if t.size > 1 then t.mem.set t.i back else t.mem, size := t.size - 1
                                                    i := t.i, calls := t.calls ++ calls', locals := ls, evs := t.evs })) ∧
      Inner (answer s u t r av).2 ∧ ls = t.locals ++ [none] ∧
      ((r.cb ∈ s.cbs ∧ ∃ tn sn, s.buf.lookupFrameString r.tid = .ok tn ∧ s.buf.lookupFrameString r.sid = .ok sn ∧
          calls' = [{ cb := r.cb, handle := r.handle, target := tn, source := sn, timeSlot := t.i, resultVar := t.locals.length }]) ∨
        (r.cb ∉ s.cbs ∧ calls' = [])) := by
  unfold answer at hf ⊢
  split at hf
  · exact absurd List.mem_cons_self hf
  · rename_i back hback
    simp only [hback] at hf ⊢
    split at hf
    · rename_i hcb
      rw [if_pos hcb]
      split at hf
      · rename_i tn sn h1 h2
        simp only [h1, h2]
        exact ⟨back, _, _, rfl, rfl, .one rfl, rfl, .inl ⟨hcb, tn, sn, rfl, rfl, rfl⟩⟩
      · exact absurd List.mem_cons_self hf
    · rename_i hcb
      rw [if_neg hcb]
      exact ⟨back, [], _, rfl, by simp only [List.append_nil], .one rfl, rfl, .inr ⟨hcb, rfl⟩⟩

/-- What the sequential loop does next, and the thread: the same, except for the events it collects. -/
theorem iter_alone [Rigid X] {D : Duration} {s : Sys X} {evs : List Ev} (h : Inv D s evs) {u : Nat} {t : TestState}
    (hst : s.thr u = some (.look t)) (hlt : t.i < t.size) (e : List REv) :
    (∃ (t' : TestState) (new : List Ev) (e' : List REv), testIter s.buf s.cbs { t with evs := e } = .done { t' with evs := e' } ∧
        Goes u s (s.at u (some (.look t'))) new ∧ Inner new ∧ t'.size - t'.i < t.size - t.i ∧
        ((∀ c ∈ t.calls, c.cb ∈ s.cbs) → ∀ c ∈ t'.calls, c.cb ∈ s.cbs) ∧
        ∀ x ∈ e', x ∈ e ∨ rinner x = true) ∨
      (∃ (t' : TestState) (ex : Exc), testIter s.buf s.cbs { t with evs := e } = .threw { t' with evs := e } ex ∧
        Goes u s ({ s with reqs := t'.mem.take t'.size, owner := none }.at u none) [.testThrew u]) := by
  have hgo : ∀ {v : Nat}, Ev.undefined v ∉ (s.go u).2 := fun hm => (h.go u).fine _ (List.mem_append_right _ hm)
  cases hr : t.mem[t.i]? with
  | none =>
    exfalso
    have : (s.go u).2 = [.undefined u] := by simp only [Sys.go, hst, if_pos hlt, hr]
    exact hgo (v := u) (by rw [this]; exact List.mem_cons_self)
  | some r0 =>
    have g1 : s.go u = (s.at u (some (.found { t with mem := t.mem.set t.i (r0.resolve s.buf) } (r0.resolve s.buf))), []) := by
      simp only [Sys.go, hst, if_pos hlt, hr]
    have h1 := h.go u
    rw [g1, List.append_nil] at h1
    have G1 := Goes.one g1
    have cbs1 : (s.at u (some (.found { t with mem := t.mem.set t.i (r0.resolve s.buf) } (r0.resolve s.buf)))).cbs = s.cbs := rfl
    generalize hr1 : r0.resolve s.buf = r at *
    generalize ht1 : ({ t with mem := t.mem.set t.i r } : TestState) = t1 at *
    have hi1 : t1.i = t.i := by rw [← ht1]
    have hz1 : t1.size = t.size := by rw [← ht1]
    have hm1 : t1.mem = t.mem.set t.i r := by rw [← ht1]
    have hc1 : t1.calls = t.calls := by rw [← ht1]
    have hl1 : t1.locals = t.locals := by rw [← ht1]
    have he1 : t1.evs = t.evs := by rw [← ht1]
    have st1 := at_same s u (some (.found t1 r))
    generalize hs1 : s.at u (some (.found t1 r)) = s1 at *
    have buf1 : s1.buf = s.buf := by rw [← hs1]; rfl
    have at1 : ∀ p, s1.at u p = s.at u p := by intro p; rw [← hs1]; exact at_at _ _ _ _
    have raw1 : ∀ rq p, ({ s1 with reqs := rq, owner := none } : Sys X).at u p = ({ s with reqs := rq, owner := none } : Sys X).at u p := by
      intro rq p
      rw [← hs1]
      exact at_at ({ s with reqs := rq, owner := none } : Sys X) u _ _
    have answered : ∀ {sx : Sys X} (av : Bool) (vd : Verdict), sx.buf = s.buf → sx.cbs = s.cbs → (∀ p, sx.at u p = s.at u p) →
        s.buf.verdict r.tid r.sid r.time = vd → vd ≠ .stay → vd ≠ .ub → (∀ e, vd ≠ .threw e) →
        Ev.undefined u ∉ (answer sx u t1 r av).2 →
        ∃ (t' : TestState) (e' : List REv), testIter s.buf s.cbs { t with evs := e } = .done { t' with evs := e' } ∧
          (answer sx u t1 r av).1 = s.at u (some (.look t')) ∧ Inner (answer sx u t1 r av).2 ∧ t'.size - t'.i < t.size - t.i ∧
          ((∀ c ∈ t.calls, c.cb ∈ s.cbs) → ∀ c ∈ t'.calls, c.cb ∈ s.cbs) ∧ ∀ x ∈ e', x ∈ e ∨ rinner x = true := by
      intro sx av vd hb hcb hat hv hns hnu hnt hf
      obtain ⟨back, calls', ls, ha, hb', hin, hls, hc⟩ := answer_alone hf
      rw [hat] at hb'
      rw [hi1, hz1, hm1, hc1, hl1, he1] at *
      rcases hc with ⟨hin', tn, sn, hn1, hn2, hcalls⟩ | ⟨hin', hcalls⟩
      · rw [hcb] at hin'
        rw [hb] at hn1 hn2
        refine ⟨_, e ++ [.extracted r.handle (decide (vd = .available))], ?_, hb', hin, by simp only; omega, ?_, ?_⟩
        · subst hcalls hls
          unfold testIter
          simp only [hr, hr1, hv, ha, if_pos hin', hn1, hn2]
        · intro hall c hc
          simp only [List.mem_append] at hc
          rcases hc with hc | hc
          · exact hall c hc
          · rw [hcalls, List.mem_singleton] at hc; rw [hc]; exact hin'
        · intro x hx
          rcases List.mem_append.1 hx with hx | hx
          · exact .inl hx
          · rw [List.mem_singleton] at hx; exact .inr (by rw [hx]; rfl)
      · rw [hcb] at hin'
        refine ⟨_, e ++ [.dropped r.handle], ?_, hb', hin, by simp only; omega, ?_, ?_⟩
        · subst hcalls hls
          unfold testIter
          simp only [hr, hr1, hv, ha, if_neg hin', List.append_nil]
        · intro hall c hc
          rw [hcalls, List.append_nil] at hc
          exact hall c hc
        · intro x hx
          rcases List.mem_append.1 hx with hx | hx
          · exact .inl hx
          · rw [List.mem_singleton] at hx; exact .inr (by rw [hx]; rfl)
    obtain ⟨l, hl⟩ := latestOrZero_cases h.wf r.tid r.sid
    have fin1 : ∀ {v : Nat}, Ev.undefined v ∉ (s1.go u).2 := fun hm => (h1.go u).fine _ (List.mem_append_right _ hm)
    cases hto : s.buf.tooOldFor l r.time with
    | ub => exact absurd hto (tooOldFor_ne_ub _ _ _)
    | throw ex =>
      right
      refine ⟨t1, ex, ?_, ?_⟩
      · unfold testIter
        simp only [hr, hr1, Buf.verdict, hl, hto]
        rw [← ht1]
      · refine (G1.trans (.one ?_) : Goes u s _ ([] ++ _))
        have g2 : s1.go u = giveUp s1 u t1 := by simp only [Sys.go, st1, buf1, hl, hto]
        rw [g2]
        exact congrArg (fun x => (x, [Ev.testThrew u])) (raw1 _ _)
    | ok old =>
      cases old with
      | true =>
        left
        have g2 : s1.go u = answer s1 u t1 r false := by simp only [Sys.go, st1, buf1, hl, hto]
        obtain ⟨t', e', a1, a2, a3, a4, a5, a6⟩ := answered (sx := s1) false .failure buf1 cbs1 at1
          (by simp only [Buf.verdict, hl, hto]) (fun h => nomatch h) (fun h => nomatch h) (fun _ h => nomatch h) (g2 ▸ fin1)
        refine ⟨t', (answer s1 u t1 r false).2, e', a1, ?_, a3, a4, a5, a6⟩
        refine (G1.trans (.one ?_) : Goes u s _ ([] ++ _))
        rw [g2, ← a2]
      | false =>
        have g2 : s1.go u = (s1.at u (some (.young t1 r)), []) := by simp only [Sys.go, st1, buf1, hl, hto]
        have h2 := h1.go u
        rw [g2, List.append_nil] at h2
        have G2 := G1.trans (.one g2)
        have st2 := at_same s1 u (some (.young t1 r))
        have at2 : ∀ p, (s1.at u (some (.young t1 r))).at u p = s.at u p := by intro p; rw [at_at, at1]
        have buf2 : (s1.at u (some (.young t1 r))).buf = s.buf := buf1
        have cbs2 : (s1.at u (some (.young t1 r))).cbs = s.cbs := cbs1
        generalize hs2 : s1.at u (some (.young t1 r)) = s2 at *
        have fin2 : ∀ {v : Nat}, Ev.undefined v ∉ (s2.go u).2 := fun hm => (h2.go u).fine _ (List.mem_append_right _ hm)
        obtain ⟨b, hb⟩ := canNoLock_ne_ub h.wf r.tid r.sid r.time
        left
        cases b with
        | true =>
          have g3 : s2.go u = answer s2 u t1 r true := by simp only [Sys.go, st2, buf2, hb]
          obtain ⟨t', e', a1, a2, a3, a4, a5, a6⟩ := answered (sx := s2) true .available buf2 cbs2 at2
            (by simp only [Buf.verdict, hl, hto, hb]) (fun h => nomatch h) (fun h => nomatch h) (fun _ h => nomatch h) (g3 ▸ fin2)
          refine ⟨t', (answer s2 u t1 r true).2, e', a1, ?_, a3, a4, a5, a6⟩
          refine (G2.trans (.one ?_) : Goes u s _ ([] ++ [] ++ _))
          rw [g3, ← a2]
        | false =>
          refine ⟨{ t1 with i := t1.i + 1, locals := t1.locals ++ [none] }, [], e, ?_, ?_, .nil, by simp only; omega, ?_, fun x hx => .inl hx⟩
          · unfold testIter
            simp only [hr, hr1, Buf.verdict, hl, hto, hb]
            rw [← ht1]
          · refine (G2.trans (.one ?_) : Goes u s _ ([] ++ [] ++ _))
            simp only [Sys.go, st2, buf2, hb, at2]
          · intro hall c hc; exact hall c (hc1 ▸ hc)

theorem Goes.inv [Rigid X] {D : Duration} {u : Nat} {s s' : Sys X} {evs new : List Ev} (h : Goes u s s' new) (hi : Inv D s evs) :
    Inv D s' (evs ++ new) := by
  obtain ⟨n, h⟩ := h
  have := hi.run (List.replicate n (.go u))
  rw [h evs] at this
  exact this

/-- The whole loop. -/
theorem loop_alone [Rigid X] {D : Duration} {u : Nat} : ∀ (k : Nat) {s : Sys X} {evs : List Ev} {t : TestState} (e : List REv), Inv D s evs →
    s.thr u = some (.look t) → t.size - t.i ≤ k → (∀ c ∈ t.calls, c.cb ∈ s.cbs) → (∀ x ∈ e, rinner x = true) →
    (∃ (t' : TestState) (new : List Ev) (e' : List REv), testLoop s.buf s.cbs k { t with evs := e } = .done { t' with evs := e' } ∧
        ¬ t'.i < t'.size ∧ Goes u s (s.at u (some (.look t'))) new ∧ Inner new ∧ (∀ c ∈ t'.calls, c.cb ∈ s.cbs) ∧
        ∀ x ∈ e', rinner x = true) ∨
      (∃ (t' : TestState) (ex : Exc) (new : List Ev) (e' : List REv),
        testLoop s.buf s.cbs k { t with evs := e } = .threw { t' with evs := e' } ex ∧
        Goes u s ({ s with reqs := t'.mem.take t'.size, owner := none }.at u none) (new ++ [.testThrew u]) ∧ Inner new ∧
        ∀ x ∈ e', rinner x = true) := by
  intro k
  induction k with
  | zero =>
    intro s evs t e h hst hk hc he
    refine .inl ⟨t, [], e, rfl, by omega, ?_, .nil, hc, he⟩
    rw [at_eq _ _ _ hst]
    exact .refl u s
  | succ k ih =>
    intro s evs t e h hst hk hc he
    by_cases hlt : t.i < t.size
    · have hloop : testLoop s.buf s.cbs (k + 1) { t with evs := e } =
          match testIter s.buf s.cbs { t with evs := e } with
          | .done s' => testLoop s.buf s.cbs k s'
          | r => r := by
        conv => lhs; unfold testLoop
        rw [if_pos (show ({ t with evs := e } : TestState).i < ({ t with evs := e } : TestState).size from hlt)]
        cases testIter s.buf s.cbs { t with evs := e } <;> rfl
      rcases iter_alone h hst hlt e with ⟨t1, new, e1, h1, h2, h3, h4, h5, h6⟩ | ⟨t1, ex, h1, h2⟩
      · rw [h1] at hloop
        simp only at hloop
        have hi := h2.inv h
        have he1 : ∀ x ∈ e1, rinner x = true := by
          intro x hx
          rcases h6 x hx with hx | hx
          · exact he x hx
          · exact hx
        have back : ∀ p, (s.at u (some (.look t1))).at u p = s.at u p := fun p => at_at _ _ _ _
        rcases ih e1 hi (at_same _ _ _) (by omega) (h5 hc) he1 with ⟨t2, new2, e2, g1, g2, g3, g4, g5, g6⟩ | ⟨t2, ex, new2, e2, g1, g2, g3, g4⟩
        · rw [back] at g3
          exact .inl ⟨t2, new ++ new2, e2, hloop.trans g1, g2, h2.trans g3, h3.append g4, g5, g6⟩
        · have back' : ∀ rq, ({ s.at u (some (.look t1)) with reqs := rq, owner := none } : Sys X).at u none =
              ({ s with reqs := rq, owner := none } : Sys X).at u none := fun rq =>
            at_at ({ s with reqs := rq, owner := none } : Sys X) u _ _
          rw [back'] at g2
          exact .inr ⟨t2, ex, new ++ new2, e2, hloop.trans g1, by rw [List.append_assoc]; exact h2.trans g2, h3.append g3, g4⟩
      · rw [h1] at hloop
        exact .inr ⟨t1, ex, [], e, hloop, h2, .nil, he⟩
    · refine .inl ⟨t, [], e, ?_, hlt, ?_, .nil, hc, he⟩
      · unfold testLoop
        exact if_neg hlt
      · rw [at_eq _ _ _ hst]
        exact .refl u s

/-- The callbacks, one after the other. -/
theorem calling_alone [Rigid X] {u : Nat} : ∀ (cs : List Call) {s : Sys X}, s.thr u = some (.calling cs) → (∀ c ∈ cs, c.cb ∈ s.cbs) →
    Goes u s (s.at u none) (cs.map (fun c => .invoked u c.cb c.handle c.target c.source))
  | [], s, hst, _ => .one (by simp only [Sys.go, hst, List.map_nil])
  | c :: cs, s, hst, hc => by
    have g1 : s.go u = (s.at u (some (.calling cs)), [.invoked u c.cb c.handle c.target c.source]) := by
      simp only [Sys.go, hst, if_pos (hc c List.mem_cons_self)]
    have g2 := calling_alone cs (at_same s u _) (fun x hx => hc x (List.mem_cons_of_mem _ hx))
    rw [at_at] at g2
    exact (Goes.one g1).trans g2

theorem Inner.ret {evs : List Ev} (h : Inner evs) : evs.filterMap Ev.ret = [] := by
  rw [List.filterMap_eq_nil_iff]
  intro e he
  have := h e he
  cases e <;> first | rfl | cases this

theorem Inner.called {evs : List Ev} (h : Inner evs) : evs.filterMap Ev.calledBack = [] := by
  rw [List.filterMap_eq_nil_iff]
  intro e he
  have := h e he
  cases e <;> first | rfl | cases this

theorem rinner_ret {evs : List REv} (h : ∀ e ∈ evs, rinner e = true) : evs.filterMap retOf = [] := by
  rw [List.filterMap_eq_nil_iff]
  intro e he
  have := h e he
  cases e <;> first | rfl | cases this

theorem rinner_lost {evs : List REv} (h : ∀ e ∈ evs, rinner e = true) : ∀ e ∈ evs.filterMap REv.lost, rinner e = true := by
  intro e he
  rw [List.mem_filterMap] at he
  obtain ⟨x, _, hx⟩ := he
  cases x <;> simp only [REv.lost] at hx <;> cases hx <;> rfl

/-- The system after a call that ran alone. -/
def Alone [Rigid X] (u : Nat) (s : Sys X) (p : Option (Stage X)) (r : RBuf X × List REv) : Prop :=
  ∃ new, Goes u (s.at u p) (s.after r.1) new ∧ new.filterMap Ev.ret = r.2.filterMap retOf ∧
    new.filterMap Ev.calledBack = r.1.inflight.map (fun c => (c.cb, c.handle, c.target, c.source))

/-- `testTransformableRequests`, then the callbacks. -/
theorem test_alone [Rigid X] {D : Duration} {u : Nat} {s : Sys X} {evs : List Ev} (idle : s.thr u = none) (free : s.owner = none)
    (hi : Inv D (s.at u (some .owing)) evs) : Alone u s (some .owing) s.seq.test := by
  let t0 : TestState := { mem := s.reqs, size := s.reqs.length, i := 0, calls := [], locals := [], evs := [] }
  let s0 : Sys X := { s with owner := some u }
  have g1 : (s.at u (some .owing)).go u = (s0.at u (some (.look t0)), []) := by
    have h1 := at_same s u (some .owing)
    have h2 : (s.at u (some .owing)).owner = none := free
    simp only [Sys.go, h1, h2, Option.isSome, Bool.false_eq_true, if_false]
    exact congrArg (fun x => (x, ([] : List Ev))) (at_at s0 u _ _)
  have G1 := Goes.one g1
  have hi1 := G1.inv hi
  have back : ∀ (rq : List Request) (p q : Option (Stage X)), ({ s0.at u p with reqs := rq, owner := none } : Sys X).at u q =
      ({ s with reqs := rq } : Sys X).at u q := by
    intro rq p q
    have := at_at ({ s with reqs := rq } : Sys X) u p q
    rw [← this]
    unfold Sys.at
    simp only [s0]
    rw [free]
  have same : ∀ rq : List Request, ({ s with reqs := rq } : Sys X).at u none = { s with reqs := rq } := fun rq =>
    at_eq ({ s with reqs := rq } : Sys X) u none idle
  rcases loop_alone s.reqs.length [] hi1 (at_same s0 u (some (.look t0))) (by simp only [t0]; omega) (fun c hc => nomatch hc) (fun x hx => nomatch hx)
    with ⟨t', new, e', g2, hnlt, g3, g4, g5, g6⟩ | ⟨t', ex, new, e', g2, g3, g4, g5⟩
  · have hrun : testRun s.buf s.cbs s.reqs = .done { t' with evs := e' } := g2
    have ht : s.seq.test = ({ s.seq with reqs := t'.mem.take t'.size, inflight := t'.calls }, e') := by
      unfold RBuf.test
      rw [show s.seq.buf = s.buf from rfl, show s.seq.cbs = s.cbs from rfl, show s.seq.reqs = s.reqs from rfl, hrun]
      simp only [Sys.seq, List.nil_append]
    rw [at_at] at g3
    have g4' : (s0.at u (some (.look t'))).go u =
        (({ s with reqs := t'.mem.take t'.size } : Sys X).at u (some (.calling t'.calls)), [.tested u]) := by
      have h1 := at_same s0 u (some (.look t'))
      simp only [Sys.go, h1, if_neg hnlt]
      exact congrArg (fun x => (x, [Ev.tested u])) (back _ _ _)
    have g5' := calling_alone (u := u) t'.calls (at_same ({ s with reqs := t'.mem.take t'.size } : Sys X) u _) g5
    rw [at_at, same] at g5'
    refine ⟨_, ((G1.trans g3).trans (.one g4')).trans (b := t'.calls.map (fun c => .invoked u c.cb c.handle c.target c.source)) ?_, ?_, ?_⟩
    · have : s.after s.seq.test.1 = { s with reqs := t'.mem.take t'.size } := by
        rw [ht]; simp only [Sys.after, Sys.seq, free]
      rw [this]
      exact g5'
    · rw [ht]
      simp only [List.filterMap_append, List.nil_append, g4.ret, rinner_ret g6]
      simp only [List.filterMap_cons, List.filterMap_nil, Ev.ret, List.nil_append, List.filterMap_map]
      rw [List.filterMap_eq_nil_iff]
      intro c _; rfl
    · rw [ht]
      simp only [List.filterMap_append, List.nil_append, g4.called]
      simp only [List.filterMap_cons, List.filterMap_nil, Ev.calledBack, List.nil_append, List.filterMap_map]
      rw [← List.filterMap_eq_map]
      rfl
  · have hrun : testRun s.buf s.cbs s.reqs = .threw { t' with evs := e' } ex := g2
    have ht : s.seq.test = ({ s.seq with reqs := t'.mem.take t'.size }, e'.filterMap REv.lost ++ [.testThrew ex]) := by
      unfold RBuf.test
      rw [show s.seq.buf = s.buf from rfl, show s.seq.cbs = s.cbs from rfl, show s.seq.reqs = s.reqs from rfl, hrun]
      rfl
    rw [back, same] at g3
    refine ⟨_, G1.trans (s2 := s.after s.seq.test.1) (b := new ++ [.testThrew u]) ?_, ?_, ?_⟩
    · have : s.after s.seq.test.1 = { s with reqs := t'.mem.take t'.size } := by
        rw [ht]; simp only [Sys.after, Sys.seq, free]
      rw [this]
      exact g3
    · rw [ht]
      simp only [List.filterMap_append, List.nil_append, g4.ret, rinner_ret (rinner_lost g5)]
      rfl
    · rw [ht]
      simp only [List.filterMap_append, List.nil_append, g4.called]
      rfl

theorem Alone.step [Rigid X] {u : Nat} {s s1 : Sys X} {p q : Option (Stage X)} {r : RBuf X × List REv} {new : List Ev} {x : List REv}
    (g : (s.at u p).go u = (s1.at u q, new)) (h : Alone u s1 q r) (hthr : s1.thr = s.thr)
    (hret : new.filterMap Ev.ret = x.filterMap retOf) (hcb : new.filterMap Ev.calledBack = []) : Alone u s p (r.1, x ++ r.2) := by
  obtain ⟨n2, h1, h2, h3⟩ := h
  refine ⟨new ++ n2, (Goes.one g).trans ?_, ?_, ?_⟩
  · have : s.after r.1 = s1.after r.1 := by simp only [Sys.after, hthr]
    rw [this]
    exact h1
  · rw [List.filterMap_append, List.filterMap_append, hret, h2]
  · rw [List.filterMap_append, hcb, h3, List.nil_append]

theorem Alone.quiet [Rigid X] {u : Nat} {s s1 : Sys X} {p q : Option (Stage X)} {r : RBuf X × List REv}
    (g : (s.at u p).go u = (s1.at u q, [])) (h : Alone u s1 q r) (hthr : s1.thr = s.thr) : Alone u s p r :=
  Alone.step (x := []) g h hthr rfl rfl

/-- The last step of a call. -/
theorem Alone.last [Rigid X] {u : Nat} {s : Sys X} {p : Option (Stage X)} {r : RBuf X × List REv} {new : List Ev}
    (g : (s.at u p).go u = (s.after r.1, new)) (hret : new.filterMap Ev.ret = r.2.filterMap retOf)
    (hcb : new.filterMap Ev.calledBack = []) (hin : r.1.inflight = []) : Alone u s p r :=
  ⟨new, .one g, hret, by rw [hcb, hin]; rfl⟩

theorem Inv.call [Rigid X] {D : Duration} {s : Sys X} {evs : List Ev} (h : Inv D s evs) {u : Nat} (idle : s.thr u = none) (op : ROp X) :
    Inv D (s.at u (start op)) evs := by
  have := h.step (.call u op)
  simp only [Sys.step, idle, List.append_nil] at this
  exact this

/-- A call that runs alone does what the sequential model does. -/
theorem call_alone [Rigid X] {D : Duration} {s : Sys X} {evs : List Ev} (h : Inv D s evs) {u : Nat} (idle : s.thr u = none)
    (free : s.owner = none) (few : s.cbs.length < 2 ^ 32) (op : ROp X) (api : ∀ k, op ≠ .invoke k) :
    Alone u s (start op) (s.seq.step op) := by
  have hc := h.call idle op
  have self : s.after s.seq = s := by
    unfold Sys.after Sys.seq
    simp only
    rw [← free]
  have put2 : put (put s.thr u (start op)) u none = s.thr := by
    funext v
    simp only [put]
    split
    · rename_i hv; rw [hv, idle]
    · rfl
  have fine : Ev.undefined u ∉ ((s.at u (start op)).go u).2 := fun hm => (hc.go u).fine u (List.mem_append_right _ hm)
  cases op with
  | invoke k => exact absurd rfl (api k)
  | clear =>
    refine .last (new := [.cleared u]) ?_ rfl rfl rfl
    have h1 := at_same s u (start (.clear : ROp X))
    simp only [start] at h1 put2 ⊢
    simp only [Sys.go, h1]
    simp only [Sys.at, put2, RBuf.step, Sys.after, Sys.seq, free]
  | addCallback =>
    have h1 := at_same s u (start (.addCallback : ROp X))
    simp only [start] at h1 put2 ⊢
    simp only [RBuf.step, RBuf.addCallback]
    cases hn : RBuf.nextCb s.seq.cbs (s.seq.cbs.length + 1) s.seq.cbCounter with
    | none => exact absurd hn (nextCb_some few)
    | some c =>
      refine .last (new := [.registered u c]) ?_ rfl rfl rfl
      have hn' : RBuf.nextCb (s.at u (some .addCallback)).cbs ((s.at u (some .addCallback)).cbs.length + 1)
        (s.at u (some .addCallback)).cbCounter = some c := hn
      simp only [Sys.go, h1, hn']
      simp only [Sys.at, put2, Sys.after, Sys.seq, free]
  | removeCallback cb =>
    have h1 := at_same s u (start (.removeCallback cb : ROp X))
    simp only [start] at h1 put2 ⊢
    let s1 : Sys X := { s with cbs := s.cbs.filter (· ≠ cb) }
    have g1 : (s.at u (some (.remove cb))).go u = (s1.at u (some (.removed cb)), []) := by
      simp only [Sys.go, h1]
      exact congrArg (fun x => (x, ([] : List Ev))) (at_at s1 u _ _)
    refine Alone.step (r := s.seq.removeCallback cb) (x := []) g1 ?_ rfl rfl rfl
    refine .last (new := [.removedCb u cb]) ?_ rfl rfl rfl
    have h2 := at_same s1 u (some (.removed cb))
    have h3 : (s1.at u (some (.removed cb))).owner = none := free
    simp only [Sys.go, h2, h3, Option.isSome, Bool.false_eq_true, if_false]
    have put3 : put (put s.thr u (some (.removed cb))) u none = s.thr := by
      funext v
      simp only [put]
      split
      · rename_i hv; rw [hv, idle]
      · rfl
    simp only [Sys.at, s1, put3, RBuf.removeCallback, Sys.after, Sys.seq, free]
  | cancelRequest k =>
    have h1 := at_same s u (start (.cancelRequest k : ROp X))
    simp only [start] at h1 put2 ⊢
    refine .last (new := [.cancelled u k]) ?_ rfl rfl rfl
    have h3 : (s.at u (some (.cancel k))).owner = none := free
    simp only [Sys.go, h1, h3, Option.isSome, Bool.false_eq_true, if_false]
    simp only [Sys.at, put2, RBuf.step, RBuf.cancelRequest, Sys.after, Sys.seq, free]
  | set m a st =>
    have h1 := at_same s u (start (.set m a st))
    simp only [start] at h1 put2 fine hc ⊢
    have hb : (s.at u (some (.store m a st))).buf = s.buf := rfl
    simp only [RBuf.step, RBuf.setTransform]
    cases hset : s.buf.setTransform m a st with
    | mk b res =>
      have hset' : s.seq.buf.setTransform m a st = (b, res) := hset
      have last : ∀ (e : Ev), e.calledBack = none → res ≠ .accepted → res ≠ .ub → Ev.ret e = retOf (.setDone res) →
          (s.at u (some (.store m a st))).go u = ({ s with buf := b }, [e]) →
          Alone u s (some (.store m a st)) ({ s.seq with buf := b }, [.setDone res]) := by
        intro e he _ _ hr hg
        refine .last (new := [e]) ?_ (by simp only [List.filterMap_cons, List.filterMap_nil, hr]) (by simp only [List.filterMap_cons, he, List.filterMap_nil]) rfl
        rw [hg]
        simp only [Sys.after, Sys.seq, free]
      cases res with
      | accepted =>
        simp only [hset']
        let s1 : Sys X := { s with buf := b }
        have g1 : (s.at u (some (.store m a st))).go u = (s1.at u (some .owing), [.stored u]) := by
          simp only [Sys.go, h1, hb, hset]
          exact congrArg (fun x => (x, [Ev.stored u])) (at_at s1 u _ _)
        have hi1 := (Goes.one g1).inv hc
        have := test_alone (s := s1) idle free hi1
        exact Alone.step (x := [.setDone .accepted]) g1 this rfl rfl rfl
      | ub =>
        exfalso
        simp only [Sys.go, h1, hb, hset] at fine
        exact fine List.mem_cons_self
      | invalid =>
        simp only [hset']
        have hbb : b = s.buf := by
          unfold Buf.setTransform at hset
          simp only at hset
          split at hset
          · split at hset
            · split at hset <;> (injection hset with _ h2; cases h2)
            · injection hset with _ h2; cases h2
          · injection hset with h2 _; exact h2.symm
        refine last (.invalid u) rfl (fun h => nomatch h) (fun h => nomatch h) rfl ?_
        simp only [Sys.go, h1, hb, hset]
        simp only [Sys.at, put2, hbb]
      | tooOld =>
        simp only [hset']
        refine last (.touched u) rfl (fun h => nomatch h) (fun h => nomatch h) rfl ?_
        simp only [Sys.go, h1, hb, hset]
        simp only [Sys.at, put2]
      | repeated =>
        simp only [hset']
        refine last (.touched u) rfl (fun h => nomatch h) (fun h => nomatch h) rfl ?_
        simp only [Sys.go, h1, hb, hset]
        simp only [Sys.at, put2]
      | threw =>
        simp only [hset']
        refine last (.touched u) rfl (fun h => nomatch h) (fun h => nomatch h) rfl ?_
        simp only [Sys.go, h1, hb, hset]
        simp only [Sys.at, put2]
  | addRequest cb tg src tm =>
    have ended : ∀ (p : Option (Stage X)) (e : Ev) (x : REv), e.calledBack = none → e.ret = retOf x →
        (s.at u p).go u = (s, [e]) → Alone u s p (s.seq, [x]) := by
      intro p e x he hr hg
      refine .last (new := [e]) ?_ (by simp only [List.filterMap_cons, List.filterMap_nil, hr]) (by simp only [List.filterMap_cons, he, List.filterMap_nil]) rfl
      rw [hg, self]
    have atn : ∀ p, (s.at u p).at u none = s := fun p => by rw [at_at, at_eq _ _ _ idle]
    simp only [start, RBuf.step, RBuf.addRequest]
    have h1 := at_same s u (some (.ask cb tg src tm))
    by_cases hne : tg = src
    · rw [if_pos hne]
      refine ended _ (.immediate u) _ rfl rfl ?_
      simp only [Sys.go, h1, if_pos hne, atn]
    · rw [if_neg hne]
      have g1 : (s.at u (some (.ask cb tg src tm))).go u =
          (s.at u (some (.asked cb tg src tm (s.buf.lookupFrameNumber tg) (s.buf.lookupFrameNumber src))), [.asked u]) := by
        simp only [Sys.go, h1, if_neg hne]
        rw [at_at]
        rfl
      have nx : ∀ {p q : Option (Stage X)} {new : List Ev} {r : RBuf X × List REv}, (s.at u p).go u = (s.at u q, new) →
          new.filterMap Ev.ret = [] → new.filterMap Ev.calledBack = [] → Alone u s q r → Alone u s p r := by
        intro p q new r hg hr hcb hal
        exact Alone.step (x := []) hg hal rfl hr hcb
      refine nx g1 rfl rfl ?_
      show Alone u s _ (match s.buf.canTransformNoLock (s.buf.lookupFrameNumber tg) (s.buf.lookupFrameNumber src) tm with
        | .ub => (s.seq, [.undefined])
        | .throw _ => (s.seq, [.addThrew])
        | .ok true => (s.seq, [.immediate tg src tm])
        | .ok false =>
          match (if s.buf.lookupFrameNumber tg ≠ 0 ∧ s.buf.lookupFrameNumber src ≠ 0 then
              match s.buf.latestOrZero (s.buf.lookupFrameNumber tg) (s.buf.lookupFrameNumber src) with
              | .ok latest => s.buf.tooOldFor latest tm
              | .throw e => .throw e
              | .ub => .ub
            else .ok false : Res Bool) with
          | .ub => (s.seq, [.undefined])
          | .throw _ => (s.seq, [.addThrew])
          | .ok true => (s.seq, [.never tg src tm])
          | .ok false => ({ s.seq with
              reqs := s.reqs ++ [{ time := tm, handle := (RBuf.nextHandle s.reqCounter).2, cb := cb, tid := s.buf.lookupFrameNumber tg
                                   sid := s.buf.lookupFrameNumber src, tstr := if s.buf.lookupFrameNumber tg = 0 then tg else []
                                   sstr := if s.buf.lookupFrameNumber src = 0 then src else [] }]
              reqCounter := (RBuf.nextHandle s.reqCounter).1 }, [.added (RBuf.nextHandle s.reqCounter).2 cb tg src tm]))
      generalize s.buf.lookupFrameNumber tg = tid
      generalize s.buf.lookupFrameNumber src = sid
      obtain ⟨b, hb⟩ := canNoLock_ne_ub h.wf tid sid tm
      have h2 := at_same s u (some (.asked cb tg src tm tid sid))
      have hb2 : ∀ p, (s.at u p).buf = s.buf := fun _ => rfl
      rw [hb]
      cases b with
      | true =>
        refine ended _ (.immediate u) _ rfl rfl ?_
        simp only [Sys.go, h2, hb2, hb, atn]
      | false =>
        refine nx (q := some (.cannot cb tg src tm tid sid)) (new := []) ?_ rfl rfl ?_
        · simp only [Sys.go, h2, hb2, hb, at_at]
        have h3 := at_same s u (some (.cannot cb tg src tm tid sid))
        -- from here on it is not too old
        have rest : Alone u s (some (.fresh cb tg src tm tid sid)) ({ s.seq with
              reqs := s.reqs ++ [{ time := tm, handle := (RBuf.nextHandle s.reqCounter).2, cb := cb, tid := tid
                                   sid := sid, tstr := if tid = 0 then tg else []
                                   sstr := if sid = 0 then src else [] }]
              reqCounter := (RBuf.nextHandle s.reqCounter).1 }, [.added (RBuf.nextHandle s.reqCounter).2 cb tg src tm]) := by
          have h4 := at_same s u (some (.fresh cb tg src tm tid sid))
          refine nx (q := some (.counted cb tg src tm tid sid s.reqCounter)) (new := []) ?_ rfl rfl ?_
          · simp only [Sys.go, h4, at_at]; rfl
          let s1 : Sys X := { s with reqCounter := (RBuf.nextHandle s.reqCounter).1 }
          have h5 := at_same s u (some (.counted cb tg src tm tid sid s.reqCounter))
          have g5 : (s.at u (some (.counted cb tg src tm tid sid s.reqCounter))).go u =
              (s1.at u (some (.numbered cb tg src tm tid sid (RBuf.nextHandle s.reqCounter).2)), []) := by
            simp only [Sys.go, h5]
            exact congrArg (fun x => (x, ([] : List Ev))) (at_at s1 u _ _)
          refine Alone.quiet g5 ?_ rfl
          have h6 := at_same s1 u (some (.numbered cb tg src tm tid sid (RBuf.nextHandle s.reqCounter).2))
          have h7 : (s1.at u (some (.numbered cb tg src tm tid sid (RBuf.nextHandle s.reqCounter).2))).owner = none := free
          refine .last (new := [.added u (RBuf.nextHandle s.reqCounter).2 cb tg src tm]) ?_ rfl rfl rfl
          simp only [Sys.go, h6, h7, Option.isSome, Bool.false_eq_true, if_false]
          have put3 : ∀ p, put (put s.thr u p) u none = s.thr := by
            intro p
            funext v
            simp only [put]
            split
            · rename_i hv; rw [hv, idle]
            · rfl
          simp only [Sys.at, s1, put3, Sys.after, Sys.seq, free]
        by_cases h0 : tid ≠ 0 ∧ sid ≠ 0
        · rw [if_pos h0]
          obtain ⟨l, hl⟩ := latestOrZero_cases h.wf tid sid
          rw [hl]
          simp only
          cases hto : s.buf.tooOldFor l tm with
          | ub => exact absurd hto (tooOldFor_ne_ub _ _ _)
          | throw e =>
            refine ended _ (.addThrew u) _ rfl rfl ?_
            simp only [Sys.go, h3, hb2, if_pos h0, hl, hto, atn]
          | ok v =>
            cases v with
            | true =>
              refine ended _ (.never u) _ rfl rfl ?_
              simp only [Sys.go, h3, hb2, if_pos h0, hl, hto, atn]
            | false =>
              refine nx (q := some (.fresh cb tg src tm tid sid)) (new := []) ?_ rfl rfl rest
              simp only [Sys.go, h3, hb2, if_pos h0, hl, hto, at_at]
        · rw [if_neg h0]
          refine nx (q := some (.fresh cb tg src tm tid sid)) (new := []) ?_ rfl rfl rest
          simp only [Sys.go, h3, if_neg h0, at_at]

end Tf2.Par
