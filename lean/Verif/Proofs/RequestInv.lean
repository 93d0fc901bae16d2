import Verif.Spec.Requests
import Verif.Proofs.Requests
import Verif.Proofs.History

/-! # The invariant of a buffer with requests -/
namespace Tf2

variable {X : Type}

/-! ### The verdict on a request -/

theorem canNoLock_ne_ub [Rigid X] {D : Duration} {b : Buf X} (hw : WF D b) (tid sid : Nat) (t : Time) :
    ∃ v, b.canTransformNoLock tid sid t = .ok v := by
  by_cases h0 : tid = 0 ∨ sid = 0
  · exact ⟨false, by unfold Buf.canTransformNoLock; rw [if_pos h0]⟩
  · by_cases he : tid = sid
    · exact ⟨true, by unfold Buf.canTransformNoLock; rw [if_neg h0, if_pos he]⟩
    · obtain ⟨v, hv, _⟩ := canNoLock_iff hw (t := t) (tgt := tid) (src := sid) (by omega) (by omega)
        (fun h => he h.symm)
      exact ⟨v, hv⟩

/-- Facts about each verdict. -/
def VerdictFacts (D : Duration) (b : Buf X) (tid sid : Nat) (time : Time) : Verdict → Prop
  | .ub => False
  | .threw e => e = .runtime ∧ timeAdd time D = none ∧ ∃ l, l ≠ 0 ∧ b.latestCommonTime tid sid = .ok l
  | .failure => ∃ l e, b.latestCommonTime tid sid = .ok l ∧ l ≠ 0 ∧ timeAdd time D = some e ∧ e < l
  | .available => b.canTransformNoLock tid sid time = .ok true
  | .stay => b.canTransformNoLock tid sid time = .ok false ∧
      ∀ l e, b.latestCommonTime tid sid = .ok l → l ≠ 0 → timeAdd time D = some e → ¬ e < l

theorem verdict_facts [Rigid X] {D : Duration} {b : Buf X} (hw : WF D b) (tid sid : Nat) (time : Time) :
    VerdictFacts D b tid sid time (b.verdict tid sid time) := by
  obtain ⟨v, hv⟩ := canNoLock_ne_ub hw tid sid time
  have hub := latestCommonTime_ne_ub hw tid sid
  unfold Buf.verdict Buf.latestOrZero
  cases hl : b.latestCommonTime tid sid with
  | ub => exact absurd hl hub
  | err c =>
    simp only [Buf.tooOldFor, if_true, hv]
    cases v
    · exact ⟨hv, by rw [hl]; intro _ _ h; cases h⟩
    · exact hv
  | ok l =>
    simp only
    by_cases h0 : l = 0
    · simp only [Buf.tooOldFor, h0, if_true, hv]
      cases v
      · refine ⟨hv, ?_⟩
        rw [hl]; intro l' e h h'; injection h with h; subst h; exact absurd h0 h'
      · exact hv
    · simp only [Buf.tooOldFor, h0, if_false, hw.cacheTime]
      cases ha : timeAdd time D with
      | none => exact ⟨rfl, ha, l, h0, hl⟩
      | some e =>
        simp only
        by_cases hlt : e < l
        · simp only [hlt, decide_true]; exact ⟨l, e, hl, h0, ha, hlt⟩
        · simp only [hlt, decide_false, hv]
          cases v
          · refine ⟨hv, ?_⟩
            rw [hl, ha]; intro l' e' h _ h'
            injection h with h; injection h' with h'; subst h; subst h'; exact hlt
          · exact hv

theorem latestCommonTime_zero {b : Buf X} {tid sid : Nat} (h : tid = 0 ∨ sid = 0) :
    b.latestCommonTime tid sid = .err .lookup := by
  unfold Buf.latestCommonTime
  rw [if_pos (by omega)]

theorem canNoLock_zero {b : Buf X} {tid sid : Nat} {t : Time} (h : tid = 0 ∨ sid = 0) :
    b.canTransformNoLock tid sid t = .ok false := by
  unfold Buf.canTransformNoLock; rw [if_pos h]

/-- An answered or throwing request has two known frames. -/
theorem verdict_ids [Rigid X] {D : Duration} {b : Buf X} (hw : WF D b) {tid sid : Nat} {time : Time}
    (h : b.verdict tid sid time ≠ .stay) : tid ≠ 0 ∧ sid ≠ 0 := by
  have hf := verdict_facts hw tid sid time
  by_cases h0 : tid = 0 ∨ sid = 0
  · exfalso
    cases hv : b.verdict tid sid time <;> rw [hv] at hf h
    · exact h rfl
    · obtain ⟨l, e, h1, _⟩ := hf; rw [latestCommonTime_zero h0] at h1; cases h1
    · rw [VerdictFacts, canNoLock_zero h0] at hf; cases hf
    · obtain ⟨_, _, l, _, h1⟩ := hf; rw [latestCommonTime_zero h0] at h1; cases h1
    · exact hf
  · omega

/-! ### Requests and the names they were made for -/

/-- The request `r` is about frames `target` and `source`: an id it already has is the frame's number;
otherwise the name is kept. -/
def ReqFor (b : Buf X) (r : Request) (target source : Name) : Prop :=
  (r.tid = 0 → r.tstr = target) ∧ (r.tid ≠ 0 → b.frameIDs target = some r.tid) ∧
  (r.sid = 0 → r.sstr = source) ∧ (r.sid ≠ 0 → b.frameIDs source = some r.sid)

theorem ReqFor.resolve_tid {b : Buf X} {r : Request} {t s : Name} (h : ReqFor b r t s) :
    (r.resolve b).tid = b.lookupFrameNumber t ∧ (r.resolve b).sid = b.lookupFrameNumber s := by
  obtain ⟨h1, h2, h3, h4⟩ := h
  constructor
  · by_cases h0 : r.tid = 0
    · simp [Request.resolve, h0, h1 h0]
    · simp [Request.resolve, h0, Buf.lookupFrameNumber, h2 h0]
  · by_cases h0 : r.sid = 0
    · simp [Request.resolve, h0, h3 h0]
    · simp [Request.resolve, h0, Buf.lookupFrameNumber, h4 h0]

theorem ReqFor.resolve {b : Buf X} {r : Request} {t s : Name} (h : ReqFor b r t s) :
    ReqFor b (r.resolve b) t s := by
  obtain ⟨e1, e2⟩ := h.resolve_tid
  refine ⟨?_, ?_, ?_, ?_⟩
  · intro h0
    by_cases h1 : r.tid = 0
    · exact h.1 h1
    · simp [Request.resolve, h1] at h0
  · intro h0; rw [e1] at h0 ⊢; exact (isFrame_of_lookup h0).2
  · intro h0
    by_cases h1 : r.sid = 0
    · exact h.2.2.1 h1
    · simp [Request.resolve, h1] at h0
  · intro h0; rw [e2] at h0 ⊢; exact (isFrame_of_lookup h0).2

theorem ReqFor.mono {b b' : Buf X} {r : Request} {t s : Name} (h : ReqFor b r t s)
    (hb : ∀ n i, b.frameIDs n = some i → b'.frameIDs n = some i) : ReqFor b' r t s :=
  ⟨h.1, fun h0 => hb _ _ (h.2.1 h0), h.2.2.1, fun h0 => hb _ _ (h.2.2.2 h0)⟩

theorem ReqFor.names [Rigid X] {D : Duration} {b : Buf X} (hw : WF D b) {r : Request} {t s : Name}
    (h : ReqFor b r t s) (hv : r.verdictIn b ≠ .stay) :
    b.lookupFrameString (r.resolve b).tid = .ok t ∧ b.lookupFrameString (r.resolve b).sid = .ok s := by
  obtain ⟨e1, e2⟩ := h.resolve_tid
  obtain ⟨n1, n2⟩ := verdict_ids hw hv
  rw [e1] at n1 ⊢; rw [e2] at n2 ⊢
  have a1 := (hw.ids _ _).1 (isFrame_of_lookup n1).2
  have a2 := (hw.ids _ _).1 (isFrame_of_lookup n2).2
  constructor <;> unfold Buf.lookupFrameString
  · rw [a1]
  · rw [a2]

/-! ### Lists of events -/

theorem addedHandles_append (a b : List REv) : addedHandles (a ++ b) = addedHandles a ++ addedHandles b := by
  induction a with
  | nil => rfl
  | cons x r ih => cases x <;> simp [addedHandles, ih]

theorem calledHandles_append (a b : List REv) : calledHandles (a ++ b) = calledHandles a ++ calledHandles b := by
  induction a with
  | nil => rfl
  | cons x r ih => cases x <;> simp [calledHandles, ih]

theorem droppedHandles_append (a b : List REv) :
    droppedHandles (a ++ b) = droppedHandles a ++ droppedHandles b := by
  induction a with
  | nil => rfl
  | cons x r ih => cases x <;> simp [droppedHandles, ih]

theorem mem_addedHandles {h : Nat} {evs : List REv} :
    h ∈ addedHandles evs ↔ ∃ cb t s tm, REv.added h cb t s tm ∈ evs := by
  induction evs with
  | nil => simp [addedHandles]
  | cons x r ih => cases x <;> simp [addedHandles, ih, List.mem_cons, eq_comm] <;> grind

theorem mem_calledHandles {h : Nat} {evs : List REv} :
    h ∈ calledHandles evs ↔ (∃ cb t s, REv.invoked cb h t s ∈ evs) ∨ ∃ cb, REv.danglingInvoke cb h ∈ evs := by
  induction evs with
  | nil => simp [calledHandles]
  | cons x r ih => cases x <;> simp [calledHandles, ih, List.mem_cons, eq_comm, or_assoc] <;> grind

theorem mem_droppedHandles {h : Nat} {evs : List REv} :
    h ∈ droppedHandles evs ↔ REv.dropped h ∈ evs := by
  induction evs with
  | nil => simp [droppedHandles]
  | cons x r ih => cases x <;> simp [droppedHandles, ih, List.mem_cons, eq_comm]


/-! ### Counting where a handle is -/

/-- How often a handle occurs among the pending, scheduled, called and dropped requests. -/
def cnt (s : RBuf X) (evs : List REv) (h : Nat) : Nat :=
  s.pending.count h + s.scheduled.count h + (calledHandles evs).count h + (droppedHandles evs).count h

/-- The invariant of a history with events `evs` and state `s`, as long as the 64-bit counter has not
wrapped. -/
structure RInv (D : Duration) (s : RBuf X) (evs : List REv) : Prop where
  wf : WF D s.buf
  added : addedHandles evs = List.range' 1 s.reqCounter
  reqs : ∀ r ∈ s.reqs, ∃ t src, t ≠ src ∧ REv.added r.handle r.cb t src r.time ∈ evs ∧ ReqFor s.buf r t src
  infl : ∀ c ∈ s.inflight, (∃ tm, REv.added c.handle c.cb c.target c.source tm ∈ evs) ∧
    ∃ av, REv.extracted c.handle av ∈ evs
  calls : ∀ cb h t src, REv.invoked cb h t src ∈ evs → (∃ tm, REv.added h cb t src tm ∈ evs) ∧
    ∃ av, REv.extracted h av ∈ evs
  count : ∀ h, cnt s evs h ≤ (addedHandles evs).count h
  acct : ∀ h cb t src tm, REv.added h cb t src tm ∈ evs → 1 ≤ cnt s evs h ∨
    (∃ h', REv.cancelled h' ∈ evs ∧ h' % 2 ^ 32 = h) ∨ REv.removedCb cb ∈ evs
  fine : REv.undefined ∉ evs

theorem RInv.init (D : Duration) : RInv D (RBuf.init D : RBuf X) [] where
  wf := WF.init D
  added := rfl
  reqs := by intro r h; cases h
  infl := by intro r h; cases h
  calls := by intro _ _ _ _ h; cases h
  count := by intro h; simp [cnt, RBuf.pending, RBuf.scheduled, RBuf.init, calledHandles, droppedHandles]
  acct := by intro _ _ _ _ _ h; cases h
  fine := by simp

/-- The effect of the sweep on the state and the events. -/
inductive TestOut (D : Duration) (s : RBuf X) : RBuf X → List REv → Prop
  | done {kept fired : List Request} {new : List Call}
      (perm : (kept ++ fired).Perm s.reqs)
      (keptV : ∀ r ∈ kept, r.verdictIn s.buf = .stay)
      (firedV : ∀ r ∈ fired, r.verdictIn s.buf = .failure ∨ r.verdictIn s.buf = .available)
      (cf : CallsFor s.buf s.cbs fired new) :
      TestOut D s { s with reqs := kept.map (Request.resolve s.buf), inflight := s.inflight ++ new }
        (fired.map (firedEv s.buf s.cbs))
  | threw {kept fired l : List Request} {r : Request}
      (perm : (kept ++ fired ++ r :: l).Perm s.reqs)
      (rV : timeAdd r.time D = none)
      (firedV : ∀ r ∈ fired, r.verdictIn s.buf = .failure ∨ r.verdictIn s.buf = .available) :
      TestOut D s { s with reqs := kept.map (Request.resolve s.buf) ++ r.resolve s.buf :: l }
        (fired.map (fun r => .dropped r.handle) ++ [.testThrew .runtime])

theorem map_firedEv_dropped (b : Buf X) (cbs : List Nat) (fired : List Request) :
    (fired.map (firedEv b cbs)).filterMap REv.lost = fired.map (fun r => .dropped r.handle) := by
  induction fired with
  | nil => rfl
  | cons r l ih =>
    have h : REv.lost (firedEv b cbs r) = some (.dropped r.handle) := by
      unfold firedEv; split <;> rfl
    rw [List.map_cons, List.filterMap_cons, h, ih, List.map_cons]

theorem test_out [Rigid X] {D : Duration} {s : RBuf X} {evs : List REv} (hw : WF D s.buf)
    (hr : ∀ r ∈ s.reqs, ∃ t src, t ≠ src ∧ REv.added r.handle r.cb t src r.time ∈ evs ∧ ReqFor s.buf r t src) :
    TestOut D s s.test.1 s.test.2 := by
  have hub : ∀ r ∈ s.reqs, r.verdictIn s.buf ≠ .ub := by
    intro r _ h
    have := verdict_facts hw (r.resolve s.buf).tid (r.resolve s.buf).sid r.time
    unfold Request.verdictIn at h
    rw [h] at this; exact this
  have hn : ∀ r ∈ s.reqs, r.verdictIn s.buf = .failure ∨ r.verdictIn s.buf = .available → NamesFound s.buf r := by
    intro r h hv
    obtain ⟨t, src, _, _, hf⟩ := hr r h
    have := hf.names hw (by rcases hv with hv | hv <;> rw [hv] <;> simp)
    exact ⟨⟨_, this.1⟩, ⟨_, this.2⟩⟩
  obtain ⟨kept, fired, left, new, t, p1, p2, p3, p4, p5, p6, p7⟩ := testRun_spec s.buf s.cbs s.reqs hub hn
  simp only [List.nil_append] at p4 p5 p7
  rcases p7 with ⟨rfl, h2, h3⟩ | ⟨r, l, e, rfl, h2, h3, h4⟩
  · unfold RBuf.test
    rw [h2]
    simp only [h3, p4, p5]
    exact .done (by simpa using p1) p2 p3 p6
  · unfold RBuf.test
    rw [h3]
    simp only [h4, p4]
    rw [map_firedEv_dropped]
    have hf := verdict_facts hw (r.resolve s.buf).tid (r.resolve s.buf).sid r.time
    unfold Request.verdictIn at h2
    rw [h2] at hf
    obtain ⟨rfl, ha, _⟩ := hf
    exact .threw p1 ha p3


theorem fired_added (b : Buf X) (cbs : List Nat) (l : List Request) :
    addedHandles (l.map (firedEv b cbs)) = [] ∧ calledHandles (l.map (firedEv b cbs)) = [] ∧
      droppedHandles (l.map (firedEv b cbs)) =
        (l.filter (fun r => !decide (r.cb ∈ cbs))).map Request.handle := by
  induction l with
  | nil => exact ⟨rfl, rfl, rfl⟩
  | cons r l ih =>
    simp only [List.map_cons]
    unfold firedEv at ih ⊢
    by_cases h : r.cb ∈ cbs <;> simp [h, addedHandles, calledHandles, droppedHandles, ih]

theorem dropped_added (l : List Request) :
    addedHandles (l.map (fun r => REv.dropped r.handle)) = [] ∧
      calledHandles (l.map (fun r => REv.dropped r.handle)) = [] ∧
      droppedHandles (l.map (fun r => REv.dropped r.handle)) = l.map Request.handle := by
  induction l with
  | nil => exact ⟨rfl, rfl, rfl⟩
  | cons r l ih => simp [addedHandles, calledHandles, droppedHandles, ih]

theorem count_filter_split (p : Request → Bool) (h : Nat) (l : List Request) :
    ((l.filter p).map Request.handle).count h + ((l.filter (fun r => !p r)).map Request.handle).count h =
      (l.map Request.handle).count h := by
  induction l with
  | nil => rfl
  | cons r l ih =>
    cases hp : p r <;> simp [hp, List.count_cons] <;> omega

theorem map_resolve_handle (b : Buf X) (l : List Request) :
    (l.map (Request.resolve b)).map Request.handle = l.map Request.handle := by
  simp [List.map_map, Function.comp_def, Request.resolve_handle]

/-- Where handles are counted does not change in the sweep. -/
theorem TestOut.cnt_eq {D : Duration} {s s' : RBuf X} {new evs : List REv} (o : TestOut D s s' new) (h : Nat) :
    cnt s' (evs ++ new) h = cnt s evs h ∧ addedHandles new = [] ∧ s'.reqCounter = s.reqCounter ∧
      s'.buf = s.buf := by
  cases o with
  | @done kept fired calls perm keptV firedV cf =>
    obtain ⟨f1, f2, f3⟩ := fired_added s.buf s.cbs fired
    refine ⟨?_, f1, rfl, rfl⟩
    have hc := (perm.map Request.handle).count_eq h
    have hs := count_filter_split (fun r => decide (r.cb ∈ s.cbs)) h fired
    simp only [cnt, RBuf.pending, RBuf.scheduled, map_resolve_handle, List.map_append, cf.1, List.count_append,
      calledHandles_append, droppedHandles_append, f2, f3, List.count_nil] at hc ⊢
    omega
  | @threw kept fired l r perm rV firedV =>
    obtain ⟨f1, f2, f3⟩ := dropped_added fired
    refine ⟨?_, by simp [addedHandles_append, f1, addedHandles], rfl, rfl⟩
    have hc := (perm.map Request.handle).count_eq h
    simp only [cnt, RBuf.pending, RBuf.scheduled, map_resolve_handle, List.map_append, List.map_cons,
      List.count_append, List.count_cons, calledHandles_append, droppedHandles_append, f2, f3, List.count_nil,
      calledHandles, droppedHandles, Request.resolve_handle] at hc ⊢
    omega

theorem fired_no_undefined (b : Buf X) (cbs : List Nat) (l : List Request) :
    REv.undefined ∉ l.map (firedEv b cbs) ∧ (∀ cb h t s, REv.invoked cb h t s ∉ l.map (firedEv b cbs)) := by
  constructor
  · intro h
    obtain ⟨r, _, hr⟩ := List.mem_map.1 h
    unfold firedEv at hr; split at hr <;> cases hr
  · intro cb h' t s h
    obtain ⟨r, _, hr⟩ := List.mem_map.1 h
    unfold firedEv at hr; split at hr <;> cases hr

theorem RInv.sweep [Rigid X] {D : Duration} {s : RBuf X} {evs : List REv} (h : RInv D s evs) :
    RInv D s.test.1 (evs ++ s.test.2) := by
  have o := test_out h.wf h.reqs
  generalize hs' : s.test.1 = s' at o ⊢
  generalize hn : s.test.2 = new at o ⊢
  have hc : ∀ k, cnt s' (evs ++ new) k = cnt s evs k := fun k => (o.cnt_eq k).1
  obtain ⟨_, ha, hr, hb⟩ := o.cnt_eq (evs := evs) 0
  have hmem : ∀ e, e ∈ evs → e ∈ evs ++ new := fun e he => List.mem_append_left _ he
  refine ⟨by rw [hb]; exact h.wf, by rw [addedHandles_append, ha, hr, List.append_nil]; exact h.added,
    ?_, ?_, ?_, ?_, ?_, ?_⟩
  · intro r hrm
    have key : ∃ r0 ∈ s.reqs, r.handle = r0.handle ∧ r.cb = r0.cb ∧ r.time = r0.time ∧
        (r = r0 ∨ r = r0.resolve s.buf) := by
      cases o with
      | done perm _ _ _ =>
        obtain ⟨r0, h0, rfl⟩ := List.mem_map.1 hrm
        exact ⟨r0, perm.mem_iff.1 (List.mem_append_left _ h0), rfl, rfl, rfl, Or.inr rfl⟩
      | @threw kept fired l x perm rV firedV =>
        simp only at hrm
        rcases List.mem_append.1 hrm with h1 | h1
        · obtain ⟨r0, h0, rfl⟩ := List.mem_map.1 h1
          exact ⟨r0, perm.mem_iff.1 (List.mem_append_left _ (List.mem_append_left _ h0)), rfl, rfl, rfl,
            Or.inr rfl⟩
        · rcases List.mem_cons.1 h1 with rfl | h1
          · exact ⟨x, perm.mem_iff.1 (List.mem_append_right _ (List.mem_cons_self ..)), rfl, rfl, rfl,
              Or.inr rfl⟩
          · exact ⟨r, perm.mem_iff.1 (List.mem_append_right _ (List.mem_cons_of_mem _ h1)), rfl, rfl, rfl,
              Or.inl rfl⟩
    obtain ⟨r0, h0, e1, e2, e3, e4⟩ := key
    obtain ⟨t, src, k1, k2, k3⟩ := h.reqs r0 h0
    refine ⟨t, src, k1, by rw [e1, e2, e3]; exact hmem _ k2, ?_⟩
    rw [hb]
    rcases e4 with rfl | rfl
    · exact k3
    · exact k3.resolve
  · intro c hcm
    have old : c ∈ s.inflight → (∃ tm, REv.added c.handle c.cb c.target c.source tm ∈ evs ++ new) ∧
        ∃ av, REv.extracted c.handle av ∈ evs ++ new := by
      intro hc
      obtain ⟨⟨tm, k1⟩, av, k2⟩ := h.infl c hc
      exact ⟨⟨tm, hmem _ k1⟩, av, hmem _ k2⟩
    cases o with
    | threw _ _ _ => exact old hcm
    | @done kept fired calls perm keptV firedV cf =>
      simp only at hcm
      rcases List.mem_append.1 hcm with h1 | h1
      · exact old h1
      · obtain ⟨r0, h0, hcf⟩ := cf.2 c h1
        obtain ⟨t, src, k1, k2, k3⟩ := h.reqs r0 (perm.mem_iff.1 (List.mem_append_right _ h0))
        have hv := firedV r0 h0
        have hnm := k3.names h.wf (by rcases hv with hv | hv <;> rw [hv] <;> simp)
        obtain ⟨c1, c2, c3, c4⟩ := hcf
        rw [hnm.1] at c3; rw [hnm.2] at c4
        injection c3 with c3; injection c4 with c4
        refine ⟨⟨r0.time, ?_⟩, ?_⟩
        · rw [c1, c2, ← c3, ← c4]; exact hmem _ k2
        · have hin : c.handle ∈ (fired.filter (fun r => decide (r.cb ∈ s.cbs))).map Request.handle := by
            rw [← cf.1]; exact List.mem_map.2 ⟨c, h1, rfl⟩
          obtain ⟨r1, hr1, he⟩ := List.mem_map.1 hin
          have hr2 := List.mem_filter.1 hr1
          refine ⟨decide (r1.verdictIn s.buf = .available),
            List.mem_append_right _ (List.mem_map.2 ⟨r1, hr2.1, ?_⟩)⟩
          unfold firedEv
          rw [if_pos (by simpa using hr2.2), he]
  · intro cb hh t src hi
    have hi' : REv.invoked cb hh t src ∈ evs := by
      rcases List.mem_append.1 hi with hi | hi
      · exact hi
      · exfalso
        cases o with
        | done _ _ _ _ => exact (fired_no_undefined _ _ _).2 _ _ _ _ hi
        | threw _ _ _ => simp at hi
    obtain ⟨⟨tm, k1⟩, av, k2⟩ := h.calls cb hh t src hi'
    exact ⟨⟨tm, hmem _ k1⟩, av, hmem _ k2⟩
  · intro k
    rw [hc, addedHandles_append, ha, List.append_nil]
    exact h.count k
  · intro hh cb t src tm hm
    have hm' : REv.added hh cb t src tm ∈ evs := by
      rcases List.mem_append.1 hm with hm | hm
      · exact hm
      · have : hh ∈ addedHandles new := mem_addedHandles.2 ⟨_, _, _, _, hm⟩
        rw [ha] at this; cases this
    rw [hc]
    rcases h.acct hh cb t src tm hm' with k | ⟨h', k, e⟩ | k
    · exact Or.inl k
    · exact Or.inr (Or.inl ⟨h', hmem _ k, e⟩)
    · exact Or.inr (Or.inr (hmem _ k))
  · intro hu
    rcases List.mem_append.1 hu with hu | hu
    · exact h.fine hu
    · cases o with
      | done _ _ _ _ => exact (fired_no_undefined _ _ _).1 hu
      | threw _ _ _ => simp at hu

/-- A change of the buffer that keeps the names, together with events that say nothing about
requests. -/
theorem RInv.rebuf {D : Duration} {s : RBuf X} {evs : List REv} (h : RInv D s evs) {b : Buf X} (hw : WF D b)
    (hb : ∀ n i, s.buf.frameIDs n = some i → b.frameIDs n = some i) : RInv D { s with buf := b } evs :=
  ⟨hw, h.added, fun r hr => by
      obtain ⟨t, src, k1, k2, k3⟩ := h.reqs r hr
      exact ⟨t, src, k1, k2, k3.mono hb⟩,
    h.infl, h.calls, h.count, h.acct, h.fine⟩

/-- Adding an event that says nothing about requests. -/
theorem RInv.note {D : Duration} {s : RBuf X} {evs : List REv} (h : RInv D s evs) (e : REv)
    (h1 : addedHandles [e] = []) (h2 : calledHandles [e] = []) (h3 : droppedHandles [e] = [])
    (h4 : e ≠ .undefined) : RInv D s (evs ++ [e]) := by
  have hc : ∀ k, cnt s (evs ++ [e]) k = cnt s evs k := by
    intro k; simp [cnt, calledHandles_append, droppedHandles_append, h2, h3]
  have hmem : ∀ x, x ∈ evs → x ∈ evs ++ [e] := fun x hx => List.mem_append_left _ hx
  refine ⟨h.wf, by rw [addedHandles_append, h1, List.append_nil]; exact h.added, ?_, ?_, ?_, ?_, ?_, ?_⟩
  · intro r hr
    obtain ⟨t, src, k1, k2, k3⟩ := h.reqs r hr
    exact ⟨t, src, k1, hmem _ k2, k3⟩
  · intro c hcm
    obtain ⟨⟨tm, k1⟩, av, k2⟩ := h.infl c hcm
    exact ⟨⟨tm, hmem _ k1⟩, av, hmem _ k2⟩
  · intro cb hh t src hi
    have hi' : REv.invoked cb hh t src ∈ evs := by
      rcases List.mem_append.1 hi with hi | hi
      · exact hi
      · have : hh ∈ calledHandles [e] := mem_calledHandles.2 (Or.inl ⟨_, _, _, hi⟩)
        rw [h2] at this; cases this
    obtain ⟨⟨tm, k1⟩, av, k2⟩ := h.calls cb hh t src hi'
    exact ⟨⟨tm, hmem _ k1⟩, av, hmem _ k2⟩
  · intro k; rw [hc, addedHandles_append, h1, List.append_nil]; exact h.count k
  · intro hh cb t src tm hm
    have hm' : REv.added hh cb t src tm ∈ evs := by
      rcases List.mem_append.1 hm with hm | hm
      · exact hm
      · have : hh ∈ addedHandles [e] := mem_addedHandles.2 ⟨_, _, _, _, hm⟩
        rw [h1] at this; cases this
    rw [hc]
    rcases h.acct hh cb t src tm hm' with k | ⟨h', k, e⟩ | k
    · exact Or.inl k
    · exact Or.inr (Or.inl ⟨h', hmem _ k, e⟩)
    · exact Or.inr (Or.inr (hmem _ k))
  · intro hu
    rcases List.mem_append.1 hu with hu | hu
    · exact h.fine hu
    · simp at hu; exact h4 hu.symm


theorem added_unique {evs : List REv} (hn : (addedHandles evs).Nodup) {h cb cb' : Nat} {t t' s s' : Name}
    {tm tm' : Time} (h1 : REv.added h cb t s tm ∈ evs) (h2 : REv.added h cb' t' s' tm' ∈ evs) :
    cb = cb' ∧ t = t' ∧ s = s' ∧ tm = tm' := by
  induction evs with
  | nil => cases h1
  | cons x r ih =>
    have hn' : (addedHandles r).Nodup := by
      cases x <;> simp [addedHandles] at hn <;> first | exact hn | exact hn.2
    rcases List.mem_cons.1 h1 with rfl | h1'
    · rcases List.mem_cons.1 h2 with h2 | h2
      · injection h2 with _ a b c d; exact ⟨a.symm, b.symm, c.symm, d.symm⟩
      · simp only [addedHandles, List.nodup_cons] at hn
        exact absurd (mem_addedHandles.2 ⟨_, _, _, _, h2⟩) hn.1
    · rcases List.mem_cons.1 h2 with rfl | h2'
      · simp only [addedHandles, List.nodup_cons] at hn
        exact absurd (show h ∈ addedHandles r from mem_addedHandles.2 ⟨_, _, _, _, h1'⟩) hn.1
      · exact ih hn' h1' h2'

theorem set_ne_ub [Rigid X] {D : Duration} {b : Buf X} (hw : WF D b) (m : Msg X) (a : Name) (st : Bool) :
    (b.setTransform m a st).2 ≠ .ub := by
  cases hv : Buf.msgValid (Buf.stripMsg m) with
  | false => rw [Buf.setTransform_invalid hv]; simp
  | true =>
    obtain ⟨cid, pid, c0, c1, ir, st⟩ := Buf.setTransform_step hw.names m a st hv
    rw [st.hres]
    cases ir <;> simp [Buf.SetRes.ofInsert]

theorem sublist_cnt {s s' : RBuf X} {evs new : List REv} (h1 : s'.pending.Sublist s.pending)
    (h2 : s'.scheduled.Sublist s.scheduled) (h3 : calledHandles new = []) (h4 : droppedHandles new = [])
    (k : Nat) : cnt s' (evs ++ new) k ≤ cnt s evs k := by
  have a := h1.count_le k
  have b := h2.count_le k
  simp only [cnt, calledHandles_append, droppedHandles_append, h3, h4, List.append_nil]
  omega

/-- Requests leave the vector for a reason recorded in the new event. -/
theorem RInv.filterReqs {D : Duration} {s s' : RBuf X} {evs : List REv} (h : RInv D s evs) (e : REv)
    (p : Request → Bool) (hs : s'.reqs = s.reqs.filter p) (hb : s'.buf = s.buf)
    (hi : s'.inflight = s.inflight) (hr : s'.reqCounter = s.reqCounter)
    (h1 : addedHandles [e] = []) (h2 : calledHandles [e] = []) (h3 : droppedHandles [e] = [])
    (h4 : e ≠ .undefined)
    (why : ∀ r ∈ s.reqs, p r = false → (∃ h', e = .cancelled h' ∧ h' % 2 ^ 32 = r.handle) ∨ e = .removedCb r.cb) :
    RInv D s' (evs ++ [e]) := by
  have hn := h.note e h1 h2 h3 h4
  have hsub : s'.pending.Sublist s.pending := by
    unfold RBuf.pending; rw [hs]; exact (List.filter_sublist).map _
  have hle : ∀ k, cnt s' (evs ++ [e]) k ≤ cnt s evs k :=
    sublist_cnt hsub (by unfold RBuf.scheduled; rw [hi]; exact List.Sublist.refl _) h2 h3
  refine ⟨by rw [hb]; exact h.wf, by rw [hr]; exact hn.added, ?_, by rw [hi]; exact hn.infl, hn.calls, ?_, ?_,
    hn.fine⟩
  · intro r hr
    rw [hs] at hr
    obtain ⟨t, src, k1, k2, k3⟩ := hn.reqs r (List.mem_filter.1 hr).1
    exact ⟨t, src, k1, k2, by rw [hb]; exact k3⟩
  · intro k
    have := hle k; have := h.count k
    rw [addedHandles_append, h1, List.append_nil]; omega
  · intro hh cb t src tm hm
    rcases hn.acct hh cb t src tm hm with k | k | k
    · -- it was counted before: still counted, or filtered out
      by_cases hp : hh ∈ s.pending ∧ hh ∉ s'.pending
      · obtain ⟨r, hrm, rfl⟩ := List.mem_map.1 hp.1
        have hpf : p r = false := by
          cases hpr : p r with
          | false => rfl
          | true =>
            exact absurd (List.mem_map.2 ⟨r, by rw [hs]; exact List.mem_filter.2 ⟨hrm, hpr⟩, rfl⟩) hp.2
        obtain ⟨t', src', _, k2, _⟩ := hn.reqs r hrm
        rcases why r hrm hpf with ⟨h', rfl, hm'⟩ | rfl
        · exact Or.inr (Or.inl ⟨h', by simp, hm'⟩)
        · -- the callback of the request is the one in the added event: handles are added once
          right; right
          have : cb = r.cb := by
            have hnd : (addedHandles (evs ++ [.removedCb r.cb])).Nodup := by
              rw [hn.added]; exact List.nodup_range'
            exact (added_unique hnd hm k2).1
          rw [this]; simp
      · left
        have hcount : cnt s (evs ++ [e]) hh ≤ cnt s' (evs ++ [e]) hh ∨ 0 < s'.pending.count hh := by
          by_cases hq : hh ∈ s.pending
          · right
            have : hh ∈ s'.pending := by
              by_cases h' : hh ∈ s'.pending
              · exact h'
              · exact absurd ⟨hq, h'⟩ hp
            exact List.count_pos_iff.2 this
          · left
            have : s.pending.count hh = 0 := List.count_eq_zero.2 hq
            simp only [cnt, this, RBuf.scheduled, hi]; omega
        rcases hcount with hcount | hcount
        · omega
        · simp only [cnt]; omega
    · exact Or.inr (Or.inl k)
    · exact Or.inr (Or.inr k)


theorem eraseIdx_perm {α : Type} {a : α} : ∀ {l : List α} {k : Nat}, l[k]? = some a → (a :: l.eraseIdx k).Perm l
  | [], k, h => by simp at h
  | x :: r, 0, h => by simp at h; subst h; simp
  | x :: r, k + 1, h => by
    have h' : r[k]? = some a := by simpa using h
    have ih := eraseIdx_perm h'
    rw [List.eraseIdx_cons_succ]
    exact (List.Perm.swap _ _ _).trans (ih.cons x)

theorem RInv.invoke {D : Duration} {s : RBuf X} {evs : List REv} (h : RInv D s evs) (k : Nat) :
    RInv D (s.invoke k).1 (evs ++ (s.invoke k).2) := by
  unfold RBuf.invoke
  cases hc : s.inflight[k]? with
  | none => simpa using h
  | some c =>
    simp only
    have hmem : c ∈ s.inflight := List.mem_of_getElem? hc
    generalize he : (if c.cb ∈ s.cbs then REv.invoked c.cb c.handle c.target c.source
      else .danglingInvoke c.cb c.handle) = e
    have e1 : addedHandles [e] = [] := by rw [← he]; split <;> rfl
    have e2 : calledHandles [e] = [c.handle] := by rw [← he]; split <;> rfl
    have e3 : droppedHandles [e] = [] := by rw [← he]; split <;> rfl
    have e4 : e ≠ .undefined := by rw [← he]; split <;> simp
    have hperm : (c.handle :: (s.inflight.eraseIdx k).map Call.handle).Perm (s.inflight.map Call.handle) := by
      have := (eraseIdx_perm hc).map Call.handle
      rwa [List.map_cons] at this
    have hcnt : ∀ j, cnt { s with inflight := s.inflight.eraseIdx k } (evs ++ [e]) j = cnt s evs j := by
      intro j
      have := hperm.count_eq j
      simp only [cnt, RBuf.pending, RBuf.scheduled, calledHandles_append, droppedHandles_append, e2, e3,
        List.count_append, List.count_cons, List.count_nil, List.append_nil] at this ⊢
      omega
    have hm : ∀ x, x ∈ evs → x ∈ evs ++ [e] := fun x hx => List.mem_append_left _ hx
    refine ⟨h.wf, by rw [addedHandles_append, e1, List.append_nil]; exact h.added, ?_, ?_, ?_, ?_, ?_, ?_⟩
    · intro r hr
      obtain ⟨t, src, k1, k2, k3⟩ := h.reqs r hr
      exact ⟨t, src, k1, hm _ k2, k3⟩
    · intro c' hc'
      obtain ⟨⟨tm, k1⟩, av, k2⟩ := h.infl c' (List.mem_of_mem_eraseIdx hc')
      exact ⟨⟨tm, hm _ k1⟩, av, hm _ k2⟩
    · intro cb hh t src hi
      rcases List.mem_append.1 hi with hi | hi
      · obtain ⟨⟨tm, k1⟩, av, k2⟩ := h.calls cb hh t src hi
        exact ⟨⟨tm, hm _ k1⟩, av, hm _ k2⟩
      · simp only [List.mem_singleton] at hi
        rw [← he] at hi
        split at hi
        · injection hi with a b c' d
          subst a; subst b; subst c'; subst d
          obtain ⟨⟨tm, k1⟩, av, k2⟩ := h.infl c hmem
          exact ⟨⟨tm, hm _ k1⟩, av, hm _ k2⟩
        · cases hi
    · intro j; rw [hcnt, addedHandles_append, e1, List.append_nil]; exact h.count j
    · intro hh cb t src tm hmm
      have hm' : REv.added hh cb t src tm ∈ evs := by
        rcases List.mem_append.1 hmm with hmm | hmm
        · exact hmm
        · have : hh ∈ addedHandles [e] := mem_addedHandles.2 ⟨_, _, _, _, hmm⟩
          rw [e1] at this; cases this
      rw [hcnt]
      rcases h.acct hh cb t src tm hm' with k | ⟨h', k, e⟩ | k
      · exact Or.inl k
      · exact Or.inr (Or.inl ⟨h', hm _ k, e⟩)
      · exact Or.inr (Or.inr (hm _ k))
    · intro hu
      rcases List.mem_append.1 hu with hu | hu
      · exact h.fine hu
      · simp at hu; exact e4 hu.symm

/-- What `addTransformableRequest` does. -/
inductive AddOut (D : Duration) (s : RBuf X) (cb : Nat) (t src : Name) (time : Time) : RBuf X → List REv → Prop
  | same (h : t = src) : AddOut D s cb t src time s [.immediate t src time]
  | now (h : t ≠ src)
      (hc : s.buf.canTransformNoLock (s.buf.lookupFrameNumber t) (s.buf.lookupFrameNumber src) time = .ok true) :
      AddOut D s cb t src time s [.immediate t src time]
  | never (h : t ≠ src)
      (hc : s.buf.canTransformNoLock (s.buf.lookupFrameNumber t) (s.buf.lookupFrameNumber src) time = .ok false)
      (ho : TooOld s.buf t src time) : AddOut D s cb t src time s [.never t src time]
  | threw (h : t ≠ src)
      (hc : s.buf.canTransformNoLock (s.buf.lookupFrameNumber t) (s.buf.lookupFrameNumber src) time = .ok false)
      (ho : timeAdd time D = none) (hl : ∃ i j l, IsFrame s.buf t i ∧ IsFrame s.buf src j ∧ l ≠ 0 ∧
        s.buf.latestCommonTime i j = .ok l) : AddOut D s cb t src time s [.addThrew]
  | pending (h : t ≠ src)
      (hc : s.buf.canTransformNoLock (s.buf.lookupFrameNumber t) (s.buf.lookupFrameNumber src) time = .ok false)
      (ho : ¬ TooOld s.buf t src time) (r : Request)
      (hr : r = { time := time, handle := (RBuf.nextHandle s.reqCounter).2, cb := cb
                  tid := s.buf.lookupFrameNumber t, sid := s.buf.lookupFrameNumber src
                  tstr := if s.buf.lookupFrameNumber t = 0 then t else []
                  sstr := if s.buf.lookupFrameNumber src = 0 then src else [] }) :
      AddOut D s cb t src time
        { s with reqs := s.reqs ++ [r], reqCounter := (RBuf.nextHandle s.reqCounter).1 }
        [.added (RBuf.nextHandle s.reqCounter).2 cb t src time]

theorem addRequest_out [Rigid X] {D : Duration} {s : RBuf X} (hw : WF D s.buf) (cb : Nat) (t src : Name)
    (time : Time) : AddOut D s cb t src time (s.addRequest cb t src time).1 (s.addRequest cb t src time).2 := by
  unfold RBuf.addRequest
  by_cases hne : t = src
  · rw [if_pos hne]; exact .same hne
  · rw [if_neg hne]
    simp only
    obtain ⟨v, hv⟩ := canNoLock_ne_ub hw (s.buf.lookupFrameNumber t) (s.buf.lookupFrameNumber src) time
    rw [hv]
    cases v with
    | true => exact .now hne hv
    | false =>
      simp only
      have hold : ∀ {i j l e : Nat}, IsFrame s.buf t i → IsFrame s.buf src j →
          s.buf.latestCommonTime i j = .ok l → l ≠ 0 → timeAdd time s.buf.cacheTime = some e → e < l →
          s.buf.lookupFrameNumber t ≠ 0 ∧ s.buf.lookupFrameNumber src ≠ 0 ∧
            s.buf.latestCommonTime (s.buf.lookupFrameNumber t) (s.buf.lookupFrameNumber src) = .ok l := by
        intro i j l e h1 h2 h3 _ _ _
        rw [lookupFrameNumber_isFrame h1, lookupFrameNumber_isFrame h2]
        exact ⟨h1.1, h2.1, h3⟩
      by_cases h0 : s.buf.lookupFrameNumber t ≠ 0 ∧ s.buf.lookupFrameNumber src ≠ 0
      · rw [if_pos h0]
        have f1 := isFrame_of_lookup h0.1
        have f2 := isFrame_of_lookup h0.2
        unfold Buf.latestOrZero
        cases hl : s.buf.latestCommonTime (s.buf.lookupFrameNumber t) (s.buf.lookupFrameNumber src) with
        | ub => exact absurd hl (latestCommonTime_ne_ub hw _ _)
        | err c =>
          simp only [Buf.tooOldFor, if_true]
          refine .pending hne hv ?_ _ rfl
          rintro ⟨i, j, l, e, h1, h2, h3, h4, h5, h6⟩
          have := (hold h1 h2 h3 h4 h5 h6).2.2
          rw [hl] at this; cases this
        | ok l =>
          simp only [Buf.tooOldFor]
          by_cases hl0 : l = 0
          · rw [if_pos hl0]
            refine .pending hne hv ?_ _ rfl
            rintro ⟨i, j, l', e, h1, h2, h3, h4, h5, h6⟩
            have := (hold h1 h2 h3 h4 h5 h6).2.2
            rw [hl] at this; injection this with this; exact h4 (this.symm.trans hl0)
          · rw [if_neg hl0]
            cases ha : timeAdd time s.buf.cacheTime with
            | none =>
              simp only
              exact .threw hne hv (by rw [← hw.cacheTime]; exact ha) ⟨_, _, l, f1, f2, hl0, hl⟩
            | some e =>
              simp only
              by_cases hlt : e < l
              · simp only [hlt, decide_true]
                exact .never hne hv ⟨_, _, l, e, f1, f2, hl, hl0, ha, hlt⟩
              · simp only [hlt, decide_false]
                refine .pending hne hv ?_ _ rfl
                rintro ⟨i, j, l', e', h1, h2, h3, h4, h5, h6⟩
                have := (hold h1 h2 h3 h4 h5 h6).2.2
                rw [hl] at this; injection this with this
                rw [ha] at h5; injection h5 with h5
                omega
      · rw [if_neg h0]
        refine .pending hne hv ?_ _ rfl
        rintro ⟨i, j, l, e, h1, h2, h3, h4, h5, h6⟩
        have := hold h1 h2 h3 h4 h5 h6
        exact h0 ⟨this.1, this.2.1⟩

theorem RInv.addRequest [Rigid X] {D : Duration} {s : RBuf X} {evs : List REv} (h : RInv D s evs) (cb : Nat)
    (t src : Name) (time : Time)
    (hlim : (addedHandles (evs ++ (s.addRequest cb t src time).2)).length < 2 ^ 64 - 1) :
    RInv D (s.addRequest cb t src time).1 (evs ++ (s.addRequest cb t src time).2) := by
  have o := addRequest_out h.wf cb t src time
  generalize (s.addRequest cb t src time).1 = s' at *
  generalize (s.addRequest cb t src time).2 = new at *
  cases o with
  | same _ => exact h.note _ rfl rfl rfl (by simp)
  | now _ _ => exact h.note _ rfl rfl rfl (by simp)
  | never _ _ _ => exact h.note _ rfl rfl rfl (by simp)
  | threw _ _ _ _ => exact h.note _ rfl rfl rfl (by simp)
  | pending hne hc ho r hr =>
    rw [addedHandles_append, h.added] at hlim
    simp only [addedHandles, List.length_append, List.length_range', List.length_cons, List.length_nil] at hlim
    have hnext : RBuf.nextHandle s.reqCounter = (s.reqCounter + 1, s.reqCounter + 1) := by
      unfold RBuf.nextHandle
      have : (s.reqCounter + 1) % 2 ^ 64 = s.reqCounter + 1 := Nat.mod_eq_of_lt (by omega)
      simp only [this]
      rw [if_neg (by omega)]
    rw [hnext] at hr ⊢
    simp only at hr ⊢
    have hm : ∀ x, x ∈ evs → x ∈ evs ++ [REv.added (s.reqCounter + 1) cb t src time] :=
      fun x hx => List.mem_append_left _ hx
    have hh : r.handle = s.reqCounter + 1 := by rw [hr]
    have hfor : ReqFor s.buf r t src := by
      rw [hr]
      refine ⟨fun h0 => ?_, fun h0 => ?_, fun h0 => ?_, fun h0 => ?_⟩
      · simp only at h0 ⊢; rw [if_pos h0]
      · exact (isFrame_of_lookup h0).2
      · simp only at h0 ⊢; rw [if_pos h0]
      · exact (isFrame_of_lookup h0).2
    refine ⟨h.wf, ?_, ?_, ?_, ?_, ?_, ?_, ?_⟩
    · rw [addedHandles_append, h.added]
      simp only [addedHandles]
      have := List.range'_concat (s := 1) (n := s.reqCounter) (step := 1)
      rw [this]; simp [Nat.add_comm]
    · intro r' hr'
      rcases List.mem_append.1 hr' with hr' | hr'
      · obtain ⟨t', src', k1, k2, k3⟩ := h.reqs r' hr'
        exact ⟨t', src', k1, hm _ k2, k3⟩
      · simp only [List.mem_singleton] at hr'
        subst hr'
        refine ⟨t, src, hne, ?_, hfor⟩
        rw [hr]; simp
    · intro c hcm
      obtain ⟨⟨tm, k1⟩, av, k2⟩ := h.infl c hcm
      exact ⟨⟨tm, hm _ k1⟩, av, hm _ k2⟩
    · intro cb' hh' t' src' hi
      rcases List.mem_append.1 hi with hi | hi
      · obtain ⟨⟨tm, k1⟩, av, k2⟩ := h.calls _ _ _ _ hi
        exact ⟨⟨tm, hm _ k1⟩, av, hm _ k2⟩
      · simp at hi
    · intro k
      have := h.count k
      simp only [cnt, RBuf.pending, RBuf.scheduled, List.map_append, List.map_cons, List.map_nil, hh,
        List.count_append, calledHandles_append, droppedHandles_append, calledHandles, droppedHandles,
        addedHandles_append, addedHandles, List.append_nil, List.count_nil] at this ⊢
      omega
    · intro hh' cb' t' src' tm' hmm
      have hge : ∀ k, cnt s evs k ≤ cnt { s with reqs := s.reqs ++ [r], reqCounter := s.reqCounter + 1 }
          (evs ++ [REv.added (s.reqCounter + 1) cb t src time]) k := by
        intro k
        simp only [cnt, RBuf.pending, RBuf.scheduled, List.map_append, List.count_append, calledHandles_append,
          droppedHandles_append, calledHandles, droppedHandles, List.append_nil]
        omega
      rcases List.mem_append.1 hmm with hmm | hmm
      · rcases h.acct hh' cb' t' src' tm' hmm with k | ⟨h', k, e⟩ | k
        · exact Or.inl (Nat.le_trans k (hge _))
        · exact Or.inr (Or.inl ⟨h', hm _ k, e⟩)
        · exact Or.inr (Or.inr (hm _ k))
      · simp only [List.mem_singleton, REv.added.injEq] at hmm
        left
        simp only [cnt, RBuf.pending, List.map_append, List.map_cons, List.map_nil, hh, List.count_append,
          hmm.1, List.count_singleton_self]
        omega
    · intro hu
      rcases List.mem_append.1 hu with hu | hu
      · exact h.fine hu
      · simp at hu

/-- One step keeps the invariant. -/
theorem RInv.step [Rigid X] {D : Duration} {s : RBuf X} {evs : List REv} (h : RInv D s evs) (op : ROp X)
    (hlim : (addedHandles (evs ++ (s.step op).2)).length < 2 ^ 64 - 1) :
    RInv D (s.step op).1 (evs ++ (s.step op).2) := by
  cases op with
  | clear =>
    simp only [RBuf.step, List.append_nil]
    exact h.rebuf h.wf.clear (fun n i hn => hn)
  | addCallback =>
    simp only [RBuf.step, RBuf.addCallback]
    cases RBuf.nextCb s.cbs (s.cbs.length + 1) s.cbCounter with
    | none => exact h.note _ rfl rfl rfl (by simp)
    | some c =>
      have := h.note (.registered c) rfl rfl rfl (by simp)
      exact ⟨this.wf, this.added, this.reqs, this.infl, this.calls, this.count, this.acct, this.fine⟩
  | removeCallback cb =>
    refine h.filterReqs (.removedCb cb) (fun r => decide (r.cb ≠ cb)) rfl rfl rfl rfl rfl rfl rfl (by simp) ?_
    intro r _ hp
    right
    simp only [ne_eq, decide_not, Bool.not_eq_eq_eq_not, Bool.not_false, decide_eq_true_eq] at hp
    rw [hp]
  | cancelRequest hd =>
    refine h.filterReqs (.cancelled hd) (fun r => decide (r.handle ≠ hd % 2 ^ 32)) rfl rfl rfl rfl rfl rfl rfl
      (by simp) ?_
    intro r _ hp
    left
    simp only [ne_eq, decide_not, Bool.not_eq_eq_eq_not, Bool.not_false, decide_eq_true_eq] at hp
    exact ⟨hd, rfl, hp.symm⟩
  | invoke k => exact h.invoke k
  | addRequest cb t src time => exact h.addRequest cb t src time hlim
  | set m a st =>
    simp only [RBuf.step, RBuf.setTransform]
    have hw : WF D (s.buf.setTransform m a st).1 := h.wf.setTransform m a st
    have hb : ∀ n i, s.buf.frameIDs n = some i → (s.buf.setTransform m a st).1.frameIDs n = some i :=
      fun n i hn => frameIDs_step h.wf (.set m a st) hn
    have hub := set_ne_ub h.wf m a st
    generalize hr : s.buf.setTransform m a st = r at *
    obtain ⟨b, r⟩ := r
    have h1 : ∀ r', RInv D { s with buf := b } (evs ++ [REv.setDone r']) :=
      fun r' => (h.rebuf hw hb).note _ rfl rfl rfl (by simp)
    cases r with
    | ub => exact absurd rfl hub
    | accepted =>
      have := (h1 .accepted).sweep
      simpa using this
    | _ => exact h1 _

/-! ### Histories -/

theorem run_eq_append [Rigid X] (ops : List (ROp X)) : ∀ (s : RBuf X) (evs : List REv),
    RBuf.run ops s evs = ((RBuf.run ops s []).1, evs ++ (RBuf.run ops s []).2) := by
  induction ops with
  | nil => intro s evs; simp [RBuf.run]
  | cons op r ih =>
    intro s evs
    simp only [RBuf.run]
    rw [ih, ih (s.step op).1 ([] ++ _)]
    simp

theorem rrun_append [Rigid X] (o1 o2 : List (ROp X)) : ∀ (s : RBuf X) (evs : List REv),
    RBuf.run (o1 ++ o2) s evs = RBuf.run o2 (RBuf.run o1 s evs).1 (RBuf.run o1 s evs).2 := by
  induction o1 with
  | nil => intro s evs; rfl
  | cons op r ih => intro s evs; simp only [List.cons_append, RBuf.run]; exact ih _ _

theorem RInv.run [Rigid X] {D : Duration} (ops : List (ROp X)) : ∀ {s : RBuf X} {evs : List REv},
    RInv D s evs → (addedHandles (RBuf.run ops s evs).2).length < 2 ^ 64 - 1 →
    RInv D (RBuf.run ops s evs).1 (RBuf.run ops s evs).2 := by
  induction ops with
  | nil => intro s evs h _; exact h
  | cons op r ih =>
    intro s evs h hlim
    simp only [RBuf.run] at hlim ⊢
    refine ih (h.step op ?_) hlim
    rw [run_eq_append, addedHandles_append, List.length_append] at hlim
    omega

end Tf2
