import Verif.Props.SweepOrder
import Verif.Spec.MessageFilter

/-!
# C101: the order in which a message filter passes the messages that waited
-/
namespace Tf2

/-- `n` messages of one frame with stamps 5, 6, 7, …, given to a filter one after the other. -/
def filterQueue (n : Nat) : List (FOp Int) :=
  (List.range n).flatMap (fun i => [.addStart ['a'] (5 + i), .addNext 0, .addNext 0])

/-- The filter with `n` messages waiting. -/
structure WaitingFilt (n : Nat) (s : Filt Int) : Prop where
  rb : s.rb = (RBuf.history 100 (queueOf n)).1
  targets : s.targets = [['w']]
  tol : s.tol = 0
  expected : s.expected = 1
  qsize : s.qsize = 0
  cb : s.cb = 1
  msgs : s.msgs = (List.range n).map (fun i => ⟨⟨i, ['a'], 5 + i⟩, [i + 1], 0⟩)
  adding : s.adding = []
  cbq : s.cbq = none
  next : s.next = n

theorem queueOf_next (n : Nat) (hn : n + 1 < 2 ^ 64 - 1) :
    (RBuf.history 100 (queueOf n)).1.addRequest 1 ['w'] ['a'] (5 + n) =
      ((RBuf.history 100 (queueOf (n + 1))).1, [.added (n + 1) 1 ['w'] ['a'] (5 + n)]) := by
  have h1 := (queueOf_spec n (by omega)).2.2.2.2.2
  have h2 := (queueOf_spec (n + 1) hn).2.2.2.2.2
  have hq : queueOf (n + 1) = queueOf n ++ [.addRequest 1 ['w'] ['a'] (5 + n)] := by
    unfold queueOf
    rw [List.range_succ, List.map_append]; rfl
  unfold RBuf.history at *
  rw [hq, rrun_append] at h2 ⊢
  simp only [RBuf.run, RBuf.step] at h2 ⊢
  rw [h1, List.range_succ, List.map_append] at h2
  simp only [List.cons_append, List.cons.injEq, true_and, List.append_cancel_left_eq] at h2
  exact Prod.ext rfl h2

theorem WaitingFilt.more {n : Nat} (hn : n + 1 < 2 ^ 64 - 1) {s : Filt Int} (h : WaitingFilt n s) (evs : List FEv) :
    ∃ s', Filt.run [.addStart ['a'] (5 + n), .addNext 0, .addNext 0] s evs =
      (s', evs ++ [.received n ['a'] (5 + n)]) ∧ WaitingFilt (n + 1) s' := by
  obtain ⟨rb, revs, targets, tol, expected, qsize, cb, msgs, count, adding, cbq, next⟩ := s
  obtain ⟨h1, h2, h3, h4, h5, h6, h7, h8, h9, h10⟩ := h
  simp only at h1 h2 h3 h4 h5 h6 h7 h8 h9 h10
  subst h2 h3 h4 h5 h6 h8 h9 h10
  have hadd : rb.addRequest 1 ['w'] ['a'] (5 + next) =
      ((RBuf.history 100 (queueOf (next + 1))).1, [.added (next + 1) 1 ['w'] ['a'] (5 + next)]) := by
    rw [h1]; exact queueOf_next next hn
  have hs : stripSlash ['a'] = ['a'] := by decide
  refine ⟨{ rb := (RBuf.history 100 (queueOf (next + 1))).1
            revs := revs ++ [.added (next + 1) 1 ['w'] ['a'] (5 + next)], targets := [['w']], tol := 0, expected := 1
            qsize := 0, cb := 1, msgs := msgs ++ [⟨⟨next, ['a'], 5 + next⟩, [next + 1], 0⟩], count := count + 1
            adding := [], cbq := none, next := next + 1 }, ?_,
    ⟨rfl, rfl, rfl, rfl, rfl, rfl, ?_, rfl, rfl, rfl⟩⟩
  · simp [Filt.run, Filt.step, Filt.addStart, Filt.addNext, Filt.addAnswer, Filt.addFinish, Filt.buf, hs, hadd]
  · simp only [h7]
    rw [List.range_succ, List.map_append]; rfl

theorem frun_parts (o1 o2 : List (FOp Int)) : ∀ (s : Filt Int) (evs : List FEv),
    Filt.run (o1 ++ o2) s evs = Filt.run o2 (Filt.run o1 s evs).1 (Filt.run o1 s evs).2 := by
  induction o1 with
  | nil => intro s evs; rfl
  | cons op r ih => intro s evs; simp only [List.cons_append, Filt.run]; exact ih _ _

theorem filterQueue_spec (n : Nat) (hn : n < 2 ^ 64 - 1) :
    WaitingFilt n (Filt.history 100 [] ['w'] 0 false (filterQueue n)).1 ∧
      (Filt.history 100 [] ['w'] 0 false (filterQueue n)).2 =
        (List.range n).map (fun i => .received i ['a'] (5 + i)) := by
  induction n with
  | zero => exact ⟨⟨rfl, by decide, rfl, rfl, rfl, by decide, rfl, rfl, rfl, rfl⟩, rfl⟩
  | succ n ih =>
    obtain ⟨h1, h2⟩ := ih (by omega)
    have hq : filterQueue (n + 1) = filterQueue n ++ [.addStart ['a'] (5 + n), .addNext 0, .addNext 0] := by
      unfold filterQueue
      rw [List.range_succ, List.flatMap_append]; rfl
    unfold Filt.history at *
    rw [hq, frun_parts]
    obtain ⟨s', e1, e2⟩ := h1.more hn (Filt.run (filterQueue n) (Filt.init (RBuf.history (X := Int) 100 []).1
      (RBuf.history (X := Int) 100 []).2 ['w'] 0 false) []).2
    rw [e1]
    refine ⟨e2, ?_⟩
    simp only [h2]
    rw [List.range_succ, List.map_append]; rfl

/-- The messages a list of calls passes. -/
def passed (l : List Call) : List FEv :=
  l.flatMap (fun c => [.decided (c.handle - 1) none, .signalled (c.handle - 1) none])

theorem invoke_passes {s : Filt Int} {c : Call} {l : List Call} (hi : s.rb.inflight = c :: l) (hc : c.cb = 1)
    (hcb : s.cb = 1) (hcbs : s.rb.cbs = [1]) (ht : s.targets = [['w']]) (hto : s.tol = 0) (he : s.expected = 1)
    (hq : s.cbq = none)
    (hb : s.rb.buf = ((Buf.init 100 : Buf Int).setTransform (tmsg ['w'] ['a'] 0 1) ['u'] true).1)
    (hm : ∀ m ∈ s.msgs, m.handles = [m.msg.id + 1] ∧ m.success = 0 ∧ m.msg.frame = ['a'])
    (hin : ∃ m ∈ s.msgs, m.handles = [c.handle]) :
    ∃ s', s.step (.invoke 0 true) = (s', passed [c]) ∧ s'.rb = { s.rb with inflight := l } ∧ s'.cb = 1 ∧
      s'.targets = [['w']] ∧ s'.tol = 0 ∧ s'.expected = 1 ∧ s'.cbq = none ∧
      (∀ m ∈ s'.msgs, m ∈ s.msgs) ∧ (∀ m ∈ s.msgs, m.handles ≠ [c.handle] → m ∈ s'.msgs) := by
  obtain ⟨rb, revs, targets, tol, expected, qsize, cb, msgs, count, adding, cbq, next⟩ := s
  simp only at hi hcb hcbs ht hto he hq hb hm hin
  subst hcb ht hto he hq
  have hex : ∃ i, msgs.findIdx? (fun m => decide (c.handle ∈ m.handles)) = some i := by
    cases h : msgs.findIdx? (fun m => decide (c.handle ∈ m.handles)) with
    | some i => exact ⟨i, rfl⟩
    | none =>
      obtain ⟨m, h1, h2⟩ := hin
      have := (List.findIdx?_eq_none_iff.1 h) m h1
      rw [h2] at this
      simp at this
  obtain ⟨i, hi'⟩ := hex
  obtain ⟨hlt, hat, _⟩ := List.findIdx?_eq_some_iff_getElem.1 hi'
  have hmem : msgs[i] ∈ msgs := List.getElem_mem hlt
  obtain ⟨m1, m2, m3⟩ := hm _ hmem
  have hid : c.handle = msgs[i].msg.id + 1 := by
    rw [m1] at hat
    simpa using hat
  have hget : msgs[i]? = some msgs[i] := List.getElem?_eq_getElem hlt
  have hinv : rb.invoke 0 = ({ rb with inflight := l }, [.invoked 1 c.handle c.target c.source]) := by
    unfold RBuf.invoke
    rw [hi]
    simp [hc, hcbs]
  have hrec : ∀ st, Filt.recheck rb.buf 0 ['a'] st [['w']] = .ok true := by
    intro st
    unfold Filt.recheck
    rw [hb, unlocked]
    rfl
  refine ⟨{ rb := { rb with inflight := l }, revs := revs ++ [.invoked 1 c.handle c.target c.source]
            targets := [['w']], tol := 0, expected := 1, qsize := qsize, cb := 1, msgs := msgs.eraseIdx i
            count := count - 1, adding := adding, cbq := none, next := next }, ?_, rfl, rfl, rfl, rfl, rfl, rfl, ?_, ?_⟩
  · simp only [Filt.step, Filt.invoke, hinv, Filt.buf, if_true, Filt.transformable, hi', hget, m2, m3]
    simp [hrec, Filt.deliver, passed, hid]
  · exact fun m h => List.mem_of_mem_eraseIdx h
  · intro m h hne
    obtain ⟨j, hj, rfl⟩ := List.getElem_of_mem h
    refine List.mem_eraseIdx_iff_getElem.2 ⟨j, hj, ?_, rfl⟩
    intro hji
    subst hji
    exact hne (by rw [m1, hid])

theorem calls_pass : ∀ (l : List Call) (s : Filt Int) (evs : List FEv), s.rb.inflight = l → (∀ c ∈ l, c.cb = 1) →
    s.cb = 1 → s.rb.cbs = [1] → s.targets = [['w']] → s.tol = 0 → s.expected = 1 → s.cbq = none →
    s.rb.buf = ((Buf.init 100 : Buf Int).setTransform (tmsg ['w'] ['a'] 0 1) ['u'] true).1 →
    (∀ m ∈ s.msgs, m.handles = [m.msg.id + 1] ∧ m.success = 0 ∧ m.msg.frame = ['a']) →
    (∀ c ∈ l, ∃ m ∈ s.msgs, m.handles = [c.handle]) → (l.map Call.handle).Nodup →
    (Filt.run (List.replicate l.length (.invoke 0 true)) s evs).2 = evs ++ passed l := by
  intro l
  induction l with
  | nil => intro s evs _ _ _ _ _ _ _ _ _ _ _ _; simp [Filt.run, passed]
  | cons c l ih =>
    intro s evs h1 h2 h3 h4 h5 h6 h7 h8 h9 h10 h11 h12
    obtain ⟨s', e, g1, g2, g3, g4, g5, g6, g7, g8⟩ := invoke_passes h1 (h2 c (List.mem_cons_self ..)) h3 h4 h5 h6 h7
      h8 h9 h10 (h11 c (List.mem_cons_self ..))
    rw [List.map_cons, List.nodup_cons] at h12
    rw [List.length_cons, List.replicate_succ]
    simp only [Filt.run, e]
    rw [ih s' (evs ++ passed [c]) (by rw [g1]) (fun x hx => h2 x (List.mem_cons_of_mem _ hx)) g2 (by rw [g1]; exact h4)
      g3 g4 g5 g6 (by rw [g1]; exact h9) (fun m hm => h10 m (g7 m hm)) ?_ h12.2]
    · rw [List.append_assoc]; rfl
    · intro x hx
      obtain ⟨m, hm, hx'⟩ := h11 x (List.mem_cons_of_mem _ hx)
      refine ⟨m, g8 m hm ?_, hx'⟩
      rw [hx']
      intro he
      simp only [List.cons.injEq, and_true] at he
      exact h12.1 (by rw [← he]; exact List.mem_map.2 ⟨x, hx, rfl⟩)

theorem range'_pred (n : Nat) : ∀ k, (List.range' (k + 1) n).map (fun h => h - 1) = List.range' k n := by
  induction n with
  | zero => intro k; rfl
  | succ n ih => intro k; rw [List.range'_succ, List.map_cons, ih (k + 1)]; rfl

theorem passed_eq (l : List Call) :
    passed l = ((l.map Call.handle).map (fun h => h - 1)).flatMap (fun i => [.decided i none, .signalled i none]) := by
  unfold passed
  rw [List.map_map, List.flatMap_map]
  rfl

/-- **C101, finding.** For every `n`: of `n + 1` messages of one frame, with ever later stamps, that wait in a message
filter for the same transform, the filter passes the first, then the last, and so on back to the second: 0, n, n-1,
…, 1. -/
theorem C101_filter_reversed_finding (n : Nat) (hn : n < 2 ^ 61) :
    (Filt.history 100 [] ['w'] 0 false
      (filterQueue (n + 1) ++ .buffer unlock :: List.replicate (n + 1) (.invoke 0 true))).2 =
    (List.range (n + 1)).map (fun i => .received i ['a'] (5 + i)) ++
      (0 :: (List.range' 1 n).reverse).flatMap (fun i => [.decided i none, .signalled i none]) := by
  obtain ⟨h1, h2⟩ := filterQueue_spec (n + 1) (by omega)
  obtain ⟨u1, u2, u3, u4, _, _⟩ := unlock_spec n hn
  unfold Filt.history at *
  rw [frun_parts]
  generalize Filt.run (filterQueue (n + 1)) _ [] = st at *
  obtain ⟨s, evs⟩ := st
  simp only at h1 h2
  obtain ⟨k1, k2, k3, k4, k5, k6, k7, k8, k9, k10⟩ := h1
  have hst : s.step (.buffer unlock) = (s.buf (s.rb.step unlock), []) := rfl
  simp only [Filt.run, hst, List.append_nil]
  rw [k1]
  generalize (RBuf.history 100 (queueOf (n + 1))).1.step unlock = r at *
  obtain ⟨rb', new⟩ := r
  simp only at u1 u2 u3 u4
  have hlen : rb'.inflight.length = n + 1 := by
    have := congrArg List.length u1
    unfold RBuf.scheduled at this
    simpa using this
  have hsch : rb'.inflight.map Call.handle = 1 :: (List.range' 2 n).reverse := u1
  have := calls_pass rb'.inflight (s.buf (rb', new)) evs rfl u2 k6 u3 k2 k3 k4 k9 u4 ?_ ?_ ?_
  · rw [hlen] at this
    rw [this, h2, passed_eq, hsch, List.map_cons, List.map_reverse, range'_pred]
  · intro m hm
    simp only [Filt.buf, k7, List.mem_map] at hm
    obtain ⟨i, _, rfl⟩ := hm
    exact ⟨rfl, rfl, rfl⟩
  · intro c hc
    have hmem : c.handle ∈ rb'.inflight.map Call.handle := List.mem_map.2 ⟨c, hc, rfl⟩
    rw [hsch] at hmem
    have hr : 1 ≤ c.handle ∧ c.handle < n + 2 := by
      simp only [List.mem_cons, List.mem_reverse, List.mem_range'_1] at hmem
      omega
    simp only [Filt.buf, k7, List.mem_map, List.mem_range]
    refine ⟨_, ⟨c.handle - 1, by omega, rfl⟩, ?_⟩
    simp only [List.cons.injEq, and_true]
    omega
  · rw [hsch, List.nodup_cons]
    refine ⟨?_, ?_⟩
    · simp only [List.mem_reverse, List.mem_range'_1]; omega
    · exact (List.reverse_perm _).nodup_iff.2 List.nodup_range'

/-- With four messages. -/
example : (Filt.history 100 [] ['w'] 0 false
      (filterQueue 4 ++ .buffer unlock :: List.replicate 4 (.invoke 0 true))).2 =
    [.received 0 ['a'] 5, .received 1 ['a'] 6, .received 2 ['a'] 7, .received 3 ['a'] 8,
     .decided 0 none, .signalled 0 none, .decided 3 none, .signalled 3 none, .decided 2 none, .signalled 2 none,
     .decided 1 none, .signalled 1 none] := by decide +kernel

end Tf2
