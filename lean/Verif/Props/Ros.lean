import Verif.Proofs.Ros
import Verif.Spec.Toy

/-!
# C42, C43, C44: the static broadcaster, the listener, blocking waits
-/
namespace Tf2

variable {X : Type}

/-! ### C42 -/

/-- C42. After any sequence of calls the latched message has one transform per child frame ever sent, in the
order in which the children were first sent, and each is the last one sent for its child. -/
theorem C42_latched (calls : List (List (Msg X))) (hc : calls ≠ []) :
    ∃ net, (SBroadcaster.after calls).latched = some net ∧
      net.map Msg.child = firstOccurrences [] (calls.flatten.map Msg.child) ∧
      (net.map Msg.child).Nodup ∧
      ∀ m, m ∈ net ↔ lastSent calls.flatten m.child = some m := by
  have h0 : NetIs ([] : List (Msg X)) ({} : SBroadcaster X).net := ⟨List.nodup_nil, rfl, fun x => by simp [lastSent]⟩
  have h := h0.calls calls
  refine ⟨_, published_last calls {} hc, ?_, h.nodup, by simpa using h.mem⟩
  rw [h.order]
  simp only [List.nil_append]
  generalize calls.flatten.map Msg.child = l
  have key : ∀ acc : List Name, l.foldl (fun acc n => if n ∈ acc then acc else acc ++ [n]) acc = firstOccurrences acc l := by
    induction l with
    | nil => intro acc; rfl
    | cons n r ih => intro acc; exact ih _
  exact key []

/-- C42. Every child ever sent is in the latched message. -/
theorem C42_complete (calls : List (List (Msg X))) (hc : calls ≠ []) (m : Msg X) (hm : m ∈ calls.flatten) :
    ∃ net, (SBroadcaster.after calls).latched = some net ∧ ∃ x ∈ net, x.child = m.child := by
  obtain ⟨net, h1, -, -, h4⟩ := C42_latched calls hc
  refine ⟨net, h1, ?_⟩
  have : (lastSent calls.flatten m.child).isSome := by
    unfold lastSent
    rw [List.find?_isSome]
    exact ⟨m, List.mem_reverse.2 hm, by simp⟩
  obtain ⟨x, hx⟩ := Option.isSome_iff_exists.1 this
  have hxc : x.child = m.child := by
    have := List.find?_some hx
    simpa using this
  exact ⟨x, (h4 x).2 (by rw [hxc]; exact hx), hxc⟩

/-- Three calls with a repeated child. -/
example : (SBroadcaster.after [[tmsg ['w'] ['a'] 1 5, tmsg ['w'] ['b'] 1 6], [tmsg ['b'] ['c'] 2 7], [tmsg ['z'] ['a'] 3 8]]).latched
    = some [tmsg ['z'] ['a'] 3 8, tmsg ['w'] ['b'] 1 6, tmsg ['b'] ['c'] 2 7] := by decide

/-- C42, finding. The Python broadcaster latches only the argument of its last call: a transform sent before is
not in the latched message. -/
theorem C42_python_finding (c1 c2 : List (Msg X)) :
    (SBroadcaster.afterPy [c1, c2]).latched = some c2 := rfl

/-- C42, finding. Children are compared before the leading slash is removed, so `a` and `/a` - one frame for
every buffer - are two entries, and a subscriber that connects late ends up with another transform than one that
saw every message. -/
theorem C42_slash_finding :
    ∃ calls : List (List (Msg Int)),
      let late := (SBroadcaster.after calls).latched.getD []
      let early := (SBroadcaster.after calls).published.flatten
      let read := fun ms : List (Msg Int) =>
        ((Buf.init 100).run (ms.map (fun m => Op.set m ['p'] true))).lookupTransform ['w'] ['a'] 0
      calls.flatten.map (fun m => m.xf) = [1, 2, 3] ∧
      read calls.flatten = .ok (tmsg ['w'] ['a'] 0 3) ∧
      read late = .ok (tmsg ['w'] ['a'] 0 2) ∧ read early = .ok (tmsg ['w'] ['a'] 0 2) :=
  ⟨[[tmsg ['w'] ['a'] 0 1], [tmsg ['w'] ['/', 'a'] 0 2], [tmsg ['w'] ['a'] 0 3]], by decide +kernel⟩

/-! ### C43 -/

/-- C43. As long as no exception has left the callback: the calls of the buffer the listener has made, with those
still to be made for the message in progress, are - in order - for each message received a `clear` if and only if
the clock was earlier than at the previous message, then one `setTransform` for each of its transforms with the
publisher's name and the topic's static flag. In particular no rejection changes them. -/
theorem C43_calls [Rigid X] (D : Duration) (ops : List (LOp X)) (hne : LEv.escaped ∉ (Listener.history D ops).2) :
    listenerCalls (Listener.history D ops).2 ++ (Listener.history D ops).1.remaining =
      callsDue 0 (Listener.history D ops).2 := by
  have := lrun_due ops (Listener.init D) hne
  rw [show (Listener.init D : Listener X).remaining = [] from rfl, List.nil_append] at this
  exact this

/-- C43. The state of the buffer is the result of all calls made, the listener's and everybody else's, in the order
of the events. -/
theorem C43_effect [Rigid X] (D : Duration) (ops : List (LOp X)) :
    (Listener.history D ops).1.rb = (RBuf.history D (bufferCalls (Listener.history D ops).2)).1 :=
  lrun_effect ops (Listener.init D)

/-- C43. One message, received when the previous one is finished, whatever other threads do to the buffer while it
is handled: the calls made for it are an initial part of the calls due; if it has been handled to the end without
an exception leaving, all of them. If an exception left, then because the difference of the clock readings is out
of the range of `ros::Duration`, or because the last `setTransform` called threw something else than a tf2
exception. -/
theorem C43_message [Rigid X] (s : Listener X) (hs : s.cur = none) (now : Time) (msgs : List (Msg X)) (auth : Name)
    (st : Bool) (ops : List (LOp X)) (hops : ∀ now' ms' a' st', LOp.receive now' ms' a' st' ∉ ops) :
    let r := Listener.run (.receive now msgs auth st :: ops) s []
    let due := callsOf s.last now msgs auth st
    listenerCalls r.2 <+: due ∧
    (LEv.escaped ∉ r.2 → r.1.last = now ∧ listenerCalls r.2 ++ r.1.remaining = due ∧
      (r.1.cur = none → listenerCalls r.2 = due)) ∧
    (LEv.escaped ∈ r.2 → r.1.cur = none ∧ ((now < s.last ∧ timeSub s.last now = none ∧ listenerCalls r.2 = []) ∨
      ∃ p q m, ops = p ++ .apply :: q ∧
        setEscapes ((Listener.run (.receive now msgs auth st :: p) s []).1.rb.setTransform m auth st).2 = true ∧
        listenerCalls r.2 = listenerCalls (Listener.run (.receive now msgs auth st :: p) s []).2 ++ [.set m auth st])) := by
  intro r due
  -- generalise over the steps taken so far
  have key : ∀ p, (∀ now' ms' a' st', LOp.receive now' ms' a' st' ∉ p) →
      let r := Listener.run (.receive now msgs auth st :: p) s []
      (LEv.escaped ∉ r.2 ∧ r.1.last = now ∧ listenerCalls r.2 ++ r.1.remaining = due ∧
        (∀ l a t, r.1.cur = some (l, a, t) → a = auth ∧ t = st)) ∨
      (LEv.escaped ∈ r.2 ∧ r.1.cur = none ∧ listenerCalls r.2 <+: due ∧
        ((now < s.last ∧ timeSub s.last now = none ∧ listenerCalls r.2 = []) ∨
        ∃ p1 q m, p = p1 ++ .apply :: q ∧
          setEscapes ((Listener.run (.receive now msgs auth st :: p1) s []).1.rb.setTransform m auth st).2 = true ∧
          listenerCalls r.2 = listenerCalls (Listener.run (.receive now msgs auth st :: p1) s []).2 ++ [.set m auth st])) := by
    intro p
    induction p using snocInd with
    | h0 =>
      intro _
      simp only [Listener.run, List.nil_append]
      have h := lout s (.receive now msgs auth st)
      generalize s.step _ = x at h ⊢
      cases h with
      | busy h => rw [hs] at h; cases h
      | range h h1 h2 => exact .inr ⟨by simp, hs, by simp [listenerCalls], .inl ⟨h1, h2, by simp [listenerCalls]⟩⟩
      | jump h h1 =>
        refine .inl ⟨by simp, rfl, by simp [listenerCalls, Listener.remaining, due, callsOf, h1], ?_⟩
        intro l a t e; injection e with e; injection e with _ e; injection e with e1 e2; exact ⟨e1.symm, e2.symm⟩
      | plain h h1 =>
        refine .inl ⟨by simp, rfl, by simp [listenerCalls, Listener.remaining, due, callsOf, h1], ?_⟩
        intro l a t e; injection e with e; injection e with _ e; injection e with e1 e2; exact ⟨e1.symm, e2.symm⟩
    | h p op ih =>
      intro hp
      have ih := ih (fun a b c d hm => hp a b c d (List.mem_append_left _ hm))
      have hrw : Listener.run (.receive now msgs auth st :: (p ++ [op])) s [] =
          (((Listener.run (.receive now msgs auth st :: p) s []).1.step op).1,
           (Listener.run (.receive now msgs auth st :: p) s []).2 ++ ((Listener.run (.receive now msgs auth st :: p) s []).1.step op).2) := by
        have := lrun_append (.receive now msgs auth st :: p) [op] s
        rw [List.cons_append] at this
        rw [this]; rfl
      simp only [hrw]
      generalize hx : Listener.run (.receive now msgs auth st :: p) s [] = x at ih ⊢
      have h := lout x.1 op
      generalize x.1.step op = y at h ⊢
      rcases ih with ⟨i1, i2, i3, i4⟩ | ⟨i1, i2, i3, i4⟩
      · cases h with
        | busy => exact absurd (List.mem_append_right _ (List.mem_singleton.2 rfl)) (hp _ _ _ _)
        | range => exact absurd (List.mem_append_right _ (List.mem_singleton.2 rfl)) (hp _ _ _ _)
        | jump => exact absurd (List.mem_append_right _ (List.mem_singleton.2 rfl)) (hp _ _ _ _)
        | plain => exact absurd (List.mem_append_right _ (List.mem_singleton.2 rfl)) (hp _ _ _ _)
        | idle h => exact .inl ⟨by simpa using i1, i2, by rw [listenerCalls_append]; simpa [listenerCalls] using i3, i4⟩
        | finish h =>
          refine .inl ⟨by simpa using i1, i2, ?_, by simp⟩
          simpa [Listener.remaining, h] using i3
        | @escape m ms a t h h1 =>
          obtain ⟨ea, et⟩ := i4 _ _ _ h
          subst ea et
          have i3' : listenerCalls x.2 ++ (.set m a t :: ms.map (fun m => .set m a t)) = due := by
            simpa [Listener.remaining, h] using i3
          refine .inr ⟨by simp, rfl, ?_, .inr ⟨p, [], m, rfl, ?_, ?_⟩⟩
          · rw [listenerCalls_append, ← i3']; simp [listenerCalls]
          · rw [hx]; exact h1
          · rw [listenerCalls_append, hx]; rfl
        | @set m ms a t h h1 =>
          obtain ⟨ea, et⟩ := i4 _ _ _ h
          subst ea et
          refine .inl ⟨by simpa using i1, i2, ?_, ?_⟩
          · rw [listenerCalls_append, ← i3]; simp [listenerCalls, Listener.remaining, h]
          · intro l a' t' e; injection e with e; injection e with _ e; injection e with e1 e2; exact ⟨e1.symm, e2.symm⟩
        | other =>
          refine .inl ⟨by simpa using i1, i2, ?_, i4⟩
          rw [listenerCalls_append, show listenerCalls [LEv.other _] = ([] : List (ROp X)) from rfl, List.append_nil]; exact i3
      · have tail : ∀ l, listenerCalls l = [] → listenerCalls (x.2 ++ l) = listenerCalls x.2 := by
          intro l hl; rw [listenerCalls_append, hl, List.append_nil]
        have more : ∀ z : List (LOp X), ((now < s.last ∧ timeSub s.last now = none ∧ listenerCalls x.2 = []) ∨
            ∃ p1 q m, p ++ z = p1 ++ .apply :: q ∧
              setEscapes ((Listener.run (.receive now msgs auth st :: p1) s []).1.rb.setTransform m auth st).2 = true ∧
              listenerCalls x.2 = listenerCalls (Listener.run (.receive now msgs auth st :: p1) s []).2 ++ [.set m auth st]) := by
          intro z
          rcases i4 with i4 | ⟨p1, q, m, e1, e2, e3⟩
          · exact .inl i4
          · exact .inr ⟨p1, q ++ z, m, by rw [e1]; simp, e2, e3⟩
        cases h with
        | busy => exact absurd (List.mem_append_right _ (List.mem_singleton.2 rfl)) (hp _ _ _ _)
        | range => exact absurd (List.mem_append_right _ (List.mem_singleton.2 rfl)) (hp _ _ _ _)
        | jump => exact absurd (List.mem_append_right _ (List.mem_singleton.2 rfl)) (hp _ _ _ _)
        | plain => exact absurd (List.mem_append_right _ (List.mem_singleton.2 rfl)) (hp _ _ _ _)
        | idle h =>
          refine .inr ⟨by simpa using i1, i2, ?_, ?_⟩
          · rw [tail _ rfl]; exact i3
          · rw [tail _ rfl]; exact more _
        | finish h => rw [i2] at h; cases h
        | escape h => rw [i2] at h; cases h
        | set h => rw [i2] at h; cases h
        | other =>
          refine .inr ⟨by simpa using i1, i2, ?_, ?_⟩
          · rw [tail _ rfl]; exact i3
          · rw [tail _ rfl]; exact more _
  rcases key ops hops with ⟨i1, i2, i3, i4⟩ | ⟨i1, i2, i3, i4⟩
  · refine ⟨⟨_, i3⟩, fun _ => ⟨i2, i3, fun hn => ?_⟩, fun h => absurd h i1⟩
    have : r.1.remaining = [] := by unfold Listener.remaining; rw [hn]
    rw [← i3]
    show listenerCalls r.2 = listenerCalls r.2 ++ r.1.remaining
    rw [this, List.append_nil]
  · exact ⟨i3, fun h => absurd i1 h, fun _ => ⟨i2, i4⟩⟩

/-- Two messages, the second after the clock went back, a rejected transform in the first, a foreign call in
between. -/
def exListen : List (LOp Int) :=
  [.receive 50 [tmsg ['w'] ['a'] 10 1, tmsg ['a'] ['a'] 10 2, tmsg ['a'] ['b'] 10 3] ['p'] false, .apply, .apply,
   .other (.set (tmsg ['q'] ['r'] 5 9) ['u'] true), .apply, .apply,
   .receive 40 [tmsg ['w'] ['a'] 30 4] ['p'] true, .apply, .apply]

example : LEv.escaped ∉ (Listener.history 100 exListen).2 ∧ (Listener.history 100 exListen).1.cur = none ∧
    callsDue 0 (Listener.history 100 exListen).2 =
      [.set (tmsg ['w'] ['a'] 10 1) ['p'] false, .set (tmsg ['a'] ['a'] 10 2) ['p'] false,
       .set (tmsg ['a'] ['b'] 10 3) ['p'] false, .clear, .set (tmsg ['w'] ['a'] 30 4) ['p'] true] ∧
    (Listener.history 100 exListen).1.rb.buf.lookupTransform ['w'] ['a'] 30 = .ok (tmsg ['w'] ['a'] 30 4) := by
  refine ⟨?_, by decide +kernel, by rfl, by decide +kernel⟩
  intro h
  have : (Listener.history 100 exListen).2.any (fun | .escaped => true | _ => false) = true :=
    List.any_eq_true.2 ⟨_, h, rfl⟩
  revert this; decide +kernel

/-- C43, finding. A `std::runtime_error` from `setTransform` (a stamp to which the storage duration cannot be added)
is not caught: the transforms after it in the message are lost. -/
theorem C43_escape_finding :
    ∃ msgs : List (Msg Int),
      let r := Listener.run [.receive 50 msgs ['p'] false, .apply, .apply, .apply] (Listener.init 100) []
      msgs.length = 2 ∧ r.1.cur = none ∧ (r.1.rb.buf.canTransform ['w'] ['b'] 10 = .ok false) ∧
      (Listener.run [.receive 50 (msgs.drop 1) ['p'] false, .apply, .apply, .apply] (Listener.init 100) []).1.rb.buf.canTransform ['w'] ['b'] 10
        = .ok true :=
  ⟨[tmsg ['w'] ['a'] TIME_MAX 1, tmsg ['w'] ['b'] 10 2], by decide +kernel⟩

/-! ### C44 -/

/-- C44. Without a dedicated thread the answer is `false`, whatever the buffer holds. -/
theorem C44_no_thread (g : Goal) (errstr : Bool) (W : Nat → World X) (n : Nat) :
    wait g false errstr W (n + 1) = .returned false := by
  induction n with
  | zero => rfl
  | succ n ih => rw [wait_step, ih]; rfl

/-- C44. If the polls before the `k`-th went to sleep and the `k`-th stopped at sample `m`, the call returns the
availability at the next sample - the last check. -/
theorem C44_stops [Rigid X] {D : Duration} (g : Goal) (W : Nat → World X) (hr : ∀ n, Reachable D (W n).buf)
    (k m : Nat) (hk : ∀ i < k, PollSleeps g W (W 0).now i) (hm : PollStops g W (W 0).now k m) :
    ∃ v, g.can (W (m + 1)).buf = .ok v ∧ ∀ n, wait g true false W (m + 2 + n) = .returned v := by
  obtain ⟨v, hv⟩ := Goal.can_total (hr (m + 1)) g
  refine ⟨v, hv, fun n => ?_⟩
  have h1 := wait_stops (wait_sleeping (errstr := false) k wait_start hk) hm
  have h2 : wait g true false W (m + 2) = .returned v := by
    rw [wait_step, h1, wstep_final hv]; rfl
  rw [ended_stays (by rw [h2]; trivial), h2]

/-- C44. A call that has returned was ended by a poll that stopped, after polls that all went to sleep, and its
result is the availability at its last check. (`errstr`: the caller passed a string for the error.) -/
theorem C44_returned [Rigid X] {D : Duration} (g : Goal) (errstr : Bool) (W : Nat → World X)
    (hr : ∀ n, Reachable D (W n).buf) (n : Nat) (v : Bool) (h : wait g true errstr W n = .returned v) :
    ∃ k m, (∀ i < k, PollSleeps g W (W 0).now i) ∧ PollStops g W (W 0).now k m ∧ m + 1 < n ∧
      g.can (W (m + 1)).buf = .ok v := by
  have ended (q : Nat) (hq : (wait g true errstr W q).Ended) : q ≤ n → wait g true errstr W n = wait g true errstr W q := by
    intro hle
    obtain ⟨d, rfl⟩ := Nat.exists_eq_add_of_le hle
    exact ended_stays hq d
  have ended' (q : Nat) (hle : n ≤ q) : wait g true errstr W q = .returned v := by
    obtain ⟨d, rfl⟩ := Nat.exists_eq_add_of_le hle
    rw [ended_stays (by rw [h]; trivial), h]
  rcases rounds_cases (g := g) (errstr := errstr) hr n with hs | ⟨j, hj, hs, hm | ⟨-, ht⟩ | ⟨-, ht⟩⟩
  · have := wait_sleeping (errstr := errstr) n wait_start hs
    rw [ended' _ (by omega)] at this; cases this
  · obtain ⟨m, hm⟩ := hm
    have h1 := wait_stops (wait_sleeping (errstr := errstr) j wait_start hs) hm
    have hlt : m + 1 < n := by
      rcases Nat.lt_or_ge (m + 1) n with hlt | hge
      · exact hlt
      · rw [ended' _ hge] at h1; cases h1
    refine ⟨j, m, hs, hm, hlt, ?_⟩
    obtain ⟨v', hv⟩ := Goal.can_total (hr (m + 1)) g
    have h2 : wait g true errstr W (m + 1 + 1) = if errstr then .info (W 0).now v' else .returned v' := by
      rw [wait_step, h1, wstep_final hv]
    rw [hv]
    cases errstr with
    | false =>
      rw [ended (m + 1 + 1) (by rw [h2]; trivial) (by omega), h2] at h
      injection h with h; rw [h]
    | true =>
      simp only [if_true] at h2
      cases ht : timeSub (W (m + 1 + 1)).now (W 0).now with
      | none =>
        have h3 : wait g true true W (m + 1 + 1 + 1) = .threw := by rw [wait_step, h2, wstep_info_threw ht]
        rcases Nat.lt_or_ge n (m + 1 + 1 + 1) with hl | hl
        · have : n = m + 1 + 1 := by omega
          rw [this, h2] at h; cases h
        · rw [ended _ (by rw [h3]; trivial) hl, h3] at h; cases h
      | some d =>
        have h3 : wait g true true W (m + 1 + 1 + 1) = .returned v' := by rw [wait_step, h2, wstep_info ht]
        rcases Nat.lt_or_ge n (m + 1 + 1 + 1) with hl | hl
        · have : n = m + 1 + 1 := by omega
          rw [this, h2] at h; cases h
        · rw [ended _ (by rw [h3]; trivial) hl, h3] at h; injection h with h; rw [h]
  · rcases Nat.lt_or_ge n (5 * j + 1 + 1) with hl | hl
    · rw [ended' _ (Nat.le_of_lt hl)] at ht; cases ht
    · rw [ended _ (by rw [ht]; trivial) hl, ht] at h; cases h
  · rcases Nat.lt_or_ge n (5 * j + 3 + 1) with hl | hl
    · rw [ended' _ (Nat.le_of_lt hl)] at ht; cases ht
    · rw [ended _ (by rw [ht]; trivial) hl, ht] at h; cases h

/-- C44. A transform that is available at the first two checks: the call returns `true` without sleeping. -/
theorem C44_available [Rigid X] {D : Duration} (g : Goal) (W : Nat → World X) (hr : ∀ n, Reachable D (W n).buf)
    (ha : (timeAdd (W 0).now g.timeout).isSome) (h2 : g.can (W 2).buf = .ok true) (h3 : g.can (W 3).buf = .ok true)
    (n : Nat) : wait g true false W (4 + n) = .returned true := by
  obtain ⟨e, he⟩ := Option.isSome_iff_exists.1 ha
  by_cases hd : (W 1).now < e
  · obtain ⟨v, hv, hw⟩ := C44_stops g W hr 0 2 (fun i hi => absurd hi (Nat.not_lt_zero i)) (.available (k := 0) he hd h2)
    rw [h3] at hv; injection hv with hv; subst hv
    exact hw n
  · obtain ⟨v, hv, hw⟩ := C44_stops g W hr 0 1 (fun i hi => absurd hi (Nat.not_lt_zero i))
      (.deadline (k := 0) he (Nat.not_lt.1 hd))
    rw [h2] at hv; injection hv with hv; subst hv
    have := hw (1 + n)
    rwa [← Nat.add_assoc] at this

/-- C44. A timeout that is not positive, with a clock that does not go back: one check, no sleep. -/
theorem C44_zero_timeout [Rigid X] {D : Duration} (g : Goal) (W : Nat → World X) (hr : ∀ n, Reachable D (W n).buf)
    (ht : g.timeout ≤ 0) (ha : (timeAdd (W 0).now g.timeout).isSome) (hc : (W 0).now ≤ (W 1).now) :
    ∃ v, g.can (W 2).buf = .ok v ∧ ∀ n, wait g true false W (3 + n) = .returned v := by
  obtain ⟨e, he⟩ := Option.isSome_iff_exists.1 ha
  have hle : e ≤ (W 0).now := by
    unfold timeAdd at he
    split at he
    · injection he with he; omega
    · cases he
  exact C44_stops g W hr 0 1 (fun i hi => absurd hi (Nat.not_lt_zero i)) (.deadline (k := 0) he (Nat.le_trans hle hc))

/-- C44. Once the deadline has passed for good the call returns; it can throw instead only if the deadline or a
clock reading plus three seconds is not representable. -/
theorem C44_terminates [Rigid X] {D : Duration} (g : Goal) (W : Nat → World X) (hr : ∀ n, Reachable D (W n).buf)
    (e : Time) (he : timeAdd (W 0).now g.timeout = some e) (h3 : ∀ n, (timeAdd (W n).now threeSeconds).isSome)
    (N : Nat) (hN : ∀ n ≥ N, e ≤ (W n).now) : ∃ n v, wait g true false W n = .returned v := by
  rcases rounds_cases (g := g) (errstr := false) hr (N + 1) with hs | ⟨j, hj, hs, hm | ⟨h, -⟩ | ⟨h, -⟩⟩
  · obtain ⟨⟨e', h1, h2⟩, -⟩ := hs N (Nat.lt_succ_self N)
    rw [he] at h1; injection h1 with h1; subst h1
    have := hN (5 * N + 1) (by omega)
    omega
  · obtain ⟨m, hm⟩ := hm
    obtain ⟨v, -, hv⟩ := C44_stops g W hr j m hs hm
    exact ⟨_, v, hv 0⟩
  · rw [he] at h; cases h
  · have := h3 (5 * j + 3); rw [h] at this; cases this

/-- C44. A blocking lookup ends with the outcome of the lookup right after its wait (of the two lookups of the
five-argument version at the two following moments), whatever the wait returned; the only other way out is a
`std::runtime_error` from the wait. -/
theorem C44_lookup [Rigid X] {D : Duration} (g : Goal) (ded : Bool) (W : Nat → World X)
    (hr : ∀ n, Reachable D (W n).buf) (n : Nat) (r : Res (Msg X)) (h : blockingLookup g ded W n = .done r) :
    ∃ m < n, ((∃ v, wait g ded false W m = .returned v) ∧ r = g.lookupOver (W m).buf (W (m + 1)).buf) ∨
      (wait g ded false W m = .threw ∧ r = .throw .runtime) := by
  -- the phases of the lookup follow those of the wait
  have key : ∀ n, (blockingLookup g ded W n = .waiting (wait g ded false W n) ∧ wait g ded false W n ≠ .ub) ∨
      (∃ m m1, n = m + 1 ∧ (∃ v, wait g ded false W m = .returned v) ∧ g.look1 (W m).buf = .inr m1 ∧
        blockingLookup g ded W n = .second m1) ∨
      (∃ r, blockingLookup g ded W n = .done r ∧ ∃ m < n,
        ((∃ v, wait g ded false W m = .returned v) ∧ r = g.lookupOver (W m).buf (W (m + 1)).buf) ∨
        (wait g ded false W m = .threw ∧ r = .throw .runtime)) := by
    intro n
    induction n with
    | zero => exact .inl ⟨rfl, by simp [wait]⟩
    | succ n ih =>
      rcases ih with ⟨ih, hub⟩ | ⟨m, m1, rfl, hv, hl, hb⟩ | ⟨r, hb, m, hm, hx⟩
      · have hnot : ∀ p, p ≠ .ub → wait g ded false W n = p → (∀ v, p ≠ .returned v) → p ≠ .threw →
            (blockingLookup g ded W (n + 1) = .waiting (wait g ded false W (n + 1)) ∧ wait g ded false W (n + 1) ≠ .ub) := by
          intro p hp hw hv ht
          have e1 : blockingLookup g ded W (n + 1) = bstep g ded (W n) (.waiting p) := by
            show bstep g ded (W n) (blockingLookup g ded W n) = _
            rw [ih, hw]
          rw [wait_step, hw, e1]
          have hcan := Goal.can_total (hr n) g
          obtain ⟨v, hcan⟩ := hcan
          cases p with
          | returned v => exact absurd rfl (hv v)
          | threw => exact absurd rfl ht
          | ub => exact absurd rfl hp
          | enter => refine ⟨rfl, ?_⟩; unfold wstep; dsimp only; split <;> simp
          | deadline st =>
            refine ⟨rfl, ?_⟩
            cases ha : timeAdd st g.timeout with
            | none => rw [wstep_deadline_threw ha]; simp
            | some e => rw [wstep_deadline ha]; split <;> simp
          | available st => refine ⟨rfl, ?_⟩; rw [wstep_available hcan]; split <;> simp
          | jump st =>
            refine ⟨rfl, ?_⟩
            cases ha : timeAdd (W n).now threeSeconds with
            | none => rw [wstep_jump_threw ha]; simp
            | some e => rw [wstep_jump ha]; split <;> simp
          | alive st => refine ⟨rfl, ?_⟩; rw [wstep_alive]; split <;> simp
          | sleeping st => exact ⟨rfl, by simp [show wstep g ded false (W n) (.sleeping st) = .deadline st from rfl]⟩
          | final st => refine ⟨rfl, ?_⟩; rw [wstep_final hcan]; simp
          | info st v =>
            refine ⟨rfl, ?_⟩
            cases ha : timeSub (W n).now st with
            | none => rw [wstep_info_threw ha]; simp
            | some e => rw [wstep_info ha]; simp
        cases hw : wait g ded false W n with
        | returned v =>
          have e1 : blockingLookup g ded W (n + 1) = bstep g ded (W n) (.waiting (.returned v)) := by
            show bstep g ded (W n) (blockingLookup g ded W n) = _
            rw [ih, hw]
          cases hl : g.look1 (W n).buf with
          | inl r =>
            refine .inr (.inr ⟨r, ?_, n, Nat.lt_succ_self n, .inl ⟨⟨v, hw⟩, ?_⟩⟩)
            · rw [e1]; simp only [bstep, hl]
            · simp only [Goal.lookupOver, hl]
          | inr m1 =>
            refine .inr (.inl ⟨n, m1, rfl, ⟨v, hw⟩, hl, ?_⟩)
            rw [e1]; simp only [bstep, hl]
        | threw =>
          refine .inr (.inr ⟨.throw .runtime, ?_, n, Nat.lt_succ_self n, .inr ⟨hw, rfl⟩⟩)
          show bstep g ded (W n) (blockingLookup g ded W n) = _
          rw [ih, hw]; rfl
        | ub => exact absurd hw hub
        | enter => exact .inl (hnot _ (by simp) hw (by simp) (by simp))
        | deadline st => exact .inl (hnot _ (by simp) hw (by simp) (by simp))
        | available st => exact .inl (hnot _ (by simp) hw (by simp) (by simp))
        | jump st => exact .inl (hnot _ (by simp) hw (by simp) (by simp))
        | alive st => exact .inl (hnot _ (by simp) hw (by simp) (by simp))
        | sleeping st => exact .inl (hnot _ (by simp) hw (by simp) (by simp))
        | final st => exact .inl (hnot _ (by simp) hw (by simp) (by simp))
        | info st v => exact .inl (hnot _ (by simp) hw (by simp) (by simp))
      · refine .inr (.inr ⟨g.look2 m1 (W (m + 1)).buf, ?_, m, by omega, .inl ⟨hv, ?_⟩⟩)
        · show bstep g ded (W (m + 1)) (blockingLookup g ded W (m + 1)) = _
          rw [hb]; rfl
        · simp only [Goal.lookupOver, hl]
      · refine .inr (.inr ⟨r, ?_, m, by omega, hx⟩)
        show bstep g ded (W n) (blockingLookup g ded W n) = _
        rw [hb]; rfl
  rcases key n with ⟨h1, -⟩ | ⟨m, m1, -, -, -, h1⟩ | ⟨r', h1, h2⟩
  · rw [h1] at h; cases h
  · rw [h1] at h; cases h
  · rw [h1] at h; injection h with h; subst h; exact h2

/-- A wait of two polls: the transform appears while the thread sleeps. -/
def exWorld (n : Nat) : World Int :=
  { buf := if n < 6 then Buf.init 100 else exBuf, now := 50 + n, up := true }

example : PollSleeps (simpleGoal ['w'] ['b'] 15 30) exWorld 50 0 ∧
    PollStops (simpleGoal ['w'] ['b'] 15 30) exWorld 50 1 7 ∧
    wait (simpleGoal ['w'] ['b'] 15 30) true false exWorld 9 = .returned true ∧
    (∀ n, Reachable 100 (exWorld n).buf) := by
  refine ⟨⟨⟨80, by decide +kernel, by decide +kernel⟩, by decide +kernel, ⟨3000000053, by decide +kernel, by decide +kernel⟩,
    by decide +kernel⟩, .available (k := 1) (e := 80) (by decide +kernel) (by decide +kernel) (by decide +kernel),
    by decide +kernel, fun n => ?_⟩
  unfold exWorld
  dsimp only
  split
  · exact ⟨[], rfl⟩
  · exact exBuf_reachable

/-- C44, finding. A deadline that does not fit in `ros::Time` (the longest timeout, at a clock reading of the
year 2039) makes the call throw `std::runtime_error`, even when the transform is available. -/
theorem C44_overflow_finding :
    ∃ (g : Goal) (W : Nat → World Int), g.timeout = 2147483647999999999 ∧
      (∀ n, g.can (W n).buf = .ok true ∧ (W n).now = 2200000000000000000 ∧ (W n).up = true) ∧
      wait g true false W 2 = .threw := by
  refine ⟨simpleGoal ['w'] ['b'] 15 2147483647999999999, fun _ => { buf := exBuf, now := 2200000000000000000, up := true },
    rfl, fun _ => ⟨?_, rfl, rfl⟩, by decide +kernel⟩
  show (simpleGoal ['w'] ['b'] 15 2147483647999999999).can exBuf = .ok true
  decide +kernel

/-- C44, finding. Without a dedicated thread the answer is `false` for a transform that is available. -/
theorem C44_no_thread_finding :
    ∃ (g : Goal) (b : Buf Int), Reachable 100 b ∧ g.can b = .ok true ∧
      ∀ W : Nat → World Int, (∀ n, (W n).buf = b) → ∀ n, wait g false false W (n + 1) = .returned false :=
  ⟨simpleGoal ['w'] ['b'] 15 30, exBuf, exBuf_reachable, by decide +kernel, fun W _ n => C44_no_thread _ _ W n⟩

end Tf2
