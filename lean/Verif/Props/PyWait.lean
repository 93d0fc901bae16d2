import Verif.Spec.PyWait
import Verif.Props.PyTime
import Verif.Props.BufferServer
import Verif.Props.Lookup

/-!
# C68: the Python buffer answers and waits like the C++ one
-/
namespace Tf2.Py

variable {X : Type} {fl : ℚ → ℚ}

/-- A call is over. -/
theorem pystep_over {g : Goal} {w : PyWorld X} {p : PyPhase}
    (h : (∃ v, p = .returned v) ∨ p = .typeError ∨ p = .interrupted ∨ p = .crash) : pystep fl g w p = p := by
  rcases h with ⟨v, rfl⟩ | rfl | rfl | rfl <;> rfl

/-- Where a call can be after `n` steps. -/
inductive PyAt (fl : ℚ → ℚ) (g : Goal) (W : Nat → PyWorld X) : Nat → PyPhase → Prop where
  | enter : PyAt fl g W 0 .enter
  | deadline {k} (h0 : g.timeout ≠ 0) (hs : ∀ i < k, PySleeps fl g W i) : PyAt fl g W (4 * k + 1) (.deadline (W 0).now)
  | available {k} (h0 : g.timeout ≠ 0) (hs : ∀ i < k, PySleeps fl g W i)
      (h1 : ((W (4 * k + 1)).now : Int) < (W 0).now + g.timeout) : PyAt fl g W (4 * k + 2) (.available (W 0).now)
  | jump {k} (h0 : g.timeout ≠ 0) (hs : ∀ i < k, PySleeps fl g W i)
      (h1 : ((W (4 * k + 1)).now : Int) < (W 0).now + g.timeout)
      (h2 : Goal.canPy fl g (W (4 * k + 2)).buf = .ok false) : PyAt fl g W (4 * k + 3) (.jump (W 0).now)
  | sleeping {k} (h0 : g.timeout ≠ 0) (hs : ∀ i < k, PySleeps fl g W i)
      (h1 : ((W (4 * k + 1)).now : Int) < (W 0).now + g.timeout)
      (h2 : Goal.canPy fl g (W (4 * k + 2)).buf = .ok false)
      (h3 : (W 0).now ≤ (W (4 * k + 3)).now + 3000000000) : PyAt fl g W (4 * k + 4) (.sleeping (W 0).now)
  | atOnce (h0 : g.timeout = 0) : PyAt fl g W 1 .final
  | final {k m} (h0 : g.timeout ≠ 0) (hp : 0 ≤ ((W 0).now : Int) + g.timeout) (hs : ∀ i < k, PySleeps fl g W i)
      (h : PyStops fl g W k m) : PyAt fl g W (m + 1) .final
  | answeredAtOnce {n v} (hn : 1 < n) (h0 : g.timeout = 0) (h : Goal.canPy fl g (W 1).buf = .ok v) : PyAt fl g W n (.returned v)
  | answered {n k m v} (hn : m + 1 < n) (h0 : g.timeout ≠ 0) (hp : 0 ≤ ((W 0).now : Int) + g.timeout)
      (hs : ∀ i < k, PySleeps fl g W i)
      (h : PyStops fl g W k m) (hv : Goal.canPy fl g (W (m + 1)).buf = .ok v) : PyAt fl g W n (.returned v)
  | typeError {n} (hn : 1 < n) (h0 : g.timeout ≠ 0) (hp : ((W 0).now : Int) + g.timeout < 0) : PyAt fl g W n .typeError
  | interrupted {n k} (hn : 4 * k + 4 < n) (h0 : g.timeout ≠ 0) (hs : ∀ i < k, PySleeps fl g W i)
      (h1 : ((W (4 * k + 1)).now : Int) < (W 0).now + g.timeout)
      (h2 : Goal.canPy fl g (W (4 * k + 2)).buf = .ok false)
      (h3 : (W 0).now ≤ (W (4 * k + 3)).now + 3000000000) (h4 : (W (4 * k + 4)).sleepOk = false) : PyAt fl g W n .interrupted
  | crash {n m} (hm : m < n) (h : ∀ v, Goal.canPy fl g (W m).buf ≠ .ok v) : PyAt fl g W n .crash

theorem pyAt (g : Goal) (W : Nat → PyWorld X) (n : Nat) : PyAt fl g W n (pyWait fl g W n) := by
  induction n with
  | zero => exact .enter
  | succ n ih =>
    show PyAt fl g W (n + 1) (pystep fl g (W n) (pyWait fl g W n))
    generalize pyWait fl g W n = p at ih
    cases ih with
    | enter =>
      unfold pystep
      by_cases h : g.timeout ≠ 0
      · rw [if_pos h]; exact .deadline (k := 0) h (fun i hi => absurd hi (Nat.not_lt_zero i))
      · rw [if_neg h]; exact .atOnce (not_not.1 h)
    | @deadline k h0 hs =>
      unfold pystep
      dsimp only
      by_cases hp : ((W 0).now : Int) + g.timeout < 0
      · rw [if_pos hp]; exact .typeError (by omega) h0 hp
      · rw [if_neg hp]
        by_cases h1 : ((W (4 * k + 1)).now : Int) < (W 0).now + g.timeout
        · rw [if_pos h1]; exact .available h0 hs h1
        · rw [if_neg h1]; exact .final h0 (not_lt.1 hp) hs (.deadline (not_lt.1 h1))
    | @available k h0 hs h1 =>
      unfold pystep
      dsimp only
      cases hc : Goal.canPy fl g (W (4 * k + 2)).buf with
      | ok v =>
        cases v with
        | true => exact .final h0 (by omega) hs (.available h1 hc)
        | false => exact .jump h0 hs h1 hc
      | raised e => exact .crash (m := 4 * k + 2) (by omega) (by rw [hc]; intro v h; cases h)
      | typeError => exact .crash (m := 4 * k + 2) (by omega) (by rw [hc]; intro v h; cases h)
      | interrupted => exact .crash (m := 4 * k + 2) (by omega) (by rw [hc]; intro v h; cases h)
      | crash => exact .crash (m := 4 * k + 2) (by omega) (by rw [hc]; intro v h; cases h)
    | @jump k h0 hs h1 h2 =>
      unfold pystep
      dsimp only
      by_cases h3 : (W 0).now ≤ (W (4 * k + 3)).now + 3000000000
      · rw [if_pos h3]; exact .sleeping h0 hs h1 h2 h3
      · rw [if_neg h3]; exact .final h0 (by omega) hs (.jump h1 h2 (not_le.1 h3))
    | @sleeping k h0 hs h1 h2 h3 =>
      unfold pystep
      dsimp only
      by_cases h4 : (W (4 * k + 4)).sleepOk = true
      · rw [if_pos h4]
        refine .deadline (k := k + 1) h0 fun i hi => ?_
        rcases Nat.lt_succ_iff_lt_or_eq.1 hi with h | rfl
        · exact hs i h
        · exact ⟨h1, h2, h3, h4⟩
      · rw [if_neg h4]; exact .interrupted (Nat.lt_succ_self _) h0 hs h1 h2 h3 (by simpa using h4)
    | atOnce h0 =>
      unfold pystep
      dsimp only
      cases hc : Goal.canPy fl g (W 1).buf with
      | ok v => exact .answeredAtOnce (by omega) h0 hc
      | raised e => exact .crash (m := 1) (by omega) (by rw [hc]; intro v h; cases h)
      | typeError => exact .crash (m := 1) (by omega) (by rw [hc]; intro v h; cases h)
      | interrupted => exact .crash (m := 1) (by omega) (by rw [hc]; intro v h; cases h)
      | crash => exact .crash (m := 1) (by omega) (by rw [hc]; intro v h; cases h)
    | @final k m h0 hp hs h =>
      unfold pystep
      dsimp only
      cases hc : Goal.canPy fl g (W (m + 1)).buf with
      | ok v => exact .answered (Nat.lt_succ_self _) h0 hp hs h hc
      | raised e => exact .crash (m := m + 1) (by omega) (by rw [hc]; intro v h; cases h)
      | typeError => exact .crash (m := m + 1) (by omega) (by rw [hc]; intro v h; cases h)
      | interrupted => exact .crash (m := m + 1) (by omega) (by rw [hc]; intro v h; cases h)
      | crash => exact .crash (m := m + 1) (by omega) (by rw [hc]; intro v h; cases h)
    | answeredAtOnce hn h0 h => exact .answeredAtOnce (by omega) h0 h
    | answered hn h0 hp hs h hv => exact .answered (by omega) h0 hp hs h hv
    | typeError hn h0 hp => exact .typeError (by omega) h0 hp
    | interrupted hn h0 hs h1 h2 h3 h4 => exact .interrupted (by omega) h0 hs h1 h2 h3 h4
    | crash hm h => exact .crash (by omega) h

/-! ### One call -/

theorem Passes.reaches {g : Goal} (h : Passes fl g) : ∃ g', Reaches fl g g' := by
  obtain ⟨⟨t, h1⟩, h2⟩ := h
  cases ha : g.advanced with
  | true =>
    obtain ⟨u, h3⟩ := h2 ha
    exact ⟨_, t, u, h1, by simpa [ha] using h3, rfl⟩
  | false => exact ⟨_, t, g.ttime, h1, by simp [ha], rfl⟩

/-- `WRAP` keeps the class of every tf2 exception. -/
theorem wrap_throw {α : Type} (e : Exc) (h : e ≠ .runtime) : wrap (.throw e : Res α) = .raised e := by
  cases e <;> first | rfl | exact absurd rfl h

theorem canPy_reaches {g g' : Goal} (h : Reaches fl g g') (b : Buf X) : Goal.canPy fl g b = bare (g'.can b) := by
  obtain ⟨t, u, h1, h2, rfl⟩ := h
  unfold Goal.canPy Goal.can
  dsimp only
  cases ha : g.advanced with
  | true =>
    rw [ha, if_pos rfl] at h2
    simp only [if_true, canFullCore, withTime, h1, h2]
  | false => simp [canCore, withTime, h1]

theorem lookPy_reaches [Rigid X] {g g' : Goal} (h : Reaches fl g g') (b : Buf X) :
    Goal.lookPy fl g b = thenOut (wrap (g'.lookup b)) := by
  obtain ⟨t, u, h1, h2, rfl⟩ := h
  unfold Goal.lookPy Goal.lookup
  dsimp only
  cases ha : g.advanced with
  | true =>
    rw [ha, if_pos rfl] at h2
    simp only [if_true, lookupFullCore, withTime, h1, h2]
  | false => simp [lookupCore, withTime, h1]

theorem goal_lookup_total [Rigid X] {D : Duration} {b : Buf X} (hr : Reachable D b) (g : Goal) :
    (∃ m, g.lookup b = .ok m) ∨ ∃ e, g.lookup b = .throw e ∧ e ≠ .runtime := by
  rw [← Goal.lookupOver_self]
  unfold Goal.lookupOver
  rcases Goal.look1_total hr g with ⟨m1, h⟩ | ⟨r, h, h'⟩
  · rw [h]; exact Goal.look2_total hr g m1
  · rw [h]
    rcases h' with ⟨m, rfl⟩ | ⟨e, rfl, hn⟩
    · exact .inl ⟨m, rfl⟩
    · exact .inr ⟨e, rfl, hn⟩

/-- What a Python buffer serves is within the range of the time type. -/
theorem lookup_stamp_le [Rigid X] {D : Duration} {ops : List (Op X)} {b : Buf X}
    (hb : runCore fl ops (Buf.init D) = some b) {g g' : Goal} (h : Reaches fl g g') {m : Msg X}
    (hm : g'.lookup b = .ok m) : m.stamp ≤ TIME_MAX := by
  obtain ⟨ops', hp, hb'⟩ := runCore_some hb
  have stored : ∀ u, (u = 0 ∨ ∃ o a s, Op.set o a s ∈ ops' ∧ ValidMsg o ∧ u = o.stamp) → u ≤ TIME_MAX := by
    rintro u (rfl | ⟨o, a, s, ho, -, rfl⟩)
    · exact Nat.zero_le _
    · obtain ⟨m0, h1, h2, -⟩ := hp.mem ho
      exact fromSec_le h2
  obtain ⟨t, u, h1, h2, rfl⟩ := h
  unfold Goal.lookup at hm
  dsimp only at hm
  cases ha : g.advanced with
  | true =>
    rw [ha, if_pos rfl] at h2 hm
    have := C66_stamp_origin_fixed hb' hm
    by_cases h0 : u = 0
    · exact stored _ (this.2 h0)
    · rw [this.1 h0]; exact fromSec_le h2
  | false =>
    rw [ha, if_neg (by simp)] at hm
    have := C66_stamp_origin hb' hm
    by_cases h0 : t = 0
    · exact stored _ (this.2 h0)
    · rw [this.1 h0]; exact fromSec_le h1

/-- **C68.** A request from Python, of either kind: availability is what the C++ buffer says of the request that reaches
it, and never raises; the lookup returns what the C++ buffer returns, if its stamp is before 2038, and raises the
class the C++ buffer throws, in every case one derived from `TransformException`; it raises exactly when the transform is not
available. -/
theorem C68_agree [Rigid X] {D : Duration} {ops : List (Op X)} {b : Buf X}
    (hb : runCore fl ops (Buf.init D) = some b) {g g' : Goal} (h : Reaches fl g g') :
    (∃ v, Goal.canPy fl g b = .ok v ∧ g'.can b = .ok v) ∧
    (∀ m, g'.lookup b = .ok m → m.stamp < 2 ^ 31 * 1000000000 → Goal.lookPy fl g b = .ok m) ∧
    (∀ m, Goal.lookPy fl g b = .ok m → g'.lookup b = .ok m) ∧
    (∀ e, Goal.lookPy fl g b = .raised e ↔ g'.lookup b = .throw e) ∧
    (∀ e, Goal.lookPy fl g b = .raised e → e.caughtBy .transform = true ∧ e ≠ .runtime) ∧
    (Goal.canPy fl g b = .ok false ↔ ∃ e, Goal.lookPy fl g b = .raised e) := by
  have hr : Reachable D b := by
    obtain ⟨ops', -, h2⟩ := runCore_some hb
    exact ⟨ops', h2⟩
  obtain ⟨v, hv⟩ := Goal.can_total hr g'
  have hcan : Goal.canPy fl g b = .ok v := by rw [canPy_reaches h, hv]; rfl
  have hlook := lookPy_reaches h b
  have hiff := Goal.can_iff hr g'
  rcases goal_lookup_total hr g' with ⟨m, hm⟩ | ⟨e, he, hn⟩
  · have hle := lookup_stamp_le hb h hm
    have hv1 : v = true := by
      have := hiff.2 ⟨m, hm⟩
      rw [hv] at this
      injection this
    have hval : Goal.lookPy fl g b = .ok m ∨
        (2 ^ 31 * 1000000000 ≤ m.stamp ∧ Goal.lookPy fl g b = .crash) := by
      rw [hlook, hm]
      show outMsg m = _ ∨ _ ∧ outMsg m = _
      unfold outMsg
      by_cases h31 : m.stamp < 2 ^ 31 * 1000000000
      · left; rw [(C67_out _ hle).1 h31]
      · right; rw [(C67_out _ hle).2 (not_lt.1 h31)]; exact ⟨not_lt.1 h31, rfl⟩
    refine ⟨⟨v, hcan, hv⟩, ?_, ?_, ?_, ?_, ?_⟩
    · intro m' h1 h2
      rw [hm] at h1
      injection h1 with h1
      subst h1
      rcases hval with h3 | ⟨h3, -⟩
      · exact h3
      · omega
    · intro m' h1
      rcases hval with h3 | ⟨-, h3⟩
      · rw [h3] at h1; injection h1 with h1; rw [← h1]; exact hm
      · rw [h3] at h1; cases h1
    · intro e
      rw [hm]
      rcases hval with h3 | ⟨-, h3⟩ <;> rw [h3] <;> constructor <;> intro h <;> cases h
    · intro e h1
      rcases hval with h3 | ⟨-, h3⟩ <;> rw [h3] at h1 <;> cases h1
    · rw [hcan, hv1]
      constructor
      · intro h; cases h
      · rintro ⟨e, h1⟩
        rcases hval with h3 | ⟨-, h3⟩ <;> rw [h3] at h1 <;> cases h1
  · have hv1 : v = false := by
      cases v with
      | false => rfl
      | true =>
        obtain ⟨m, hm⟩ := hiff.1 hv
        rw [he] at hm
        cases hm
    have hval : Goal.lookPy fl g b = .raised e := by
      rw [hlook, he, wrap_throw e hn]; rfl
    refine ⟨⟨v, hcan, hv⟩, ?_, ?_, ?_, ?_, ?_⟩
    · intro m h1; rw [he] at h1; cases h1
    · intro m h1; rw [hval] at h1; cases h1
    · intro e'
      rw [hval, he]
      constructor <;> intro h <;> injection h with h <;> rw [h]
    · intro e' h1
      rw [hval] at h1
      injection h1 with h1
      subst h1
      exact ⟨by cases e <;> first | rfl | exact absurd rfl hn, hn⟩
    · rw [hcan, hv1]
      exact ⟨fun _ => ⟨e, hval⟩, fun _ => rfl⟩

/-! ### Waiting -/

/-- **C68.** `can_transform` with a timeout returns the answer of its last check, made after: nothing, when the timeout is
zero; or polls that all went to sleep and one that found the deadline passed, the transform available, or the clock
set back by more than three seconds. -/
theorem C68_returned (g : Goal) (W : Nat → PyWorld X) {n : Nat} {v : Bool} (h : pyWait fl g W n = .returned v) :
    (g.timeout = 0 ∧ 1 < n ∧ Goal.canPy fl g (W 1).buf = .ok v) ∨
    (g.timeout ≠ 0 ∧ 0 ≤ ((W 0).now : Int) + g.timeout ∧ ∃ k m, m + 1 < n ∧ (∀ i < k, PySleeps fl g W i) ∧
      PyStops fl g W k m ∧ Goal.canPy fl g (W (m + 1)).buf = .ok v) := by
  have ha := pyAt (fl := fl) g W n
  rw [h] at ha
  cases ha with
  | answeredAtOnce hn h0 h => exact .inl ⟨h0, hn, h⟩
  | answered hn h0 hp hs h hv => exact .inr ⟨h0, hp, _, _, hn, hs, h, hv⟩

theorem pyWait_deadline {g : Goal} {W : Nat → PyWorld X} (h0 : g.timeout ≠ 0) (hp : 0 ≤ ((W 0).now : Int) + g.timeout) :
    ∀ k, (∀ i < k, PySleeps fl g W i) → pyWait fl g W (4 * k + 1) = .deadline (W 0).now := by
  intro k
  induction k with
  | zero => intro _; show pystep fl g (W 0) .enter = _; unfold pystep; rw [if_pos h0]
  | succ k ih =>
    intro hs
    have h1 := ih fun i hi => hs i (by omega)
    obtain ⟨a1, a2, a3, a4⟩ := hs k (Nat.lt_succ_self k)
    have e2 : pyWait fl g W (4 * k + 2) = .available (W 0).now := by
      show pystep fl g (W (4 * k + 1)) (pyWait fl g W (4 * k + 1)) = _
      rw [h1]; unfold pystep; dsimp only; rw [if_neg (not_lt.2 hp), if_pos a1]
    have e3 : pyWait fl g W (4 * k + 3) = .jump (W 0).now := by
      show pystep fl g (W (4 * k + 2)) (pyWait fl g W (4 * k + 2)) = _
      rw [e2]; unfold pystep; dsimp only; rw [a2]
    have e4 : pyWait fl g W (4 * k + 4) = .sleeping (W 0).now := by
      show pystep fl g (W (4 * k + 3)) (pyWait fl g W (4 * k + 3)) = _
      rw [e3]; unfold pystep; dsimp only; rw [if_pos a3]
    show pystep fl g (W (4 * k + 4)) (pyWait fl g W (4 * k + 4)) = _
    rw [e4]; unfold pystep; dsimp only; rw [if_pos a4]

/-- **C68.** And conversely: after polls that all went to sleep, one that stops ends the call with the next check. -/
theorem C68_stops {g : Goal} {W : Nat → PyWorld X} (h0 : g.timeout ≠ 0) (hp : 0 ≤ ((W 0).now : Int) + g.timeout)
    {k m : Nat} (hs : ∀ i < k, PySleeps fl g W i) (h : PyStops fl g W k m) {v : Bool}
    (hv : Goal.canPy fl g (W (m + 1)).buf = .ok v) : pyWait fl g W (m + 2) = .returned v := by
  have h1 := pyWait_deadline h0 hp k hs
  have hf : pyWait fl g W (m + 1) = .final := by
    cases h with
    | deadline a1 =>
      show pystep fl g (W (4 * k + 1)) (pyWait fl g W (4 * k + 1)) = _
      rw [h1]; unfold pystep; dsimp only; rw [if_neg (not_lt.2 hp), if_neg (not_lt.2 a1)]
    | available a1 a2 =>
      have e2 : pyWait fl g W (4 * k + 2) = .available (W 0).now := by
        show pystep fl g (W (4 * k + 1)) (pyWait fl g W (4 * k + 1)) = _
        rw [h1]; unfold pystep; dsimp only; rw [if_neg (not_lt.2 hp), if_pos a1]
      show pystep fl g (W (4 * k + 2)) (pyWait fl g W (4 * k + 2)) = _
      rw [e2]; unfold pystep; dsimp only; rw [a2]
    | jump a1 a2 a3 =>
      have e2 : pyWait fl g W (4 * k + 2) = .available (W 0).now := by
        show pystep fl g (W (4 * k + 1)) (pyWait fl g W (4 * k + 1)) = _
        rw [h1]; unfold pystep; dsimp only; rw [if_neg (not_lt.2 hp), if_pos a1]
      have e3 : pyWait fl g W (4 * k + 3) = .jump (W 0).now := by
        show pystep fl g (W (4 * k + 2)) (pyWait fl g W (4 * k + 2)) = _
        rw [e2]; unfold pystep; dsimp only; rw [a2]
      show pystep fl g (W (4 * k + 3)) (pyWait fl g W (4 * k + 3)) = _
      rw [e3]; unfold pystep; dsimp only; rw [if_neg (not_le.2 a3)]
  show pystep fl g (W (m + 1)) (pyWait fl g W (m + 1)) = _
  rw [hf]; unfold pystep; dsimp only; rw [hv]

/-- **C68.** What can end a call other than an answer: a deadline before time zero, and an interrupted sleep. Nothing else,
on a Python buffer and with times that pass. -/
theorem C68_exceptions [Rigid X] {D : Duration} {g : Goal} (hg : Passes fl g) (W : Nat → PyWorld X)
    (hW : ∀ n, ∃ ops, runCore fl ops (Buf.init D) = some (W n).buf) (n : Nat) :
    pyWait fl g W n ≠ .crash ∧
    (pyWait fl g W n = .typeError → g.timeout ≠ 0 ∧ ((W 0).now : Int) + g.timeout < 0) ∧
    (pyWait fl g W n = .interrupted → ∃ m < n, (W m).sleepOk = false) := by
  have ha := pyAt (fl := fl) g W n
  refine ⟨?_, ?_, ?_⟩
  · intro h
    rw [h] at ha
    cases ha with
    | @crash _ m hm hc =>
      obtain ⟨g', hg'⟩ := hg.reaches
      obtain ⟨ops, ho⟩ := hW m
      obtain ⟨⟨v, hv, -⟩, -⟩ := C68_agree ho hg'
      exact hc v hv
  · intro h
    rw [h] at ha
    cases ha with
    | typeError hn h0 hp => exact ⟨h0, hp⟩
  · intro h
    rw [h] at ha
    cases ha with
    | interrupted hn h0 hs h1 h2 h3 h4 => exact ⟨_, hn, h4⟩

/-- The call has not ended. -/
def PyPhase.Waiting : PyPhase → Prop
  | .returned _ | .typeError | .interrupted | .crash => False
  | _ => True

theorem pyWait_stay {g : Goal} {W : Nat → PyWorld X} {n : Nat} {v : Bool} (h : pyWait fl g W n = .returned v) :
    ∀ k, pyWait fl g W (n + k) = .returned v := by
  intro k
  induction k with
  | zero => exact h
  | succ k ih =>
    show pystep fl g (W (n + k)) (pyWait fl g W (n + k)) = _
    rw [ih]; rfl

/-- From `.final` on, one check. -/
theorem pyWait_final {g : Goal} {W : Nat → PyWorld X} {n : Nat} {v : Bool} (h : pyWait fl g W n = .final)
    (hv : Goal.canPy fl g (W n).buf = .ok v) : pyWait fl g W (n + 1) = .returned v := by
  show pystep fl g (W n) (pyWait fl g W n) = _
  rw [h]; unfold pystep; dsimp only; rw [hv]

/-- The start time a call remembers is its own. -/
theorem pyWait_start {g : Goal} {W : Nat → PyWorld X} {n : Nat} {st : Time}
    (h : pyWait fl g W n = .deadline st ∨ pyWait fl g W n = .available st ∨ pyWait fl g W n = .jump st ∨
      pyWait fl g W n = .sleeping st) : st = (W 0).now := by
  have ha := pyAt (fl := fl) g W n
  rcases h with h | h | h | h <;> rw [h] at ha <;> cases ha <;> rfl

/-- **C68.** A wait sees a transform that becomes and stays available: if the call is still waiting when the transform
becomes available for good (and no sleep is interrupted), it returns `True` within six steps - one sleep. -/
theorem C68_sees {g : Goal} {W : Nat → PyWorld X} (hp : 0 ≤ ((W 0).now : Int) + g.timeout) {j : Nat}
    (hj : (pyWait fl g W j).Waiting) (hav : ∀ i, j ≤ i → Goal.canPy fl g (W i).buf = .ok true)
    (hok : ∀ i, j ≤ i → (W i).sleepOk = true) : pyWait fl g W (j + 6) = .returned true := by
  have fin : ∀ n, j ≤ n → pyWait fl g W n = .final → pyWait fl g W (n + 1) = .returned true :=
    fun n hn h => pyWait_final h (hav n hn)
  have avl : ∀ n st, j ≤ n → pyWait fl g W n = .available st → pyWait fl g W (n + 2) = .returned true := by
    intro n st hn h
    refine fin (n + 1) (by omega) ?_
    show pystep fl g (W n) (pyWait fl g W n) = _
    rw [h]; unfold pystep; dsimp only; rw [hav n hn]
  have dl : ∀ n st, j ≤ n → pyWait fl g W n = .deadline st → pyWait fl g W (n + 3) = .returned true := by
    intro n st hn h
    have hst := pyWait_start (.inl h)
    subst hst
    have e : pyWait fl g W (n + 1) = pystep fl g (W n) (.deadline (W 0).now) := by
      show pystep fl g (W n) (pyWait fl g W n) = _
      rw [h]
    unfold pystep at e
    dsimp only at e
    rw [if_neg (not_lt.2 hp)] at e
    by_cases h1 : ((W n).now : Int) < (W 0).now + g.timeout
    · rw [if_pos h1] at e; exact avl (n + 1) _ (by omega) e
    · rw [if_neg h1] at e; exact pyWait_stay (fin (n + 1) (by omega) e) 1
  have sl : ∀ n st, j ≤ n → pyWait fl g W n = .sleeping st → pyWait fl g W (n + 4) = .returned true := by
    intro n st hn h
    refine dl (n + 1) st (by omega) ?_
    show pystep fl g (W n) (pyWait fl g W n) = _
    rw [h]; unfold pystep; dsimp only; rw [if_pos (hok n hn)]
  cases h : pyWait fl g W j with
  | enter =>
    have e : pyWait fl g W (j + 1) = pystep fl g (W j) .enter := by
      show pystep fl g (W j) (pyWait fl g W j) = _
      rw [h]
    unfold pystep at e
    by_cases h1 : g.timeout ≠ 0
    · rw [if_pos h1] at e; exact pyWait_stay (dl (j + 1) _ (by omega) e) 2
    · rw [if_neg h1] at e; exact pyWait_stay (fin (j + 1) (by omega) e) 4
  | deadline st => exact pyWait_stay (dl j st (Nat.le_refl _) h) 3
  | available st => exact pyWait_stay (avl j st (Nat.le_refl _) h) 4
  | jump st =>
    have e : pyWait fl g W (j + 1) = pystep fl g (W j) (.jump st) := by
      show pystep fl g (W j) (pyWait fl g W j) = _
      rw [h]
    unfold pystep at e
    dsimp only at e
    by_cases h1 : st ≤ (W j).now + 3000000000
    · rw [if_pos h1] at e; exact pyWait_stay (sl (j + 1) st (by omega) e) 1
    · rw [if_neg h1] at e; exact pyWait_stay (fin (j + 1) (by omega) e) 4
  | sleeping st => exact pyWait_stay (sl j st (Nat.le_refl _) h) 2
  | final => exact pyWait_stay (fin j (Nat.le_refl _) h) 5
  | returned v => rw [h] at hj; exact absurd hj id
  | typeError => rw [h] at hj; exact absurd hj id
  | interrupted => rw [h] at hj; exact absurd hj id
  | crash => rw [h] at hj; exact absurd hj id

/-- **C68.** A wait ends: once the deadline has passed for good (and no sleep is interrupted) the call returns within six
steps. -/
theorem C68_terminates [Rigid X] {D : Duration} {g : Goal} (hg : Passes fl g) {W : Nat → PyWorld X}
    (hW : ∀ n, ∃ ops, runCore fl ops (Buf.init D) = some (W n).buf) (hp : 0 ≤ ((W 0).now : Int) + g.timeout) {j : Nat}
    (hj : (pyWait fl g W j).Waiting) (hd : ∀ i, j ≤ i → ((W 0).now : Int) + g.timeout ≤ (W i).now)
    (hok : ∀ i, j ≤ i → (W i).sleepOk = true) : ∃ v, pyWait fl g W (j + 6) = .returned v := by
  have tot : ∀ n, ∃ v, Goal.canPy fl g (W n).buf = .ok v := by
    intro n
    obtain ⟨g', hg'⟩ := hg.reaches
    obtain ⟨ops, ho⟩ := hW n
    obtain ⟨⟨v, hv, -⟩, -⟩ := C68_agree ho hg'
    exact ⟨v, hv⟩
  have fin : ∀ n, pyWait fl g W n = .final → ∃ v, pyWait fl g W (n + 1) = .returned v := by
    intro n h
    obtain ⟨v, hv⟩ := tot n
    exact ⟨v, pyWait_final h hv⟩
  have dl : ∀ n st, j ≤ n → pyWait fl g W n = .deadline st → ∃ v, pyWait fl g W (n + 2) = .returned v := by
    intro n st hn h
    have hst := pyWait_start (.inl h)
    subst hst
    refine fin (n + 1) ?_
    show pystep fl g (W n) (pyWait fl g W n) = _
    rw [h]; unfold pystep; dsimp only; rw [if_neg (not_lt.2 hp), if_neg (not_lt.2 (hd n hn))]
  have sl : ∀ n st, j ≤ n → pyWait fl g W n = .sleeping st → ∃ v, pyWait fl g W (n + 3) = .returned v := by
    intro n st hn h
    refine dl (n + 1) st (by omega) ?_
    show pystep fl g (W n) (pyWait fl g W n) = _
    rw [h]; unfold pystep; dsimp only; rw [if_pos (hok n hn)]
  have jp : ∀ n st, j ≤ n → pyWait fl g W n = .jump st → ∃ v, pyWait fl g W (n + 4) = .returned v := by
    intro n st hn h
    have e : pyWait fl g W (n + 1) = pystep fl g (W n) (.jump st) := by
      show pystep fl g (W n) (pyWait fl g W n) = _
      rw [h]
    unfold pystep at e
    dsimp only at e
    by_cases h1 : st ≤ (W n).now + 3000000000
    · rw [if_pos h1] at e; exact sl (n + 1) st (by omega) e
    · rw [if_neg h1] at e
      obtain ⟨v, hv⟩ := fin (n + 1) e
      exact ⟨v, pyWait_stay hv 2⟩
  cases h : pyWait fl g W j with
  | enter =>
    have e : pyWait fl g W (j + 1) = pystep fl g (W j) .enter := by
      show pystep fl g (W j) (pyWait fl g W j) = _
      rw [h]
    unfold pystep at e
    by_cases h1 : g.timeout ≠ 0
    · rw [if_pos h1] at e
      obtain ⟨v, hv⟩ := dl (j + 1) _ (by omega) e
      exact ⟨v, pyWait_stay hv 3⟩
    · rw [if_neg h1] at e
      obtain ⟨v, hv⟩ := fin (j + 1) e
      exact ⟨v, pyWait_stay hv 4⟩
  | deadline st => obtain ⟨v, hv⟩ := dl j st (Nat.le_refl _) h; exact ⟨v, pyWait_stay hv 4⟩
  | available st =>
    obtain ⟨v, hv⟩ := tot j
    have e : pyWait fl g W (j + 1) = pystep fl g (W j) (.available st) := by
      show pystep fl g (W j) (pyWait fl g W j) = _
      rw [h]
    unfold pystep at e
    dsimp only at e
    rw [hv] at e
    cases v with
    | true => obtain ⟨v, hv⟩ := fin (j + 1) e; exact ⟨v, pyWait_stay hv 4⟩
    | false => obtain ⟨v, hv⟩ := jp (j + 1) st (by omega) e; exact ⟨v, pyWait_stay hv 1⟩
  | jump st => obtain ⟨v, hv⟩ := jp j st (Nat.le_refl _) h; exact ⟨v, pyWait_stay hv 2⟩
  | sleeping st => obtain ⟨v, hv⟩ := sl j st (Nat.le_refl _) h; exact ⟨v, pyWait_stay hv 3⟩
  | final => obtain ⟨v, hv⟩ := fin j h; exact ⟨v, pyWait_stay hv 5⟩
  | returned v => rw [h] at hj; exact absurd hj id
  | typeError => rw [h] at hj; exact absurd hj id
  | interrupted => rw [h] at hj; exact absurd hj id
  | crash => rw [h] at hj; exact absurd hj id

/-- **C68.** A blocking lookup raises a tf2 exception only when the transform is not available at that moment, and then
the one the C++ lookup throws; what it returns is what the C++ lookup returns; and if the transform is available when
its wait has ended, it returns one (before 2038). -/
theorem C68_lookup [Rigid X] {D : Duration} {g g' : Goal} (hg : Reaches fl g g') (W : Nat → PyWorld X)
    (hW : ∀ n, ∃ ops, runCore fl ops (Buf.init D) = some (W n).buf) (n : Nat) :
    (∀ e, pyLookup fl g W n = some (.raised e) → e ≠ .runtime ∧ g'.lookup (W n).buf = .throw e ∧
      Goal.canPy fl g (W n).buf = .ok false) ∧
    (∀ m, pyLookup fl g W n = some (.ok m) → g'.lookup (W n).buf = .ok m ∧ Goal.canPy fl g (W n).buf = .ok true) ∧
    (∀ v, pyWait fl g W n = .returned v → Goal.canPy fl g (W n).buf = .ok true →
      ∃ m, g'.lookup (W n).buf = .ok m ∧ (m.stamp < 2 ^ 31 * 1000000000 → pyLookup fl g W n = some (.ok m))) := by
  obtain ⟨ops, ho⟩ := hW n
  obtain ⟨⟨v, hv, hv'⟩, h1, h2, h3, h4, h5⟩ := C68_agree ho hg
  have hr : Reachable D (W n).buf := by
    obtain ⟨ops', -, h2⟩ := runCore_some ho
    exact ⟨ops', h2⟩
  have key : ∀ r, pyLookup fl g W n = some r → (∀ e, r = .raised e → Goal.lookPy fl g (W n).buf = .raised e) ∧
      (∀ m, r = .ok m → Goal.lookPy fl g (W n).buf = .ok m) := by
    intro r hp
    unfold pyLookup at hp
    cases hw : pyWait fl g W n <;> rw [hw] at hp <;> first | (cases hp; done) | skip
    · have := Option.some.inj hp
      rw [this]
      exact ⟨fun e h => h, fun m h => h⟩
    · have := Option.some.inj hp
      rw [← this]
      exact ⟨fun e h => by (cases h), fun m h => by (cases h)⟩
    · have := Option.some.inj hp
      rw [← this]
      exact ⟨fun e h => by (cases h), fun m h => by (cases h)⟩
    · have := Option.some.inj hp
      rw [← this]
      exact ⟨fun e h => by (cases h), fun m h => by (cases h)⟩
  refine ⟨?_, ?_, ?_⟩
  · intro e he
    have := (key _ he).1 e rfl
    exact ⟨(h4 e this).2, (h3 e).1 this, h5.2 ⟨e, this⟩⟩
  · intro m hm
    have := h2 m ((key _ hm).2 m rfl)
    refine ⟨this, ?_⟩
    have hc := (Goal.can_iff hr g').2 ⟨m, this⟩
    rw [canPy_reaches hg, hc]
    rfl
  · intro v' hw hc
    rw [canPy_reaches hg, hv'] at hc
    have hvt : v = true := by
      have : PyRes.ok v = PyRes.ok true := hc
      injection this
    obtain ⟨m, hm⟩ := (Goal.can_iff hr g').1 (by rw [hv', hvt])
    refine ⟨m, hm, fun hs => ?_⟩
    unfold pyLookup
    rw [hw]
    exact congrArg some (h1 m hm hs)

/-! ### The client -/

/-- **C68.** The Python client sends the goals the C++ client sends and makes of every outcome of the action what the C++
client makes of it. -/
theorem C68_client (a : ActionOut X) (target source fixed : Name) (time ttime stime : Time) (timeout : Duration) :
    pyProcessGoal a = processGoal a ∧ pyClientCan a = clientCan a ∧
    pySimpleGoal target source time timeout = simpleGoal target source time timeout ∧
    pyAdvancedGoal target ttime source stime fixed timeout = advancedGoal target ttime source stime fixed timeout := by
  have h : pyProcessGoal a = processGoal a := by cases a <;> rfl
  refine ⟨h, ?_, rfl, rfl⟩
  unfold pyClientCan clientCan
  rw [h]
  rfl

example : pyProcessGoal (X := Int) (.succeeded { transform := none, error := 3, text := "late" }) =
    .raise .extrapolation "late" := by decide

/-! ### Examples and findings -/

theorem exBuf_python (h : IsFl fl) : runCore fl exOps (Buf.init 100) = some exBuf := by
  have e : ∀ t, t < 100 → timeIn fl t = some t := fun t ht => small h (by omega)
  simp only [exOps, put, runCore, stepCore, setCore, e 10 (by decide), e 20 (by decide), e 12 (by decide),
    e 18 (by decide), e 0 (by decide)]
  rfl

/-- A request from `w` to `b` at 15 with a timeout of 30, and one at 30, which is not available. -/
abbrev exGoal (t : Time) : Goal := simpleGoal ['w'] ['b'] t 30

theorem exGoal_reaches (h : IsFl fl) {t : Time} (ht : t < 100) : Reaches fl (exGoal t) (exGoal t) :=
  ⟨t, 0, small h (by show t < 2 ^ 23 * 1000000000; omega), rfl, rfl⟩

/-- The hypotheses of `C68_agree`, with both answers. -/
example (h : IsFl fl) : runCore fl exOps (Buf.init 100) = some exBuf ∧ Reaches fl (exGoal 15) (exGoal 15) ∧
    Goal.canPy fl (exGoal 15) exBuf = .ok true ∧ Goal.canPy fl (exGoal 30) exBuf = .ok false := by
  refine ⟨exBuf_python h, exGoal_reaches h (by decide), ?_, ?_⟩
  · rw [canPy_reaches (exGoal_reaches h (by decide))]; decide +kernel
  · rw [canPy_reaches (exGoal_reaches h (by decide))]; decide +kernel

/-- A buffer that is empty for seven readings and then filled; the clock goes on by 1 per reading. -/
def exWorld (i : Nat) : PyWorld Int := { buf := if i < 7 then Buf.init 100 else exBuf, now := i }

/-- Two polls sleep, the next finds the transform. -/
example (h : IsFl fl) : (∀ i < 2, PySleeps fl (exGoal 15) exWorld i) ∧ PyStops fl (exGoal 15) exWorld 2 10 ∧
    pyWait fl (exGoal 15) exWorld 12 = .returned true ∧ (pyWait fl (exGoal 15) exWorld 7).Waiting ∧
    (∀ i, 7 ≤ i → Goal.canPy fl (exGoal 15) (exWorld i).buf = .ok true) := by
  have c : ∀ i, Goal.canPy fl (exGoal 15) (exWorld i).buf = bare ((exGoal 15).can (exWorld i).buf) :=
    fun i => canPy_reaches (exGoal_reaches h (by decide)) _
  have hs : ∀ i < 2, PySleeps fl (exGoal 15) exWorld i := by
    intro i hi
    refine ⟨?_, ?_, ?_, rfl⟩
    · show ((4 * i + 1 : ℕ) : ℤ) < ((0 : ℕ) : ℤ) + 30; omega
    · rw [c]
      rcases (by omega : i = 0 ∨ i = 1) with rfl | rfl <;> decide +kernel
    · exact Nat.zero_le _
  have ht : PyStops fl (exGoal 15) exWorld 2 10 :=
    .available (by decide) (by rw [c]; decide +kernel)
  refine ⟨hs, ht, C68_stops (by decide) (by decide) hs ht (by rw [c]; decide +kernel), ?_, ?_⟩
  · have e := pyWait_deadline (fl := fl) (g := exGoal 15) (W := exWorld) (by decide) (by decide) 1 (fun i hi => hs i (by omega))
    have e6 : pyWait fl (exGoal 15) exWorld 6 = .available 0 := by
      show pystep fl (exGoal 15) (exWorld 5) (pyWait fl (exGoal 15) exWorld (4 * 1 + 1)) = _
      rw [e]
      rfl
    have e7 : pyWait fl (exGoal 15) exWorld 7 = .jump 0 := by
      show pystep fl (exGoal 15) (exWorld 6) (pyWait fl (exGoal 15) exWorld 6) = _
      have : Goal.canPy fl (exGoal 15) (exWorld 6).buf = .ok false := by rw [c]; decide +kernel
      rw [e6]
      unfold pystep
      dsimp only
      rw [this]
    rw [e7]
    trivial
  · intro i hi
    rw [c]
    have : exWorld i = { buf := exBuf, now := i } := by unfold exWorld; rw [if_neg (by omega)]
    rw [this]
    show bare ((exGoal 15).can exBuf) = _
    decide +kernel

/-- **C68, finding.** `set_transform` returns `None` for a transform the buffer refused: a Python program cannot tell. -/
theorem C68_refused_finding (h : IsFl fl) : ∃ (m : Msg Int) (b : Buf Int), setCore fl (Buf.init 100) m [] false = (b, .ok ()) ∧
    b.frameExists m.child = false ∧ ((Buf.init 100).setTransform m [] false).2 = .invalid := by
  refine ⟨{ parent := [], child := ['a'], stamp := 10, xf := (1 : Int) },
    ((Buf.init 100).setTransform { parent := [], child := ['a'], stamp := 10, xf := (1 : Int) } [] false).1, ?_, ?_, ?_⟩
  · simp only [setCore, small h (show (10 : ℕ) < _ by norm_num)]
    rfl
  · decide +kernel
  · decide +kernel

/-- **C68, finding.** For frames of different trees `lookup_transform` raises `ConnectivityException`,
`get_latest_common_time` the base class `TransformException`, which a handler for the former does not catch. -/
theorem C68_base_class_finding (h : IsFl fl) : ∃ (ops : List (Op Int)) (b : Buf Int),
    runCore fl ops (Buf.init 100) = some b ∧
    lookupCore fl b ['w'] ['y'] 15 = .raised .connectivity ∧ latestCommon b ['w'] ['y'] = .raised .transform ∧
    Exc.caughtBy .transform .connectivity = false := by
  refine ⟨exOps, exBuf, exBuf_python h, ?_, ?_, ?_⟩
  · simp only [lookupCore, withTime, small h (show (15 : ℕ) < _ by norm_num)]
    decide +kernel
  · decide +kernel
  · decide +kernel

end Tf2.Py
