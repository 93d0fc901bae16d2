import Verif.Proofs.Accesses
import Verif.Props.Locks

/-!
# C93: which members are free of data races
-/
namespace Tf2

/-- C93. Any number of threads, each making any sequence of calls, in any interleaving: between two accesses to the same member
by different threads, one of them a write, the first thread releases a mutex and the second acquires it afterwards — for every
member that is not in the list `unprotected`. -/
theorem C93_ordered (o : Objects) (ts us : List AThread) (hp : AProgram o ts) (before between after : List (Nat × AAct))
    (i j : Nat) (x : Loc) (w w' : Bool)
    (h : AExec ts (before ++ (i, .acc x w) :: between ++ (j, .acc x w') :: after) us)
    (hne : i ≠ j) (hw : w = true ∨ w' = true) (hx : x.kind ∉ unprotected) : HandOver i j between := by
  rw [List.append_assoc] at h
  obtain ⟨us1, h1, h2⟩ := h.split
  cases h2 with
  | step hs1 h2 =>
    rename_i us2
    obtain ⟨us3, h3, h4⟩ := h2.split
    cases h4 with
    | step hs2 h4 =>
      have inv1 := AInv.exec h1 (AInv.program hp)
      have inv2 := inv1.step hs1
      have inv3 := AInv.exec h3 inv2
      obtain ⟨t, ht, hat⟩ := access_allowed inv1 hs1
      obtain ⟨u, hu, hau⟩ := access_allowed inv3 hs2
      have hg := guard_of hx
      unfold Allowed at hat hau
      cases hk : x.kind.guard with
      | nothing => exact absurd hk hg
      | never =>
        rw [hk] at hat hau
        rcases hw with rfl | rfl
        · cases hat
        · cases hau
      | «by» k =>
        rw [hk] at hat hau
        have held : Holds us2 i ⟨k, x.obj⟩ := by
          rcases (holds_step hs1 i ⟨k, x.obj⟩).2 ⟨t, ht, hat⟩ with h | h
          · exact h
          · cases h
        obtain ⟨p, q, r, rfl⟩ := handed_over h3 inv2 hne held ⟨u, hu, hau⟩
        exact ⟨_, p, q, r, rfl⟩

/-- C93. ... so no two threads are ever about to access such a member at the same time, one of them to write it. -/
theorem C93_race_free (o : Objects) (ts us : List AThread) (hp : AProgram o ts) (e : List (Nat × AAct)) (h : AExec ts e us)
    (x : Loc) (hx : x.kind ∉ unprotected) : ¬ Race us x := by
  rintro ⟨i, j, hd, hd', w, w', r, r', hne, hi, hj, hw⟩
  have inv := AInv.exec h (AInv.program hp)
  have ai := (inv.disc _ (List.mem_of_getElem? hi)).1
  have aj := (inv.disc _ (List.mem_of_getElem? hj)).1
  have hg := guard_of hx
  unfold Allowed at ai aj
  cases hk : x.kind.guard with
  | nothing => exact absurd hk hg
  | never =>
    rw [hk] at ai aj
    rcases hw with rfl | rfl
    · cases ai
    · cases aj
  | «by» k =>
    rw [hk] at ai aj
    exact hne (inv.excl _ _ _ _ _ hi hj ai aj)

/-- Objects of the examples: one filter on buffer 0. -/
def raceObjects : Objects := { filters := [(0, 0, false)], servers := [] }

/-- Paths through the code: a request for two known frames that is not answered; -/
def addRequestPath : List Nat := [1, 1, 1, 0, 1, 1, 1, 1]
/-- a transform between two new frames; -/
def newFramesPath : List Nat := [1, 1, 1, 1, 1]
/-- a transform between known frames that answers one request, whose callback is then called; -/
def answerPath : List Nat := [1, 0, 0, 0, 1, 1, 1, 0, 0, 1, 0, 1, 1, 1, 0, 1, 1, 1, 1, 1]
/-- a message that is queued by a filter, with debug output. -/
def queuedPath : List Nat := [1, 1, 1, 1, 1, 1, 1, 0, 1, 1, 1, 1, 1, 1, 1, 0, 1, 1]

/-- C93. The list is exact: for the members on it, and for no others, some program reaches a state in which two threads are about
to access the same one, one of them to write it. -/
theorem C93_exact (k : MemKind) :
    (∃ o ts e us x, x.kind = k ∧ AProgram o ts ∧ AExec ts e us ∧ Race us x) ↔ k ∈ unprotected := by
  constructor
  · rintro ⟨o, ts, e, us, x, rfl, hp, h, hr⟩
    by_cases hx : x.kind ∈ unprotected
    · exact hx
    · exact absurd hr (C93_race_free o ts us hp e h x hx)
  · intro hk
    have hf : (0, 0, false) ∈ raceObjects.filters := by decide
    have key : ∀ {k : MemKind}, (∃ ts e us, AProgram raceObjects ts ∧ AExec ts e us ∧ Race us ⟨k, 0⟩) →
        ∃ o ts e us x, x.kind = k ∧ AProgram o ts ∧ AExec ts e us ∧ Race us x := by
      rintro k ⟨ts, e, us, h1, h2, h3⟩
      exact ⟨_, ts, e, us, ⟨k, 0⟩, rfl, h1, h2, h3⟩
    have add := ACall.filterAdd hf
    cases k with
    | caches => exact key (race_witness (.addRequest 0) (.setTransform 0) addRequestPath newFramesPath 5 2 (by decide +kernel))
    | frameIDs => exact key (race_witness (.lookup5 0) (.setTransform 0) [1, 3] newFramesPath 0 3 (by decide +kernel))
    | frameNames => exact key (race_witness (.setTransform 0) (.setTransform 0) answerPath newFramesPath 16 4 (by decide +kernel))
    | callbackFn => exact key (race_witness (.setTransform 0) (.removeCallback 0) answerPath [] 22 2 (by decide +kernel))
    | requestTime => exact key (race_witness (.setTransform 0) (.addRequest 0) answerPath addRequestPath 23 10 (by decide +kernel))
    | requestCounter => exact key (race_witness (.addRequest 0) (.addRequest 0) addRequestPath addRequestPath 7 7 (by decide +kernel))
    | dedicated => exact key (race_witness (.setDedicated 0) (.isDedicated 0) [] [] 0 0 (by decide +kernel))
    | targetFrames => exact key (race_witness add (.setTargets 0) queuedPath [] 0 1 (by decide +kernel))
    | tolerance => exact key (race_witness add (.setTolerance 0) queuedPath [] 18 1 (by decide +kernel))
    | expected => exact key (race_witness add (.setTargets 0) queuedPath [] 1 3 (by decide +kernel))
    | queueSize => exact key (race_witness add (.setQueueSize 0) queuedPath [] 21 0 (by decide +kernel))
    | callbackHandle => exact key (race_witness add (.filterClear hf) queuedPath [0, 0] 5 15 (by decide +kernel))
    | messageCount => exact key (race_witness add (.filterClear hf) queuedPath [0, 0] 26 17 (by decide +kernel))
    | incomingCount => exact key (race_witness add add queuedPath queuedPath 30 30 (by decide +kernel))
    | lastUpdate => exact key (race_witness (.receive 0 0) (.receive 0 0) [0] [0] 1 0 (by decide +kernel))
    | keepRunning => exact key (race_witness (.spinOnce 0 0) (.stopListener 0) [0] [] 0 0 (by decide +kernel))
    | netMessage => exact key (race_witness (.sendStatic 0) (.sendStatic 0) [1] [1] 1 0 (by decide +kernel))
    | _ => exact absurd hk (by decide)

/-- C93. The accesses do not change what the functions do with the mutexes: what a thread that makes any sequence of calls does with
them is what C45 is about, ... -/
theorem C93_locks (o : Objects) (t : List AAct) (h : ACalls o t) : Calls o (lockOps t) := by
  induction h with
  | done => exact .done
  | call hc ht _ ih =>
    rw [lockOps_append]
    exact (locks_of_call hc _ ht.locks).append ih

/-- C93. ... so here, too, as long as some thread is not finished, some thread can go on. -/
theorem C93_progress (o : Objects) (ts us : List AThread) (hp : AProgram o ts) (e : List (Nat × AAct)) (h : AExec ts e us)
    (t : AThread) (ht : t ∈ us) (hne : t.todo ≠ []) : ∃ a vs, AStep us a vs := by
  have hprog : Program o (ts.map AThread.locks) := by
    intro u hu
    obtain ⟨v, hv, rfl⟩ := List.mem_map.1 hu
    exact ⟨(hp v hv).1, C93_locks o _ (hp v hv).2⟩
  have hsteps := h.locks (vs := ts.map AThread.locks) .refl
  obtain ⟨n, hn⟩ := List.getElem?_of_mem ht
  obtain ⟨hd, todo⟩ := t
  cases todo with
  | nil => exact absurd rfl hne
  | cons a r =>
    cases a with
    | rel l => exact ⟨_, _, .rel hn⟩
    | acc x w => exact ⟨_, _, .acc hn⟩
    | acq l =>
      obtain ⟨vs, hv⟩ := C45_progress o _ _ hprog hsteps ⟨hd, .acq l :: lockOps r⟩
        (List.mem_map.2 ⟨_, ht, rfl⟩) (List.cons_ne_nil _ _)
      -- the thread that can go on there can go on here, or first makes an access
      have back : ∀ {i : Nat} {b : LThread}, (us.map AThread.locks)[i]? = some b → ∃ u, us[i]? = some u ∧ u.locks = b := by
        intro i b hb
        rw [List.getElem?_map, Option.map_eq_some_iff] at hb
        exact hb
      cases hv with
      | @acq i hd' l' r' hi free =>
        obtain ⟨⟨hd2, todo2⟩, hu, hl⟩ := back hi
        cases todo2 with
        | nil => cases hl
        | cons a2 r2 =>
          cases a2 with
          | rel l => exact ⟨_, _, .rel hu⟩
          | acc x w => exact ⟨_, _, .acc hu⟩
          | acq l2 =>
            have : l2 = l' := by
              have h2 : lockOps (.acq l2 :: r2) = .acq l' :: r' := congrArg LThread.todo hl
              have h3 : LAct.acq l2 :: lockOps r2 = .acq l' :: r' := h2
              injection h3 with h3 _
              injection h3
            subst this
            refine ⟨_, _, .acq hu ?_⟩
            rintro ⟨u, hu, hx⟩
            exact free ⟨u.locks, List.mem_map.2 ⟨u, hu, rfl⟩, hx⟩
      | @rel i hd' l' r' hi =>
        obtain ⟨⟨hd2, todo2⟩, hu, hl⟩ := back hi
        cases todo2 with
        | nil => cases hl
        | cons a2 r2 =>
          cases a2 with
          | rel l => exact ⟨_, _, .rel hu⟩
          | acc x w => exact ⟨_, _, .acc hu⟩
          | acq l2 =>
            have h2 : lockOps (.acq l2 :: r2) = .rel l' :: r' := congrArg LThread.todo hl
            have h3 : LAct.acq l2 :: lockOps r2 = .rel l' :: r' := h2
            injection h3 with h3 _
            cases h3

/-- C93, a finding. What the race on the counter of the requests does: two threads that make a request at the same time are given
the same handle. (Cancelling either then cancels both, and a message filter finds the wrong message.) -/
theorem C93_handle_finding : ∃ ops : List (COp Unit),
    (Conc.run (fun _ => newHandle) ops (Conc.init 5) []).2 = [.inv 0 (), .inv 1 (), .peek 0 false, .peek 1 false, .res 0 6, .res 1 6] :=
  ⟨[.call 0 (), .call 1 (), .go 0, .go 1, .go 0, .go 1, .go 0, .go 1], by decide +kernel⟩

/-! Two threads that access a protected member: one cancels a request, the other makes one. -/

def exAccesses : List AThread :=
  [⟨[], ((ASync.cancelRequest 0).gen []).1⟩, ⟨[], ((ASync.addRequest 0).gen addRequestPath).1⟩]

example : AProgram raceObjects exAccesses ∧ ∃ before between after us,
    AExec exAccesses (before ++ (0, .acc ⟨.requests, 0⟩ true) :: between ++ (1, .acc ⟨.requests, 0⟩ true) :: after) us ∧
    before ≠ [] ∧ MemKind.requests ∉ unprotected := by
  have h : ∃ us, schedule exAccesses ([1, 1, 1, 0] ++ [0, 0, 0] ++ [1, 1, 1, 1, 1, 1, 1]) = some (us, ([(1, .acc ⟨.frameIDs, 0⟩ false),
      (1, .acc ⟨.frameIDs, 0⟩ false), (1, .acq ⟨.frames, 0⟩), (0, .acq ⟨.requests, 0⟩)] ++ (0, .acc ⟨.requests, 0⟩ true) ::
      [(0, .acc ⟨.requestTime, 0⟩ true), (0, .rel ⟨.requests, 0⟩), (1, .acc ⟨.caches, 0⟩ false), (1, .rel ⟨.frames, 0⟩),
       (1, .acc ⟨.caches, 0⟩ false), (1, .acc ⟨.cacheTime, 0⟩ false), (1, .acc ⟨.requestCounter, 0⟩ true), (1, .acq ⟨.requests, 0⟩)] ++
      (1, .acc ⟨.requests, 0⟩ true) :: ([] : List (Nat × AAct)))) := ⟨_, rfl⟩
  obtain ⟨us, h⟩ := h
  refine ⟨?_, _, _, _, us, schedule_exec h, List.cons_ne_nil _ _, by decide⟩
  intro t ht
  rw [exAccesses, List.mem_cons, List.mem_singleton] at ht
  rcases ht with rfl | rfl
  · have := ACalls.call (o := raceObjects) (.cancelRequest 0) (gen_trace _ []) .done
    rw [List.append_nil] at this
    exact ⟨rfl, this⟩
  · have := ACalls.call (o := raceObjects) (.addRequest 0) (gen_trace _ addRequestPath) .done
    rw [List.append_nil] at this
    exact ⟨rfl, this⟩

end Tf2
