import Verif.Spec.FilterWait
import Verif.Proofs.FilterReady

/-! # No message waits in vain: the invariant -/
namespace Tf2

variable {X : Type}

/-! ### Lists -/

theorem set_perm {α : Type} {l : List α} {i : Nat} {a : α} (h : l[i]? = some a) (b : α) :
    (l.set i b).Perm (b :: l.eraseIdx i) := by
  induction l generalizing i with
  | nil => simp at h
  | cons x r ih =>
    cases i with
    | zero => simp
    | succ i =>
      have h' : r[i]? = some a := by simpa using h
      rw [List.set_cons_succ, List.eraseIdx_cons_succ]
      exact ((ih h').cons x).trans (List.Perm.swap _ _ _)

theorem filter_len {l : List Nat} (hn : l.Nodup) {x : Nat} (hx : x ∈ l) (p q : Nat → Bool) (hp : p x = true)
    (hq : q x = false) (he : ∀ y, y ≠ x → q y = p y) : (l.filter q).length + 1 = (l.filter p).length := by
  induction l with
  | nil => cases hx
  | cons y r ih =>
    rw [List.nodup_cons] at hn
    by_cases hyx : y = x
    · subst hyx
      have : r.filter q = r.filter p := by
        apply List.filter_congr
        intro z hz
        exact he z (fun e => hn.1 (e ▸ hz))
      simp [hp, hq, this]
    · have hr : x ∈ r := by
        rcases List.mem_cons.1 hx with h | h
        · exact absurd h.symm hyx
        · exact h
      have := ih hn.2 hr
      rw [List.filter_cons, List.filter_cons, he y hyx]
      split <;> simp_all

theorem sublist_flatMap {α β : Type} {l l' : List α} (h : l.Sublist l') (f : α → List β) :
    (l.flatMap f).Sublist (l'.flatMap f) := by
  induction h with
  | slnil => simp
  | cons a _ ih => rw [List.flatMap_cons]; exact ih.trans (List.sublist_append_right _ _)
  | cons_cons a _ ih => rw [List.flatMap_cons, List.flatMap_cons]; exact (List.Sublist.refl _).append ih

/-! ### The invariant -/

/-- All handles of the messages held. -/
def allHandles (msgs : List MInfo) (adding : List Adding) : List Nat :=
  msgs.flatMap MInfo.handles ++ adding.flatMap Adding.handles

/-- The handle `h` stands for a request of the filter for the message `m`. -/
def AskedFor (evs : List REv) (cb : Nat) (T : List Name) (tol : Duration) (m : FMsg) (h : Nat) : Prop :=
  ∃ t tm, REv.added h cb t m.frame tm ∈ evs ∧ t ∈ T ∧ (tm = m.stamp ∨ tol ≠ 0 ∧ timeAdd m.stamp tol = some tm)

/-- How far a call of `add` is. -/
def Progress (T : List Name) (tol : Duration) (a : Adding) : Prop :=
  ∃ done, T = done ++ a.rest ∧
    a.success + a.handles.length = done.length * Filt.perTarget tol + (if a.second then 1 else 0) ∧
    (a.second = true → tol ≠ 0 ∧ a.rest ≠ []) ∧ (done ≠ [] → tol ≠ 0 → ∃ t2, timeAdd a.msg.stamp tol = some t2)

/-- The messages held, given the list `L` of handles of requests that are pending or scheduled. -/
structure Awaits (L : List Nat) (evs : List REv) (cb : Nat) (T : List Name) (tol : Duration) (msgs : List MInfo)
    (adding : List Adding) : Prop where
  nodup : (allHandles msgs adding).Nodup
  asked : ∀ m ∈ msgs, ∀ h ∈ m.handles, AskedFor evs cb T tol m.msg h
  askedA : ∀ a ∈ adding, ∀ h ∈ a.handles, AskedFor evs cb T tol a.msg h
  open_ : ∀ m ∈ msgs, m.success < T.length * Filt.perTarget tol ∧
    m.success + (m.handles.filter (fun h => decide (h ∈ L))).length = T.length * Filt.perTarget tol ∧
    (tol ≠ 0 → ∃ t2, timeAdd m.msg.stamp tol = some t2)
  live : ∀ a ∈ adding, ∀ h ∈ a.handles, h ∈ L
  prog : ∀ a ∈ adding, Progress T tol a

theorem Awaits.nil (L : List Nat) (evs : List REv) (cb : Nat) (T : List Name) (tol : Duration) :
    Awaits L evs cb T tol [] [] :=
  ⟨by simp [allHandles], by simp, by simp, by simp, by simp, by simp⟩

theorem mem_allHandles {msgs : List MInfo} {adding : List Adding} {h : Nat} :
    h ∈ allHandles msgs adding ↔ (∃ m ∈ msgs, h ∈ m.handles) ∨ ∃ a ∈ adding, h ∈ a.handles := by
  simp [allHandles]

/-- The buffer changes without touching the filter's requests. -/
theorem Awaits.mono {L L' : List Nat} {evs evs' : List REv} {cb : Nat} {T : List Name} {tol : Duration}
    {msgs : List MInfo} {adding : List Adding} (w : Awaits L evs cb T tol msgs adding)
    (he : ∀ e ∈ evs, e ∈ evs') (hL : ∀ h ∈ allHandles msgs adding, (h ∈ L' ↔ h ∈ L)) :
    Awaits L' evs' cb T tol msgs adding := by
  have hask : ∀ m h, AskedFor evs cb T tol m h → AskedFor evs' cb T tol m h := by
    rintro m h ⟨t, tm, h1, h2⟩; exact ⟨t, tm, he _ h1, h2⟩
  refine ⟨w.nodup, fun m hm h hh => hask _ _ (w.asked m hm h hh), fun a ha h hh => hask _ _ (w.askedA a ha h hh), ?_,
    fun a ha h hh => (hL h (mem_allHandles.2 (.inr ⟨a, ha, hh⟩))).2 (w.live a ha h hh), w.prog⟩
  intro m hm
  obtain ⟨h1, h2, h3⟩ := w.open_ m hm
  refine ⟨h1, ?_, h3⟩
  have : m.handles.filter (fun h => decide (h ∈ L')) = m.handles.filter (fun h => decide (h ∈ L)) := by
    apply List.filter_congr
    intro h hh
    simp only [hL h (mem_allHandles.2 (.inl ⟨m, hm, hh⟩))]
  rw [this]; exact h2

/-- Messages leave. -/
theorem Awaits.sub {L : List Nat} {evs : List REv} {cb : Nat} {T : List Name} {tol : Duration}
    {msgs msgs' : List MInfo} {adding adding' : List Adding} (w : Awaits L evs cb T tol msgs adding)
    (h1 : msgs'.Sublist msgs) (h2 : adding'.Sublist adding) : Awaits L evs cb T tol msgs' adding' :=
  ⟨w.nodup.sublist ((sublist_flatMap h1 _).append (sublist_flatMap h2 _)), fun m hm => w.asked m (h1.subset hm),
    fun a ha => w.askedA a (h2.subset ha), fun m hm => w.open_ m (h1.subset hm), fun a ha => w.live a (h2.subset ha),
    fun a ha => w.prog a (h2.subset ha)⟩

/-- A new call of `add`. -/
theorem Awaits.start {L : List Nat} {evs : List REv} {cb : Nat} {T : List Name} {tol : Duration}
    {msgs : List MInfo} {adding : List Adding} (w : Awaits L evs cb T tol msgs adding) (m : FMsg) :
    Awaits L evs cb T tol msgs (adding ++ [{ msg := m, rest := T, second := false, handles := [], success := 0 }]) := by
  refine ⟨?_, w.asked, ?_, w.open_, ?_, ?_⟩
  · have := w.nodup
    unfold allHandles at this ⊢
    rw [List.flatMap_append]; simpa using this
  all_goals
    intro a ha
    rcases List.mem_append.1 ha with ha | ha
    · first | exact w.askedA a ha | exact w.live a ha | exact w.prog a ha
    · rw [List.mem_singleton.1 ha]
      first
        | (intro h hh; cases hh)
        | exact ⟨[], rfl, by simp, by simp, by simp⟩

/-- A call of `add` ends by queueing its message. -/
theorem Awaits.queue {L : List Nat} {evs : List REv} {cb : Nat} {T : List Name} {tol : Duration}
    {msgs : List MInfo} {adding : List Adding} (w : Awaits L evs cb T tol msgs adding) {i : Nat} {a : Adding}
    (ha : adding[i]? = some a) (hr : a.rest = []) (hs : a.success ≠ T.length * Filt.perTarget tol) :
    Awaits L evs cb T tol (msgs ++ [{ msg := a.msg, handles := a.handles, success := a.success }])
      (adding.eraseIdx i) := by
  have hmem := List.mem_of_getElem? ha
  obtain ⟨done, e1, e2, e3, e4⟩ := w.prog a hmem
  have hsec : a.second = false := by
    cases hb : a.second with
    | false => rfl
    | true => exact absurd hr (e3 hb).2
  rw [hr, List.append_nil] at e1
  subst e1
  rw [hsec] at e2
  simp only [Bool.false_eq_true, if_false, Nat.add_zero] at e2
  have hfil : a.handles.filter (fun h => decide (h ∈ L)) = a.handles := by
    apply List.filter_eq_self.2
    intro h hh
    simpa using w.live a hmem h hh
  refine ⟨?_, ?_, fun x hx => w.askedA x (List.mem_of_mem_eraseIdx hx), ?_,
    fun x hx => w.live x (List.mem_of_mem_eraseIdx hx), fun x hx => w.prog x (List.mem_of_mem_eraseIdx hx)⟩
  · have hp : (allHandles (msgs ++ [{ msg := a.msg, handles := a.handles, success := a.success }])
        (adding.eraseIdx i)).Perm (allHandles msgs adding) := by
      unfold allHandles
      rw [List.flatMap_append, List.append_assoc]
      refine List.Perm.append_left _ ?_
      have := (eraseIdx_perm ha).flatMap_right Adding.handles
      simpa using this
    exact hp.nodup_iff.2 w.nodup
  · intro m hm
    rcases List.mem_append.1 hm with hm | hm
    · exact w.asked m hm
    · rw [List.mem_singleton.1 hm]; exact w.askedA a hmem
  · intro m hm
    rcases List.mem_append.1 hm with hm | hm
    · exact w.open_ m hm
    · rw [List.mem_singleton.1 hm]
      simp only [hfil]
      refine ⟨by omega, e2, fun h => e4 ?_ h⟩
      intro h0
      rw [h0] at e2 hs
      simp only [List.length_nil, Nat.zero_mul] at e2 hs
      omega

/-- A call of `add` gets an answer at once. -/
theorem Awaits.immediate {L : List Nat} {evs : List REv} {cb : Nat} {T : List Name} {tol : Duration}
    {msgs : List MInfo} {adding : List Adding} (w : Awaits L evs cb T tol msgs adding) {i : Nat} {a b : Adding}
    (ha : adding[i]? = some a) (hm : b.msg = a.msg) (hh : b.handles = a.handles) (hp : Progress T tol b) :
    Awaits L evs cb T tol msgs (adding.set i b) := by
  have hmem := List.mem_of_getElem? ha
  have hset : ∀ x ∈ adding.set i b, x ∈ adding ∨ x = b := fun x hx => List.mem_or_eq_of_mem_set hx
  refine ⟨?_, w.asked, ?_, w.open_, ?_, ?_⟩
  · have hp : (allHandles msgs (adding.set i b)).Perm (allHandles msgs adding) := by
      unfold allHandles
      refine List.Perm.append_left _ ?_
      have h1 := (set_perm ha b).flatMap_right Adding.handles
      have h2 := (eraseIdx_perm ha).flatMap_right Adding.handles
      rw [List.flatMap_cons] at h1 h2
      rw [hh] at h1
      exact h1.trans h2
    exact hp.nodup_iff.2 w.nodup
  · intro x hx
    rcases hset x hx with hx | rfl
    · exact w.askedA x hx
    · rw [hh, hm]; exact w.askedA a hmem
  · intro x hx
    rcases hset x hx with hx | rfl
    · exact w.live x hx
    · rw [hh]; exact w.live a hmem
  · intro x hx
    rcases hset x hx with hx | rfl
    · exact w.prog x hx
    · exact hp

/-- A call of `add` gets a handle. -/
theorem Awaits.handle {L : List Nat} {evs : List REv} {cb : Nat} {T : List Name} {tol : Duration}
    {msgs : List MInfo} {adding : List Adding} (w : Awaits L evs cb T tol msgs adding) {i : Nat} {a b : Adding}
    (ha : adding[i]? = some a) (hm : b.msg = a.msg) {h : Nat} (hh : b.handles = a.handles ++ [h])
    (hp : Progress T tol b) (hnew : h ∉ allHandles msgs adding) (hL : h ∈ L) (hask : AskedFor evs cb T tol a.msg h) :
    Awaits L evs cb T tol msgs (adding.set i b) := by
  have hmem := List.mem_of_getElem? ha
  have hset : ∀ x ∈ adding.set i b, x ∈ adding ∨ x = b := fun x hx => List.mem_or_eq_of_mem_set hx
  refine ⟨?_, w.asked, ?_, w.open_, ?_, ?_⟩
  · have hp : (allHandles msgs (adding.set i b)).Perm (h :: allHandles msgs adding) := by
      unfold allHandles
      have h1 := (set_perm ha b).flatMap_right Adding.handles
      have h2 := (eraseIdx_perm ha).flatMap_right Adding.handles
      rw [List.flatMap_cons] at h1 h2
      rw [hh] at h1
      have h3 : (a.handles ++ [h] ++ (adding.eraseIdx i).flatMap Adding.handles).Perm
          (h :: (a.handles ++ (adding.eraseIdx i).flatMap Adding.handles)) := by
        rw [List.append_assoc]; exact List.perm_middle
      have h4 := h1.trans (h3.trans (h2.cons h))
      exact (List.Perm.append_left _ h4).trans List.perm_middle
    exact hp.nodup_iff.2 (List.nodup_cons.2 ⟨hnew, w.nodup⟩)
  · intro x hx
    rcases hset x hx with hx | rfl
    · exact w.askedA x hx
    · intro h' hh'
      rw [hh] at hh'
      rw [hm]
      rcases List.mem_append.1 hh' with hh' | hh'
      · exact w.askedA a hmem h' hh'
      · rw [List.mem_singleton.1 hh']; exact hask
  · intro x hx
    rcases hset x hx with hx | rfl
    · exact w.live x hx
    · intro h' hh'
      rw [hh] at hh'
      rcases List.mem_append.1 hh' with hh' | hh'
      · exact w.live a hmem h' hh'
      · rw [List.mem_singleton.1 hh']; exact hL
  · intro x hx
    rcases hset x hx with hx | rfl
    · exact w.prog x hx
    · exact hp

/-- The callback has run for the handle `h` and the message waits on: its counter was incremented. -/
theorem Awaits.count {L L' : List Nat} {evs evs' : List REv} {cb : Nat} {T : List Name} {tol : Duration}
    {msgs : List MInfo} (w : Awaits L evs cb T tol msgs []) (he : ∀ e ∈ evs, e ∈ evs') {h : Nat}
    (hL : ∀ k, k ∈ L' ↔ k ∈ L ∧ k ≠ h) (hin : h ∈ L) {i : Nat} {m : MInfo} (hm : msgs[i]? = some m)
    (hh : h ∈ m.handles) (hlt : m.success + 1 < T.length * Filt.perTarget tol) :
    Awaits L' evs' cb T tol (msgs.set i { m with success := m.success + 1 }) [] := by
  have hmem := List.mem_of_getElem? hm
  have hset : ∀ x ∈ msgs.set i { m with success := m.success + 1 }, x ∈ msgs ∨ x = { m with success := m.success + 1 } :=
    fun x hx => List.mem_or_eq_of_mem_set hx
  have hask : ∀ m h, AskedFor evs cb T tol m h → AskedFor evs' cb T tol m h := by
    rintro m h ⟨t, tm, h1, h2⟩; exact ⟨t, tm, he _ h1, h2⟩
  have hnd : (m.handles ++ (msgs.eraseIdx i).flatMap MInfo.handles).Nodup := by
    have h2 := (eraseIdx_perm hm).flatMap_right MInfo.handles
    rw [List.flatMap_cons] at h2
    have := w.nodup
    unfold allHandles at this
    simp only [List.flatMap_nil, List.append_nil] at this
    exact h2.nodup_iff.2 this
  have hnm : m.handles.Nodup := (List.nodup_append.1 hnd).1
  have hp := set_perm hm ({ m with success := m.success + 1 } : MInfo)
  refine ⟨?_, ?_, by simp, ?_, by simp, by simp⟩
  · unfold allHandles
    simp only [List.flatMap_nil, List.append_nil]
    have h1 := hp.flatMap_right MInfo.handles
    rw [List.flatMap_cons] at h1
    exact h1.nodup_iff.2 hnd
  · intro x hx
    rcases hset x hx with hx | rfl
    · exact fun h hh => hask _ _ (w.asked x hx h hh)
    · exact fun h hh => hask _ _ (w.asked m hmem h hh)
  · intro x hx
    have hx' := hp.mem_iff.1 hx
    rcases List.mem_cons.1 hx' with rfl | hx'
    · obtain ⟨h1, h2, h3⟩ := w.open_ m hmem
      refine ⟨hlt, ?_, h3⟩
      have := filter_len hnm hh (fun k => decide (k ∈ L)) (fun k => decide (k ∈ L')) (by simpa using hin)
        (by simp [hL]) (fun y hy => by simp [hL, hy])
      simp only
      omega
    · obtain ⟨h1, h2, h3⟩ := w.open_ x (List.mem_of_mem_eraseIdx hx')
      refine ⟨h1, ?_, h3⟩
      have hnot : h ∉ x.handles := by
        intro hx2
        exact (List.nodup_append.1 hnd).2.2 h hh h (List.mem_flatMap.2 ⟨x, hx', hx2⟩) rfl
      have : x.handles.filter (fun h => decide (h ∈ L')) = x.handles.filter (fun h => decide (h ∈ L)) := by
        apply List.filter_congr
        intro k hk
        have : k ≠ h := fun e => hnot (e ▸ hk)
        simp [hL, this]
      rw [this]; exact h2

/-- The callback has run for the handle `h` and its message is decided. -/
theorem Awaits.decide {L L' : List Nat} {evs evs' : List REv} {cb : Nat} {T : List Name} {tol : Duration}
    {msgs : List MInfo} (w : Awaits L evs cb T tol msgs []) (he : ∀ e ∈ evs, e ∈ evs') {h : Nat}
    (hL : ∀ k, k ∈ L' ↔ k ∈ L ∧ k ≠ h) {i : Nat} {m : MInfo} (hm : msgs[i]? = some m)
    (hh : h ∈ m.handles) : Awaits L' evs' cb T tol (msgs.eraseIdx i) [] := by
  refine (w.sub (List.eraseIdx_sublist ..) (List.Sublist.refl _)).mono he ?_
  intro k hk
  rw [hL]
  refine ⟨fun h => h.1, fun h1 => ⟨h1, ?_⟩⟩
  rintro rfl
  have h2 := (eraseIdx_perm hm).flatMap_right MInfo.handles
  rw [List.flatMap_cons] at h2
  have := w.nodup
  unfold allHandles at this hk
  simp only [List.flatMap_nil, List.append_nil] at this hk
  exact (List.nodup_append.1 (h2.nodup_iff.2 this)).2.2 k hh k hk rfl


/-! ### Steps of the buffer -/

/-- The handles of the requests that are pending or scheduled. -/
def RBuf.live (s : RBuf X) : List Nat := s.pending ++ s.scheduled

theorem mem_live {s : RBuf X} {k : Nat} :
    k ∈ s.live ↔ (∃ r ∈ s.reqs, r.handle = k) ∨ ∃ c ∈ s.inflight, c.handle = k := by
  simp [RBuf.live, RBuf.pending, RBuf.scheduled]

theorem RInv.nodup {D : Duration} {s : RBuf X} {evs : List REv} (h : RInv D s evs) : (addedHandles evs).Nodup := by
  rw [h.added]; exact List.nodup_range'

theorem RInv.le_counter {D : Duration} {s : RBuf X} {evs : List REv} (h : RInv D s evs) {k cb : Nat} {t src : Name}
    {tm : Time} (ha : REv.added k cb t src tm ∈ evs) : 1 ≤ k ∧ k ≤ s.reqCounter := by
  have := mem_addedHandles.2 ⟨_, _, _, _, ha⟩
  rw [h.added, List.mem_range'_1] at this
  omega

/-- The request behind a pending handle has the callback it was made with. -/
theorem RInv.cb_eq {D : Duration} {s : RBuf X} {evs : List REv} (h : RInv D s evs) {k cb : Nat} {t src : Name}
    {tm : Time} (ha : REv.added k cb t src tm ∈ evs) {r : Request} (hr : r ∈ s.reqs) (hk : r.handle = k) :
    r.cb = cb := by
  obtain ⟨t', src', _, k2, _⟩ := h.reqs r hr
  rw [hk] at k2
  exact (added_unique h.nodup k2 ha).1

theorem test_live [Rigid X] {D : Duration} {s : RBuf X} {evs : List REv} (h : RInv D s evs)
    (hn : ∀ e, REv.testThrew e ∉ s.test.2) {k cb : Nat} (hcb : cb ∈ s.cbs) {t src : Name} {tm : Time}
    (ha : REv.added k cb t src tm ∈ evs) : k ∈ s.test.1.live ↔ k ∈ s.live := by
  have o := test_out h.wf h.reqs
  generalize s.test.1 = s' at o ⊢
  generalize s.test.2 = new at o hn
  cases o with
  | threw _ _ _ => exact absurd (List.mem_append_right _ (List.mem_singleton.2 rfl)) (hn .runtime)
  | @done kept fired calls perm keptV firedV cf =>
    rw [mem_live, mem_live]
    simp only [List.mem_map, List.mem_append]
    have hc : ∀ c ∈ calls, ∃ r ∈ fired, r.handle = c.handle := by
      intro c hc
      have : c.handle ∈ (fired.filter (fun r => decide (r.cb ∈ s.cbs))).map Request.handle := by
        rw [← cf.1]; exact List.mem_map.2 ⟨c, hc, rfl⟩
      obtain ⟨r, hr, e⟩ := List.mem_map.1 this
      exact ⟨r, (List.mem_filter.1 hr).1, e⟩
    constructor
    · rintro (⟨r, ⟨r0, h0, rfl⟩, e⟩ | ⟨c, h1 | h1, e⟩)
      · exact .inl ⟨r0, perm.mem_iff.1 (List.mem_append_left _ h0), e⟩
      · exact .inr ⟨c, h1, e⟩
      · obtain ⟨r, hr, e'⟩ := hc c h1
        exact .inl ⟨r, perm.mem_iff.1 (List.mem_append_right _ hr), e'.trans e⟩
    · rintro (⟨r, h0, e⟩ | ⟨c, h1, e⟩)
      · rcases List.mem_append.1 (perm.mem_iff.2 h0) with h1 | h1
        · exact .inl ⟨_, ⟨r, h1, rfl⟩, e⟩
        · right
          have hrc := h.cb_eq ha h0 e
          have : k ∈ calls.map Call.handle := by
            rw [cf.1]
            exact List.mem_map.2 ⟨r, List.mem_filter.2 ⟨h1, by simpa [hrc] using hcb⟩, e⟩
          obtain ⟨c, hc, e'⟩ := List.mem_map.1 this
          exact ⟨c, .inr hc, e'⟩
      · exact .inr ⟨c, .inl h1, e⟩

theorem addOut_live {D : Duration} {s s' : RBuf X} {cb' : Nat} {t' src' : Name} {tm' : Time} {new evs : List REv}
    (o : AddOut D s cb' t' src' tm' s' new) (h : RInv D s evs)
    (hlim : (addedHandles (evs ++ new)).length < 2 ^ 64 - 1) {k cb : Nat} {t src : Name} {tm : Time}
    (ha : REv.added k cb t src tm ∈ evs) : k ∈ s'.live ↔ k ∈ s.live := by
  cases o with
  | pending hne hc ho r hr =>
    rw [addedHandles_append, h.added] at hlim
    simp only [addedHandles, List.length_append, List.length_range', List.length_cons, List.length_nil] at hlim
    have hnext : (RBuf.nextHandle s.reqCounter).2 = s.reqCounter + 1 := by
      unfold RBuf.nextHandle
      have : (s.reqCounter + 1) % 2 ^ 64 = s.reqCounter + 1 := Nat.mod_eq_of_lt (by omega)
      simp only [this]
      rw [if_neg (by omega)]
    have hk := (h.le_counter ha).2
    rw [mem_live, mem_live]
    simp only [List.mem_append, List.mem_singleton]
    constructor
    · rintro (⟨x, h1 | rfl, e⟩ | h1)
      · exact .inl ⟨x, h1, e⟩
      · rw [hr] at e; simp only [hnext] at e; omega
      · exact .inr h1
    · rintro (⟨x, h1, e⟩ | h1)
      · exact .inl ⟨x, .inl h1, e⟩
      · exact .inr h1
  | _ => exact Iff.rfl

/-- Requests leave the vector, but not `k`. -/
theorem filter_live {s s' : RBuf X} {p : Request → Bool} (hs : s'.reqs = s.reqs.filter p)
    (hi : s'.inflight = s.inflight) {k : Nat} (hp : ∀ r ∈ s.reqs, r.handle = k → p r = true) :
    k ∈ s'.live ↔ k ∈ s.live := by
  rw [mem_live, mem_live, hs, hi]
  constructor
  · rintro (⟨r, h1, e⟩ | h1)
    · exact .inl ⟨r, (List.mem_filter.1 h1).1, e⟩
    · exact .inr h1
  · rintro (⟨r, h1, e⟩ | h1)
    · exact .inl ⟨r, List.mem_filter.2 ⟨h1, hp r h1 e⟩, e⟩
    · exact .inr h1

/-- A step of somebody else on the buffer. -/
theorem rstep_live [Rigid X] {D : Duration} {s : RBuf X} {evs : List REv} (h : RInv D s evs) (op : ROp X)
    (hlim : (addedHandles (evs ++ (s.step op).2)).length < 2 ^ 64 - 1) (hn : ∀ e, REv.testThrew e ∉ (s.step op).2)
    {k cb : Nat} (hcb : cb ∈ s.cbs) {t src : Name} {tm : Time} (ha : REv.added k cb t src tm ∈ evs)
    (h1 : op ≠ .removeCallback cb) (h2 : ∀ x, op = .cancelRequest x → x % 2 ^ 32 ≠ k) (h3 : ∀ i, op ≠ .invoke i) :
    k ∈ (s.step op).1.live ↔ k ∈ s.live := by
  cases op with
  | clear => exact Iff.rfl
  | addCallback => simp only [RBuf.step, RBuf.addCallback]; split <;> exact Iff.rfl
  | removeCallback c =>
    refine filter_live (s := s) (s' := (s.removeCallback c).1) (p := fun r => decide (r.cb ≠ c)) rfl rfl ?_
    intro r hr e
    have := h.cb_eq ha hr e
    have hne : c ≠ cb := fun e => h1 (by rw [e])
    simp only [this, decide_eq_true_eq]
    exact fun e => hne e.symm
  | cancelRequest x =>
    refine filter_live (s := s) (s' := (s.cancelRequest x).1) (p := fun r => decide (r.handle ≠ x % 2 ^ 32)) rfl rfl ?_
    intro r hr e
    have := h2 x rfl
    simp only [e, decide_eq_true_eq]
    exact fun e => this e.symm
  | invoke i => exact absurd rfl (h3 i)
  | addRequest c t' src' tm' => exact addOut_live (addRequest_out h.wf c t' src' tm') h hlim ha
  | set m a st =>
    simp only [RBuf.step, RBuf.setTransform] at hn hlim ⊢
    have hw : WF D (s.buf.setTransform m a st).1 := h.wf.setTransform m a st
    have hb : ∀ n i, s.buf.frameIDs n = some i → (s.buf.setTransform m a st).1.frameIDs n = some i :=
      fun n i hn => frameIDs_step h.wf (.set m a st) hn
    generalize hr : s.buf.setTransform m a st = r at *
    obtain ⟨b, r⟩ := r
    cases r with
    | accepted =>
      have h0 : RInv D { s with buf := b } evs := h.rebuf hw hb
      have := test_live h0 (fun e he => hn e (List.mem_cons_of_mem _ he)) (cb := cb) hcb ha
      exact this
    | _ => exact Iff.rfl

theorem cancelAll_live (hs : List Nat) : ∀ (s : Filt X) {k : Nat}, (∀ h ∈ hs, h % 2 ^ 32 ≠ k) →
    (k ∈ (s.cancelAll hs).rb.live ↔ k ∈ s.rb.live) := by
  induction hs with
  | nil => intro s k _; exact Iff.rfl
  | cons h r ih =>
    intro s k hk
    refine (ih (s.buf (s.rb.cancelRequest h)) (fun x hx => hk x (List.mem_cons_of_mem _ hx))).trans ?_
    refine filter_live (s := s.rb) (s' := (s.rb.cancelRequest h).1) (p := fun r => decide (r.handle ≠ h % 2 ^ 32)) rfl rfl ?_
    intro r _ e
    have := hk h (List.mem_cons_self ..)
    simp only [e, decide_eq_true_eq]
    exact fun e => this e.symm

end Tf2
