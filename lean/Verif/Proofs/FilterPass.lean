import Verif.Spec.FilterPass
import Verif.Proofs.FilterWaitStep

/-! # A message keeps its chance: the invariant -/
namespace Tf2

variable {X : Type}

/-- The transform is there, or one of the requests `hs` for it is pending. -/
def Known (s : Filt X) (M : FMsg) (hs : List Nat) (t : Name) (tm : Time) : Prop :=
  s.rb.buf.canTransform t M.frame tm = .ok true ∨
    ∃ k ∈ hs, k ∈ s.rb.pending ∧ REv.added k s.cb t M.frame tm ∈ s.revs

/-- So for every wanted time. -/
def KnownAt (s : Filt X) (M : FMsg) (hs : List Nat) (t : Name) : Prop :=
  ∀ tm, WantedTime s.tol M.stamp tm → Known s M hs t tm

/-- What is known of a call of `add` with the message. -/
def AddP (s : Filt X) (M : FMsg) (a : Adding) : Prop :=
  ∃ done, s.targets = done ++ a.rest ∧ (∀ t ∈ done, KnownAt s M a.handles t) ∧
    (a.second = true → ∀ t ts, a.rest = t :: ts → Known s M a.handles t M.stamp)

/-- What is known of the message wherever it is held. -/
structure PInv (s : Filt X) (M : FMsg) : Prop where
  adds : ∀ a ∈ s.adding, a.msg = M → AddP s M a
  msgs : ∀ m ∈ s.msgs, m.msg = M → ∀ t ∈ s.targets, KnownAt s M m.handles t

/-- The state changed without harm to the message. -/
structure NoHarm (M : FMsg) (s s' : Filt X) : Prop where
  cb : s'.cb = s.cb
  targets : s'.targets = s.targets
  tol : s'.tol = s.tol
  revs : ∀ e ∈ s.revs, e ∈ s'.revs
  stay : ∀ t ∈ s.targets, ∀ tm, WantedTime s.tol M.stamp tm → s.rb.buf.canTransform t M.frame tm = .ok true →
    s'.rb.buf.canTransform t M.frame tm = .ok true
  pend : ∀ t ∈ s.targets, ∀ tm, WantedTime s.tol M.stamp tm → ∀ k, k ∈ s.rb.pending →
    REv.added k s.cb t M.frame tm ∈ s.revs → k ∈ s'.rb.pending ∨ s'.rb.buf.canTransform t M.frame tm = .ok true

theorem Known.mono {M : FMsg} {s s' : Filt X} {hs hs' : List Nat} {t : Name} {tm : Time} (h : Known s M hs t tm)
    (L : NoHarm M s s') (hsub : ∀ k ∈ hs, k ∈ hs') (ht : t ∈ s.targets) (hw : WantedTime s.tol M.stamp tm) :
    Known s' M hs' t tm := by
  rcases h with h | ⟨k, h1, h2, h3⟩
  · exact .inl (L.stay t ht tm hw h)
  · rcases L.pend t ht tm hw k h2 h3 with h4 | h4
    · exact .inr ⟨k, hsub k h1, h4, by rw [L.cb]; exact L.revs _ h3⟩
    · exact .inl h4

theorem KnownAt.mono {M : FMsg} {s s' : Filt X} {hs hs' : List Nat} {t : Name} (h : KnownAt s M hs t)
    (L : NoHarm M s s') (hsub : ∀ k ∈ hs, k ∈ hs') (ht : t ∈ s.targets) : KnownAt s' M hs' t := by
  intro tm hw
  rw [L.tol] at hw
  exact (h tm hw).mono L hsub ht hw

theorem AddP.mono {M : FMsg} {s s' : Filt X} {a : Adding} (h : AddP s M a) (L : NoHarm M s s') : AddP s' M a := by
  obtain ⟨done, e, h1, h2⟩ := h
  refine ⟨done, by rw [L.targets]; exact e, ?_, ?_⟩
  · intro t ht
    exact (h1 t ht).mono L (fun _ h => h) (by rw [e]; exact List.mem_append_left _ ht)
  · intro hs t ts hr
    exact (h2 hs t ts hr).mono L (fun _ h => h) (by rw [e, hr]; simp) (.inl rfl)

theorem PInv.mono {M : FMsg} {s s' : Filt X} (h : PInv s M) (L : NoHarm M s s')
    (ha : ∀ a ∈ s'.adding, a.msg = M → a ∈ s.adding)
    (hm : ∀ m ∈ s'.msgs, m.msg = M → ∃ m0 ∈ s.msgs, m0.msg = M ∧ m0.handles = m.handles) : PInv s' M := by
  constructor
  · intro a ha' e
    exact (h.adds a (ha a ha' e) e).mono L
  · intro m hm' e t ht
    obtain ⟨m0, h1, h2, h3⟩ := hm m hm' e
    rw [L.targets] at ht
    rw [← h3]
    exact (h.msgs m0 h1 h2 t ht).mono L (fun _ h => h) ht

theorem NoHarm.same {M : FMsg} {s s' : Filt X} (h1 : s'.rb = s.rb) (h2 : s'.revs = s.revs) (h3 : s'.cb = s.cb)
    (h4 : s'.targets = s.targets) (h5 : s'.tol = s.tol) : NoHarm M s s' :=
  ⟨h3, h4, h5, fun e he => by rw [h2]; exact he, fun _ _ _ _ h => by rw [h1]; exact h,
    fun _ _ _ _ k hk _ => .inl (by rw [h1]; exact hk)⟩

theorem NoHarm.trans {M : FMsg} {s s' s'' : Filt X} (h : NoHarm M s s') (h' : NoHarm M s' s'') : NoHarm M s s'' := by
  refine ⟨h'.cb.trans h.cb, h'.targets.trans h.targets, h'.tol.trans h.tol, fun e he => h'.revs e (h.revs e he), ?_, ?_⟩
  · intro t ht tm hw hc
    exact h'.stay t (by rw [h.targets]; exact ht) tm (by rw [h.tol]; exact hw) (h.stay t ht tm hw hc)
  · intro t ht tm hw k hk hr
    have ht' : t ∈ s'.targets := by rw [h.targets]; exact ht
    have hw' : WantedTime s'.tol M.stamp tm := by rw [h.tol]; exact hw
    rcases h.pend t ht tm hw k hk hr with h1 | h1
    · exact h'.pend t ht' tm hw' k h1 (by rw [h.cb]; exact h.revs _ hr)
    · exact .inr (h'.stay t ht' tm hw' h1)

theorem NoHarm.deliver (M : FMsg) (s : Filt X) (o : Out) : NoHarm M s (s.deliver o).1 := by
  obtain ⟨-, -, -, -, -, q6, q7, q8, -⟩ := s.deliver_parts o
  obtain ⟨r1, r2⟩ := deliver_revs s o
  exact .same q6 r1 r2 q7 q8

/-- Everything pending stays pending and no transform goes. -/
theorem NoHarm.more {M : FMsg} {s s' : Filt X} (h1 : s'.rb.buf = s.rb.buf) (h2 : ∀ k ∈ s.rb.pending, k ∈ s'.rb.pending)
    (hr : ∀ e ∈ s.revs, e ∈ s'.revs) (h3 : s'.cb = s.cb) (h4 : s'.targets = s.targets) (h5 : s'.tol = s.tol) :
    NoHarm M s s' :=
  ⟨h3, h4, h5, hr, fun _ _ _ _ h => by rw [h1]; exact h, fun _ _ _ _ k hk _ => .inl (h2 k hk)⟩

theorem PInv.deliver {M : FMsg} {s : Filt X} (h : PInv s M) (o : Out) : PInv (s.deliver o).1 M :=
  h.mono (.deliver M _ _) (fun x hx _ => by rw [(Filt.deliver_parts _ _).2.1] at hx; exact hx)
    (fun m hm e => ⟨m, by rw [(Filt.deliver_parts _ _).2.2.1] at hm; exact hm, e, rfl⟩)

theorem deliver_events (s : Filt X) (o : Out) {id : Nat} {f : Option Reason} (h : FEv.decided id f ∈ (s.deliver o).2) :
    id = o.id ∧ f = o.fail := by
  unfold Filt.deliver at h
  split at h <;> simp at h <;> exact h

theorem AddOut.keeps {D : Duration} {s s' : RBuf X} {cb : Nat} {t src : Name} {tm : Time} {new : List REv}
    (h : AddOut D s cb t src tm s' new) : s'.buf = s.buf ∧ ∀ k ∈ s.pending, k ∈ s'.pending := by
  cases h
  all_goals first
    | exact ⟨rfl, fun _ h => h⟩
    | refine ⟨rfl, fun k hk => ?_⟩
      unfold RBuf.pending at *
      rw [List.map_append]
      exact List.mem_append_left _ hk

/-- One request of `add`. -/
theorem PInv.answer {D : Duration} {s : Filt X} {M : FMsg} (h : PInv s M) {i : Nat} {a a' : Adding}
    (ha : s.adding[i]? = some a) {t : Name} {tm : Time} {ro : RBuf X × List REv}
    (ho : AddOut D s.rb s.cb t a.msg.frame tm ro.1 ro.2) (hm : a'.msg = a.msg) (hh : a'.handles = a.handles)
    (lt : LegalName t) (lf : LegalName M.frame) (hid : a.msg.id = M.id → a.msg = M)
    (hto : a.msg = M → t ≠ M.frame → ¬ TooOld s.rb.buf t M.frame tm)
    (hb : a.msg = M → ∀ b : Adding, b.msg = M → b.rest = a'.rest → b.second = a'.second →
      (∀ k ∈ a.handles, k ∈ b.handles) → Known (s.buf ro) M b.handles t tm → NoHarm M s (s.buf ro) → AddP (s.buf ro) M b) :
    PInv (s.addAnswer i a a' ro).1 M ∧ ∀ r, FEv.decided M.id (some r) ∉ (s.addAnswer i a a' ro).2 := by
  obtain ⟨k1, k2⟩ := ho.keeps
  have L : NoHarm M s (s.buf ro) := .more k1 k2 (fun e he => List.mem_append_left _ he) rfl rfl rfl
  have hmem := List.mem_of_getElem? ha
  have set : ∀ b : Adding, b.msg = a.msg → b.rest = a'.rest → b.second = a'.second → (∀ k ∈ a.handles, k ∈ b.handles) →
      (a.msg = M → Known (s.buf ro) M b.handles t tm) → PInv ({ s.buf ro with adding := s.adding.set i b }) M := by
    intro b b1 b2 b3 b4 b5
    have L2 : NoHarm M (s.buf ro) ({ s.buf ro with adding := s.adding.set i b }) := .same rfl rfl rfl rfl rfl
    constructor
    · intro x hx e
      rcases List.mem_or_eq_of_mem_set hx with hx | hx
      · exact ((h.adds x hx e).mono L).mono L2
      · subst hx
        have e' := b1.symm.trans e
        exact (hb e' _ e b2 b3 b4 (b5 e') L).mono L2
    · intro m hm e t ht
      exact ((h.msgs m hm e t ht).mono L (fun _ h => h) ht).mono L2 (fun _ h => h) ht
  have erase : PInv ({ s.buf ro with adding := s.adding.eraseIdx i }) M :=
    h.mono (L.trans (.same rfl rfl rfl rfl rfl)) (fun x hx _ => List.mem_of_mem_eraseIdx hx)
      (fun m hm e => ⟨m, hm, e, rfl⟩)
  obtain ⟨rb, new⟩ := ro
  simp only at ho k1 k2 set erase hb
  cases ho with
  | same h0 =>
    refine ⟨set { a' with success := a.success + 1 } hm rfl rfl (fun k hk => by rw [hh]; exact hk) (fun e => .inl ?_),
      by simp [Filt.addAnswer]⟩
    unfold Buf.canTransform
    rw [if_pos (by rw [← e]; exact h0)]
  | now hne hc =>
    refine ⟨set { a' with success := a.success + 1 } hm rfl rfl (fun k hk => by rw [hh]; exact hk) (fun e => .inl ?_),
      by simp [Filt.addAnswer]⟩
    rw [e] at hne hc
    show s.rb.buf.canTransform t M.frame tm = _
    rw [canTransform_noLock hne lt lf]; exact hc
  | never hne hc hold =>
    constructor
    · exact erase.deliver _
    · intro r hr
      have := (deliver_events _ _ hr).1
      have e := hid this.symm
      exact hto e (by rw [← e]; exact hne) (by rw [e] at hold; exact hold)
  | threw hne hc ho hl => exact ⟨erase, by simp [Filt.addAnswer]⟩
  | pending hne hc hno r hr =>
    refine ⟨set { a' with handles := a.handles ++ [(RBuf.nextHandle s.rb.reqCounter).2] } hm rfl rfl
      (fun k hk => List.mem_append_left _ hk) (fun e => .inr ⟨_, List.mem_append_right _ (List.mem_singleton.2 rfl), ?_, ?_⟩),
      by simp [Filt.addAnswer]⟩
    · simp [Filt.buf, RBuf.pending, hr]
    · simp [Filt.buf, e]

theorem PInv.next [Rigid X] {D : Duration} {s : Filt X} {M : FMsg} (h : PInv s M) (hw : WF D s.rb.buf) (hc : Counted s)
    (i : Nat) (hlt : ∀ t ∈ s.targets, LegalName t) (lf : LegalName M.frame) (hroom : s.HasRoom)
    (hid : ∀ m ∈ s.heads, m.id = M.id → m = M)
    (hto : ∀ t ∈ s.targets, ∀ tm, WantedTime s.tol M.stamp tm → t ≠ M.frame → ¬ TooOld s.rb.buf t M.frame tm)
    (hprog : ∀ a ∈ s.adding, Progress s.targets s.tol a) :
    PInv (s.addNext i).1 M ∧ ∀ r, FEv.decided M.id (some r) ∉ (s.addNext i).2 := by
  have ho := Filt.addNext_out hw hc i
  generalize s.addNext i = r at ho
  have herase : PInv ({ s with adding := s.adding.eraseIdx i }) M :=
    h.mono (.same rfl rfl rfl rfl rfl) (fun x hx _ => List.mem_of_mem_eraseIdx hx) (fun m hm e => ⟨m, hm, e, rfl⟩)
  cases ho with
  | idle _ => exact ⟨h, by simp⟩
  | overflow _ _ _ _ _ _ _ => exact ⟨herase, by simp⟩
  | finish a ha hr r ho =>
    have hmem := List.mem_of_getElem? ha
    cases ho with
    | pass _ =>
      constructor
      · exact herase.deliver _
      · intro r hr
        have := (deliver_events _ _ hr).2
        cases this
    | queue _ _ =>
      refine ⟨?_, by simp⟩
      have L : NoHarm M ({ s with adding := s.adding.eraseIdx i } : Filt X) { s with
          adding := s.adding.eraseIdx i
          msgs := s.msgs ++ [{ msg := a.msg, handles := a.handles, success := a.success }], count := s.count + 1 } :=
        .same rfl rfl rfl rfl rfl
      constructor
      · intro x hx e
        exact (herase.adds x hx e).mono L
      · intro m hm e t ht
        rcases List.mem_append.1 hm with hm | hm
        · exact (herase.msgs m hm e t ht).mono L (fun _ h => h) ht
        · rw [List.mem_singleton.1 hm] at e ⊢
          obtain ⟨done, e1, e2, -⟩ := h.adds a hmem e
          rw [hr, List.append_nil] at e1
          have L' : NoHarm M s { s with
              adding := s.adding.eraseIdx i
              msgs := s.msgs ++ [{ msg := a.msg, handles := a.handles, success := a.success }], count := s.count + 1 } :=
            .same rfl rfl rfl rfl rfl
          exact (e2 t (by rw [← e1]; exact ht)).mono L' (fun _ h => h) ht
    | push _ hq hf f l hm =>
      exfalso
      simp only at hq hf
      rcases hroom with h0 | h0
      · exact hq h0
      · unfold Filt.queued at h0; rw [List.length_map] at h0; omega
  | ask1 a ha t ts hr hs ro hao =>
    have hmem := List.mem_of_getElem? ha
    have hT : t ∈ s.targets := by
      obtain ⟨done, e1, -⟩ := hprog a hmem
      rw [e1, hr]; simp
    refine h.answer ha hao (by split <;> rfl) (by split <;> rfl) (hlt t hT) lf
      (hid a.msg (mem_heads.2 (.inl ⟨a, hmem, rfl⟩))) (fun e => by rw [e]; exact hto t hT _ (.inl rfl)) ?_
    intro e b b1 b2 b3 b4 b5 L
    obtain ⟨done, e1, e2, e3⟩ := h.adds a hmem e
    rw [e] at b5
    by_cases h0 : s.tol = 0
    · rw [if_pos h0] at b2 b3
      refine ⟨done ++ [t], ?_, ?_, fun e => by rw [b3] at e; cases e⟩
      · show s.targets = _
        rw [e1, hr, b2]; simp
      · intro x hx
        rcases List.mem_append.1 hx with hx | hx
        · exact (e2 x hx).mono L b4 (by rw [e1]; exact List.mem_append_left _ hx)
        · rw [List.mem_singleton.1 hx]
          intro tm htm
          rcases htm with rfl | ⟨h1, -⟩
          · exact b5
          · exact absurd h0 h1
    · rw [if_neg h0] at b2 b3
      refine ⟨done, ?_, ?_, ?_⟩
      · show s.targets = _
        rw [e1, hr, b2]
      · intro x hx
        exact (e2 x hx).mono L b4 (by rw [e1]; exact List.mem_append_left _ hx)
      · intro _ t' ts' e'
        rw [b2] at e'
        injection e' with e' _
        rw [← e']; exact b5
  | ask2 a ha t ts hr hs t2 h2 ro hao =>
    have hmem := List.mem_of_getElem? ha
    obtain ⟨done0, e1', -, e3', -⟩ := hprog a hmem
    have hT : t ∈ s.targets := by rw [e1', hr]; simp
    have h0 : s.tol ≠ 0 := (e3' hs).1
    refine h.answer ha hao rfl rfl (hlt t hT) lf
      (hid a.msg (mem_heads.2 (.inl ⟨a, hmem, rfl⟩)))
      (fun e => hto t hT _ (.inr ⟨h0, by rw [← e]; exact h2⟩)) ?_
    intro e b b1 b2 b3 b4 b5 L
    obtain ⟨done, e1, e2, e3⟩ := h.adds a hmem e
    refine ⟨done ++ [t], ?_, ?_, fun e => by rw [b3] at e; cases e⟩
    · show s.targets = _
      rw [e1, hr, b2]; simp
    · intro x hx
      rcases List.mem_append.1 hx with hx | hx
      · exact (e2 x hx).mono L b4 (by rw [e1]; exact List.mem_append_left _ hx)
      · rw [List.mem_singleton.1 hx]
        intro tm htm
        rcases htm with rfl | ⟨h1, h3⟩
        · exact (e3 hs t ts hr).mono L b4 hT (.inl rfl)
        · have h3' : timeAdd M.stamp s.tol = some tm := h3
          rw [e] at h2
          rw [h2] at h3'
          injection h3' with h3'
          rw [← h3']; exact b5

/-- A callback of the buffer runs. -/
theorem PInv.invoke [Rigid X] {D : Duration} {s : Filt X} {M : FMsg} (h : PInv s M) (hw : WInv D s) (_ha : s.adding = [])
    (i : Nat) (hid : ∀ m ∈ s.heads, m.id = M.id → m = M) :
    PInv (s.invoke i true).1 M ∧ ∀ r, FEv.decided M.id (some r) ∉ (s.invoke i true).2 := by
  unfold Filt.invoke RBuf.invoke
  cases hc : s.rb.inflight[i]? with
  | none =>
    simp only
    exact ⟨h.mono (.same rfl (by simp [Filt.buf]) rfl rfl rfl) (fun x hx _ => hx) (fun m hm e => ⟨m, hm, e, rfl⟩), by simp⟩
  | some c =>
    simp only
    have other : ∀ e : REv, PInv (s.buf ({ s.rb with inflight := s.rb.inflight.eraseIdx i }, [e])) M := by
      intro e
      refine h.mono (.more rfl (fun k hk => hk) (fun e he => List.mem_append_left _ he) rfl rfl rfl) (fun x hx _ => hx)
        (fun m hm e => ⟨m, hm, e, rfl⟩)
    by_cases hcb : c.cb ∈ s.rb.cbs
    · simp only [if_pos hcb]
      by_cases hcc : c.cb = s.cb
      · simp only [if_pos hcc]
        have ho := Filt.transformable_out (D := D) (s.buf ({ s.rb with inflight := s.rb.inflight.eraseIdx i },
          [REv.invoked c.cb c.handle c.target c.source])) c.handle true hw.rinv.wf
        have hP := other (REv.invoked c.cb c.handle c.target c.source)
        generalize (s.buf ({ s.rb with inflight := s.rb.inflight.eraseIdx i },
          [REv.invoked c.cb c.handle c.target c.source])).transformable c.handle true = r at ho
        cases ho with
        | notFound _ => exact ⟨hP, by simp⟩
        | wait j m hm hh hlt =>
          refine ⟨hP.mono (.same rfl rfl rfl rfl rfl) (fun x hx _ => hx) ?_, by simp⟩
          intro x hx e
          rcases List.mem_or_eq_of_mem_set hx with hx | hx
          · exact ⟨x, hx, e, rfl⟩
          · exact ⟨m, List.mem_of_getElem? hm, by rw [hx] at e; exact e, by rw [hx]⟩
        | threw j m hm hh hlt ht =>
          refine ⟨hP.mono (.same rfl rfl rfl rfl rfl) (fun x hx _ => hx) ?_, by simp⟩
          intro x hx e
          rcases List.mem_or_eq_of_mem_set hx with hx | hx
          · exact ⟨x, hx, e, rfl⟩
          · exact ⟨m, List.mem_of_getElem? hm, by rw [hx] at e; exact e, by rw [hx]⟩
        | decided j m hm hh hlt v hv =>
          have hmem : m ∈ s.msgs := List.mem_of_getElem? hm
          constructor
          · refine PInv.deliver (s := { s.buf ({ s.rb with inflight := s.rb.inflight.eraseIdx i },
                [REv.invoked c.cb c.handle c.target c.source]) with msgs := s.msgs.eraseIdx j, count := s.count - 1 })
              (hP.mono (.same rfl rfl rfl rfl rfl) (fun x hx _ => hx) ?_) _
            intro x hx e
            exact ⟨x, List.mem_of_mem_eraseIdx hx, e, rfl⟩
          · intro r hr
            obtain ⟨e1, e2⟩ := deliver_events _ _ hr
            have eM : m.msg = M := hid m.msg (mem_heads.2 (.inr ⟨m, hmem, rfl⟩)) e1.symm
            -- the last handle is the one called for, so nothing is pending and all transforms are there
            obtain ⟨o1, o2, o3⟩ := hw.waits.open_ m hmem
            simp only [Filt.buf] at hlt
            rw [hw.exp] at hlt
            have hin : c.handle ∈ s.rb.live := mem_live.2 (.inr ⟨c, List.mem_of_getElem? hc, rfl⟩)
            have hone : (m.handles.filter (fun k => decide (k ∈ s.rb.live))).length = 1 := by omega
            obtain ⟨x, hx⟩ := List.length_eq_one_iff.1 hone
            have honly : ∀ k ∈ m.handles, k ∈ s.rb.live → k = c.handle := by
              intro k hk hl
              have h1 : k ∈ m.handles.filter (fun k => decide (k ∈ s.rb.live)) := List.mem_filter.2 ⟨hk, by simpa using hl⟩
              have h2 : c.handle ∈ m.handles.filter (fun k => decide (k ∈ s.rb.live)) :=
                List.mem_filter.2 ⟨hh, by simpa using hin⟩
              rw [hx] at h1 h2
              rw [List.mem_singleton.1 h1, List.mem_singleton.1 h2]
            have hnp : ∀ k ∈ m.handles, k ∉ s.rb.pending := by
              intro k hk hp
              have := honly k hk (by unfold RBuf.live; exact List.mem_append_left _ hp)
              subst this
              have h1 := hw.rinv.count c.handle
              have h2 := hw.rinv.nodup.count (a := c.handle)
              have h3 : 1 ≤ s.rb.pending.count c.handle := List.count_pos_iff.2 hp
              have h4 : 1 ≤ s.rb.scheduled.count c.handle :=
                List.count_pos_iff.2 (List.mem_map.2 ⟨c, List.mem_of_getElem? hc, rfl⟩)
              simp only [cnt] at h1
              split at h2 <;> omega
            have hcan : ∀ t ∈ s.targets, ∀ tm, WantedTime s.tol M.stamp tm →
                s.rb.buf.canTransform t M.frame tm = .ok true := by
              intro t ht tm hwt
              rcases h.msgs m hmem eM t ht tm hwt with h1 | ⟨k, h1, h2, -⟩
              · exact h1
              · exact absurd h2 (hnp k h1)
            have hvt : v = true := by
              refine hv.2 ⟨rfl, ?_⟩
              intro t ht
              rw [eM]
              refine ⟨hcan t ht _ (.inl rfl), fun h0 => ?_⟩
              obtain ⟨t2, h2⟩ := o3 h0
              rw [eM] at h2
              exact ⟨t2, h2, hcan t ht _ (.inr ⟨h0, h2⟩)⟩
            rw [hvt] at e2
            cases e2
      · simp only [if_neg hcc]
        exact ⟨other _, by simp⟩
    · simp only [if_neg hcb]
      exact ⟨other _, by simp⟩

/-- A step of somebody else on the buffer. -/
theorem NoHarm.buffer [Rigid X] {D : Duration} {s : Filt X} {M : FMsg} (hw : WInv D s) (op : ROp X) (h0 : ∀ i, op ≠ .invoke i)
    (h1 : op ≠ .removeCallback s.cb)
    (h2 : ∀ x, op = .cancelRequest x → ∀ t src tm, REv.added (x % 2 ^ 32) s.cb t src tm ∉ s.revs)
    (hn : ∀ e, REv.testThrew e ∉ (s.rb.step op).2) (hlt : ∀ t ∈ s.targets, LegalName t) (lf : LegalName M.frame)
    (hch : ∀ t ∈ s.targets, ∀ tm, WantedTime s.tol M.stamp tm →
      (s.rb.buf.canTransform t M.frame tm = .ok true → (s.rb.step op).1.buf.canTransform t M.frame tm = .ok true) ∧
      (t ≠ M.frame → ¬ TooOld (s.rb.step op).1.buf t M.frame tm)) : NoHarm M s (s.buf (s.rb.step op)) := by
  refine ⟨rfl, rfl, rfl, fun e he => List.mem_append_left _ he, fun t ht tm hwt hc => (hch t ht tm hwt).1 hc, ?_⟩
  intro t ht tm hwt k hk hadd
  show k ∈ (s.rb.step op).1.pending ∨ (s.rb.step op).1.buf.canTransform t M.frame tm = .ok true
  have hfil : ∀ p : Request → Bool, (∀ r ∈ s.rb.reqs, r.handle = k → p r = true) →
      k ∈ (s.rb.reqs.filter p).map Request.handle := by
    intro p hp
    obtain ⟨r, hr, e⟩ := List.mem_map.1 hk
    exact List.mem_map.2 ⟨r, List.mem_filter.2 ⟨hr, hp r hr e⟩, e⟩
  cases op with
  | clear => exact .inl hk
  | addCallback => left; simp only [RBuf.step, RBuf.addCallback]; split <;> exact hk
  | removeCallback c =>
    left
    refine hfil (fun r => decide (r.cb ≠ c)) ?_
    intro r hr e
    have := hw.rinv.cb_eq hadd hr e
    simp only [this, decide_eq_true_eq]
    rintro rfl; exact h1 rfl
  | cancelRequest x =>
    left
    refine hfil (fun r => decide (r.handle ≠ x % 2 ^ 32)) ?_
    intro r hr e
    simp only [e, decide_eq_true_eq]
    rintro rfl; exact h2 x rfl _ _ _ hadd
  | invoke i => exact absurd rfl (h0 i)
  | addRequest c t' src' tm' => exact .inl ((addRequest_out hw.rinv.wf c t' src' tm').keeps.2 k hk)
  | set m a st =>
    by_cases hacc : REv.setDone .accepted ∈ (s.rb.step (.set m a st)).2
    · have hto := (hch t ht tm hwt).2
      obtain ⟨b, _, hi', e1, e2⟩ := accepted_sweep hw.rinv hacc
      rw [e1] at hto ⊢
      rw [e2] at hn
      have o := test_out hi'.wf hi'.reqs
      generalize RBuf.test _ = tr at *
      obtain ⟨s', new⟩ := tr
      simp only at *
      cases o with
      | threw _ _ _ => exact absurd (show REv.testThrew .runtime ∈ _ by simp) (hn .runtime)
      | @done kept fired calls perm keptV firedV cf =>
        simp only at hto ⊢
        obtain ⟨r, hr, e⟩ := List.mem_map.1 hk
        rcases List.mem_append.1 (perm.mem_iff.2 hr) with hr' | hr'
        · left
          unfold RBuf.pending
          rw [map_resolve_handle]
          exact List.mem_map.2 ⟨r, hr', e⟩
        · right
          obtain ⟨t', src', k1, k2, k3⟩ := hi'.reqs r hr
          rw [e] at k2
          obtain ⟨-, rfl, rfl, htm⟩ := added_unique hw.rinv.nodup hadd k2
          obtain ⟨r1, r2⟩ := k3.resolve_tid
          have hf := verdict_facts hi'.wf (r.resolve b).tid (r.resolve b).sid r.time
          have hv := firedV r hr'
          have hids := verdict_ids hi'.wf (tid := (r.resolve b).tid) (sid := (r.resolve b).sid) (time := r.time)
            (by unfold Request.verdictIn at hv; simp only at hv; rcases hv with hv | hv <;> rw [hv] <;> simp)
          simp only at r1 r2 hids
          rw [r1, r2] at hids
          unfold Request.verdictIn at hv
          simp only at hv
          rcases hv with hv | hv
          · rw [hv] at hf
            obtain ⟨l, e', f1, f2, f3, f4⟩ := hf
            rw [r1, r2] at f1
            refine absurd ⟨_, _, l, e', isFrame_of_lookup hids.1, isFrame_of_lookup hids.2, f1, f2, ?_, f4⟩ (hto k1)
            rw [htm, hi'.wf.cacheTime]; exact f3
          · rw [hv] at hf
            rw [canTransform_noLock k1 (hlt t ht) lf, ← r1, ← r2, htm]
            exact hf
    · left
      simp only [RBuf.step, RBuf.setTransform] at hacc ⊢
      generalize s.rb.buf.setTransform m a st = r at *
      obtain ⟨b, r⟩ := r
      cases r <;> first | exact hk | simp at hacc

/-- Every step in which the message keeps its chance. -/
theorem PInv.step [Rigid X] {D : Duration} {s : Filt X} {M : FMsg} (h : PInv s M) (hw : WInv D s) (hc : Counted s)
    (op : FOp X) (ho : s.Orderly op) (hk : s.KeepsChance M.frame M.stamp op) (hroom : s.HasRoom)
    (hra : op.readsAvailable) (hlt : ∀ t ∈ s.targets, LegalName t) (lf : LegalName M.frame)
    (hn : ∀ e, REv.testThrew e ∉ (s.step op).1.revs) (hid : ∀ m ∈ s.heads, m.id = M.id → m = M)
    (hnew : ∀ f t, op = .addStart f t → s.next = M.id → stripSlash f = M.frame) :
    PInv (s.step op).1 M ∧ ∀ r, FEv.decided M.id (some r) ∉ (s.step op).2 := by
  have vac : ∀ (s' : Filt X), s'.adding = [] → s'.msgs = [] → PInv s' M := by
    intro s' h1 h2
    exact ⟨by rw [h1]; simp, by rw [h2]; simp⟩
  cases op with
  | setTargets ts => exact ⟨vac _ ho.1 ho.2, by simp [Filt.step]⟩
  | setTolerance tol => exact ⟨vac _ ho.1 ho.2, by simp [Filt.step]⟩
  | setQueueSize n =>
    exact ⟨h.mono (.same rfl rfl rfl rfl rfl) (fun x hx _ => hx) (fun m hm e => ⟨m, hm, e, rfl⟩), by simp [Filt.step]⟩
  | clear =>
    refine ⟨vac _ ?_ rfl, ?_⟩
    · exact ((s.buf (s.rb.removeCallback s.cb)).register_parts).2.1.trans ho
    · intro r hr
      simp only [Filt.step, Filt.clear] at hr
      rcases List.mem_append.1 hr with hr | hr
      · obtain ⟨_, _, e⟩ := List.mem_map.1 hr; cases e
      · split at hr
        · obtain ⟨_, _, e⟩ := List.mem_map.1 hr; cases e
        · cases hr
  | addStart f t =>
    simp only [Filt.step, Filt.addStart]
    have h1 : PInv ({ s with next := s.next + 1 } : Filt X) M :=
      h.mono (.same rfl rfl rfl rfl rfl) (fun x hx _ => hx) (fun m hm e => ⟨m, hm, e, rfl⟩)
    split
    · exact ⟨h1, by simp⟩
    · split
      · next he =>
        refine ⟨h1.deliver _, ?_⟩
        intro r hr
        rcases List.mem_cons.1 hr with hr | hr
        · cases hr
        · have e1 := (deliver_events _ _ hr).1
          have := hnew f t rfl e1.symm
          rw [he] at this
          exact lf.1 this.symm
      · refine ⟨?_, by simp⟩
        constructor
        · intro a ha e
          rcases List.mem_append.1 ha with ha | ha
          · exact (h.adds a ha e).mono (.same rfl rfl rfl rfl rfl)
          · rw [List.mem_singleton.1 ha]
            exact ⟨[], rfl, by simp, by simp⟩
        · intro m hm e t ht
          exact (h.msgs m hm e t ht).mono (.same rfl rfl rfl rfl rfl) (fun _ h => h) ht
  | addNext i =>
    refine h.next hw.rinv.wf hc i hlt lf hroom hid ?_ hw.waits.prog
    intro t ht tm hwt
    have := (hk t ht tm hwt).2
    simp only [Filt.step] at this
    rw [(Filt.addNext_rb s i hw.rinv.wf).1] at this
    exact this
  | invoke k av =>
    have : av = true := hra
    subst this
    exact h.invoke hw ho k hid
  | runQueued =>
    simp only [Filt.step, Filt.runQueued]
    split
    · exact ⟨h.mono (.same rfl rfl rfl rfl rfl) (fun x hx _ => hx) (fun m hm e => ⟨m, hm, e, rfl⟩), by simp⟩
    · exact ⟨h, by simp⟩
  | buffer op =>
    have gen : (∀ i, op ≠ .invoke i) → op ≠ .removeCallback s.cb →
        (∀ x, op = .cancelRequest x → ∀ t src tm, REv.added (x % 2 ^ 32) s.cb t src tm ∉ s.revs) →
        (∀ e, REv.testThrew e ∉ s.revs ++ (s.rb.step op).2) →
        (∀ t ∈ s.targets, ∀ tm, WantedTime s.tol M.stamp tm →
          (s.rb.buf.canTransform t M.frame tm = .ok true → (s.rb.step op).1.buf.canTransform t M.frame tm = .ok true) ∧
          (t ≠ M.frame → ¬ TooOld (s.rb.step op).1.buf t M.frame tm)) →
        PInv (s.buf (s.rb.step op)) M := by
      intro g0 g1 g2 g3 g4
      exact h.mono (.buffer hw op g0 g1 g2 (fun e he => g3 e (List.mem_append_right _ he)) hlt lf g4) (fun x hx _ => hx)
        (fun m hm e => ⟨m, hm, e, rfl⟩)
    cases op with
    | invoke k => exact ⟨h, by simp [Filt.step]⟩
    | removeCallback c =>
      refine ⟨gen (by simp) ?_ (by simp) hn hk, by simp [Filt.step]⟩
      intro e; injection e with e; exact ho e
    | cancelRequest x =>
      refine ⟨gen (by simp) (by simp) ?_ hn hk, by simp [Filt.step]⟩
      intro y e; injection e with e; subst e; exact ho
    | _ => exact ⟨gen (by simp) (by simp) (by simp) hn hk, by simp [Filt.step]⟩

theorem PInv.run [Rigid X] {D : Duration} {M : FMsg} (lf : LegalName M.frame) (ops : List (FOp X)) :
    ∀ {s : Filt X} {evs evs' : List FEv}, PInv s M → WInv D s → FInv D s evs → HInv s evs → OrderlyRun ops s →
    ChanceRun M.frame M.stamp ops s → (Filt.run ops s evs).1.Healthy →
    (∀ f t, FEv.received M.id f t ∈ (Filt.run ops s evs).2 → stripSlash f = M.frame ∧ t = M.stamp) →
    PInv (Filt.run ops s evs).1 M ∧
      ∀ r, FEv.decided M.id (some r) ∈ (Filt.run ops s evs').2 → FEv.decided M.id (some r) ∈ evs' := by
  induction ops with
  | nil => intro s evs evs' h _ _ _ _ _ _ _; exact ⟨h, fun _ h => h⟩
  | cons op r ih =>
    intro s evs evs' h hw hf hh ho hk hhe hR
    obtain ⟨n, e⟩ := revs_run r (s.step op).1 (evs ++ (s.step op).2)
    simp only [Filt.run] at hhe hR ⊢
    obtain ⟨q1, q2, q3⟩ := hhe
    have q1' := q1
    rw [e, addedHandles_append, List.length_append] at q1'
    have n2 : ∀ x, REv.testThrew x ∉ (s.step op).1.revs := fun x hx => q2 x (by rw [e]; exact List.mem_append_left _ hx)
    have n3 : REv.registerHangs ∉ (s.step op).1.revs := fun hx => q3 (by rw [e]; exact List.mem_append_left _ hx)
    have hmem : ∀ x ∈ evs ++ (s.step op).2, x ∈ (Filt.run r (s.step op).1 (evs ++ (s.step op).2)).2 := by
      intro x hx
      rw [frun_evs]; exact List.mem_append_left _ hx
    obtain ⟨k1, k2, k3, k4, k5⟩ := hk
    obtain ⟨p1, p2⟩ := h.step hw hf.counted op ho.1 k1 k2 k3 k4 lf n2
      (by
        intro m hm hid
        obtain ⟨f, r1, r2⟩ := hh.heads m hm
        obtain ⟨r3, r4⟩ := hR f m.stamp (hmem _ (List.mem_append_left _ (by rw [← hid]; exact r1)))
        cases m; cases M
        simp only at *
        rw [hid, r4, r2, r3])
      (by
        intro f t hop hid
        refine (hR f t (hmem _ (List.mem_append_right _ ?_))).1
        rw [hop, ← hid]
        simp only [Filt.step, Filt.addStart]
        split
        · simp
        · split <;> simp)
    obtain ⟨g1, g2⟩ := ih (evs' := evs' ++ (s.step op).2) p1 (hw.step hf.counted op ho.1 (by omega) n2 n3) (hf.step op).1 (hh.step hf op) ho.2 k5
      ⟨q1, q2, q3⟩ hR
    refine ⟨g1, fun x hx => ?_⟩
    rcases List.mem_append.1 (g2 x hx) with h1 | h1
    · exact h1
    · exact absurd h1 (p2 x)

/-- Signals and decisions on their way were decided, or on their way before. -/
theorem outs_run [Rigid X] {D : Duration} (P : Out → Prop) (ops : List (FOp X)) : ∀ {s : Filt X} {evs evs' : List FEv},
    FInv D s evs → (∀ o ∈ s.outs, P o ∨ FEv.decided o.id o.fail ∈ evs') →
    (∀ id f, FEv.signalled id f ∈ evs' → P ⟨id, f⟩ ∨ FEv.decided id f ∈ evs') →
    (∀ o ∈ (Filt.run ops s evs').1.outs, P o ∨ FEv.decided o.id o.fail ∈ (Filt.run ops s evs').2) ∧
    ∀ id f, FEv.signalled id f ∈ (Filt.run ops s evs').2 → P ⟨id, f⟩ ∨ FEv.decided id f ∈ (Filt.run ops s evs').2 := by
  induction ops with
  | nil => intro s evs evs' _ h1 h2; exact ⟨h1, h2⟩
  | cons op r ih =>
    intro s evs evs' hi h1 h2
    have ht := told_step hi op
    refine ih (evs := evs ++ (s.step op).2) (hi.step op).1 ?_ ?_
    · intro o ho
      rcases ht.outs o ho with h3 | h3
      · exact (h1 o h3).imp_right (fun h => List.mem_append_left _ h)
      · exact .inr (List.mem_append_right _ h3)
    · intro id f hm
      rcases List.mem_append.1 hm with hm | hm
      · exact (h2 id f hm).imp_right (fun h => List.mem_append_left _ h)
      · rcases ht.sigs id f hm with h3 | h3
        · exact .inr (List.mem_append_right _ h3)
        · exact (h1 _ h3).imp_right (fun h => List.mem_append_left _ h)

theorem orderly_append [Rigid X] (o1 o2 : List (FOp X)) : ∀ (s0 : Filt X) (evs : List FEv), OrderlyRun (o1 ++ o2) s0 →
    OrderlyRun o1 s0 ∧ OrderlyRun o2 (Filt.run o1 s0 evs).1 := by
  induction o1 with
  | nil => intro s0 evs h; exact ⟨trivial, h⟩
  | cons op r ih =>
    intro s0 evs h
    obtain ⟨a, b⟩ := ih (s0.step op).1 (evs ++ (s0.step op).2) h.2
    exact ⟨⟨h.1, a⟩, b⟩

/-- Message numbers identify headers. -/
theorem received_unique {evs : List FEv} {n : Nat} (h : (received evs).map Prod.fst = List.range n) {id : Nat}
    {f f' : Name} {t t' : Time} (h1 : FEv.received id f t ∈ evs) (h2 : FEv.received id f' t' ∈ evs) : f = f' ∧ t = t' := by
  have hnd : ((received evs).map Prod.fst).Nodup := by rw [h]; exact List.nodup_range
  have m1 := mem_received.2 h1
  have m2 := mem_received.2 h2
  generalize received evs = l at *
  clear h h1 h2
  induction l with
  | nil => cases m1
  | cons x r ih =>
    rw [List.map_cons, List.nodup_cons] at hnd
    rcases List.mem_cons.1 m1 with e1 | e1 <;> rcases List.mem_cons.1 m2 with e2 | e2
    · rw [← e2] at e1; injection e1 with _ e; injection e with a b; exact ⟨a, b⟩
    · exact absurd (List.mem_map.2 ⟨_, e2, by rw [← e1]⟩) hnd.1
    · exact absurd (List.mem_map.2 ⟨_, e1, by rw [← e2]⟩) hnd.1
    · exact ih hnd.2 e1 e2

theorem history_parts [Rigid X] (D : Duration) (pre : List (ROp X)) (target : Name) (qsize : Nat) (queued : Bool)
    (setup ops : List (FOp X)) :
    Filt.history D pre target qsize queued (setup ++ ops) =
      Filt.run ops (Filt.history D pre target qsize queued setup).1 (Filt.history D pre target qsize queued setup).2 ∧
    (Filt.history D pre target qsize queued (setup ++ ops)).1 =
      (Filt.run ops (Filt.history D pre target qsize queued setup).1 []).1 ∧
    (Filt.history D pre target qsize queued (setup ++ ops)).2 =
      (Filt.history D pre target qsize queued setup).2 ++ (Filt.run ops (Filt.history D pre target qsize queued setup).1 []).2 := by
  have h : Filt.history D pre target qsize queued (setup ++ ops) =
      Filt.run ops (Filt.history D pre target qsize queued setup).1 (Filt.history D pre target qsize queued setup).2 := by
    unfold Filt.history; rw [frun_append]
  refine ⟨h, ?_, ?_⟩ <;> rw [h, frun_evs]

/-- A message that arrives later is unknown now. -/
theorem arrives_later [Rigid X] (D : Duration) (pre : List (ROp X)) (target : Name) (qsize : Nat) (queued : Bool)
    (setup ops : List (FOp X)) {id : Nat} {f : Name} {stamp : Time}
    (hrec : FEv.received id f stamp ∈ (Filt.run ops (Filt.history D pre target qsize queued setup).1 []).2) :
    (∀ f' t', FEv.received id f' t' ∉ (Filt.history D pre target qsize queued setup).2) ∧
    (Filt.history D pre target qsize queued setup).1.held id = 0 ∧
    id ∉ disposed (Filt.history D pre target qsize queued setup).2 := by
  obtain ⟨h1, h2, h3⟩ := history_parts D pre target qsize queued setup ops
  have hi := (HInv.history D pre target qsize queued (setup ++ ops)).ids
  have hi0 := (HInv.history D pre target qsize queued setup).ids
  have hnd : ((received (Filt.history D pre target qsize queued (setup ++ ops)).2).map Prod.fst).Nodup := by
    rw [hi]; exact List.nodup_range
  rw [h3, received_append, List.map_append] at hnd
  have hin : id ∈ (received (Filt.run ops (Filt.history D pre target qsize queued setup).1 []).2).map Prod.fst :=
    List.mem_map.2 ⟨_, mem_received.2 hrec, rfl⟩
  have hnot : id ∉ (received (Filt.history D pre target qsize queued setup).2).map Prod.fst :=
    fun h => (List.nodup_append.1 hnd).2.2 id h id hin rfl
  have hz : (List.range (Filt.history D pre target qsize queued setup).1.next).count id = 0 := by
    rw [← hi0]; exact List.count_eq_zero.2 hnot
  have ha := (FInv.history D pre target qsize queued setup).acct id
  rw [hz] at ha
  refine ⟨fun f' t' h => hnot (List.mem_map.2 ⟨_, mem_received.2 h, rfl⟩), by omega, List.count_eq_zero.1 (by omega)⟩

end Tf2
