import Verif.Spec.Denote
import Verif.Proofs.LookupOk
import Verif.Props.Buffer

/-! # Lemmas: buffers hold what the messages say -/
namespace Tf2

variable {X : Type} [Rigid X]

/-- The sample stored for a message. -/
def toSample (ids : Name → Nat) (n : Name) (m : Msg X) : Sample X := ⟨m.stamp, ids (stripSlash m.parent), ids n, m.xf⟩

theorem attempts_frameCalls (ids : Name → Nat) (n : Name) (ops : List (Op X)) : ∀ acc : List (Msg X),
    attempts (frameCalls ids n ops) (acc.map (toSample ids n)) = (recentFor n ops acc).map (toSample ids n) := by
  induction ops with
  | nil => intro acc; rfl
  | cons o r ih =>
    intro acc
    cases o with
    | clear => simp only [frameCalls, attempts, recentFor]; exact ih []
    | set m a s =>
      simp only [frameCalls, recentFor]
      split
      · simp only [attempts]
        rw [← ih]
        simp [toSample]
      · exact ih acc

theorem offersFor_mem {n : Name} {ops : List (Op X)} {m : Msg X} {s : Bool} (h : (m, s) ∈ offersFor n ops) :
    (∃ a, Op.set m a s ∈ ops) ∧ ValidMsg m ∧ stripSlash m.child = n := by
  induction ops with
  | nil => cases h
  | cons o r ih =>
    cases o with
    | clear =>
      simp only [offersFor] at h
      obtain ⟨⟨a, h1⟩, h2⟩ := ih h
      exact ⟨⟨a, List.mem_cons_of_mem _ h1⟩, h2⟩
    | set m' a' s' =>
      simp only [offersFor] at h
      split at h
      · rename_i hv
        rcases List.mem_cons.1 h with e | h
        · injection e with e1 e2; subst e1; subst e2
          exact ⟨⟨a', List.mem_cons_self ..⟩, hv⟩
        · obtain ⟨⟨a, h1⟩, h2⟩ := ih h
          exact ⟨⟨a, List.mem_cons_of_mem _ h1⟩, h2⟩
      · obtain ⟨⟨a, h1⟩, h2⟩ := ih h
        exact ⟨⟨a, List.mem_cons_of_mem _ h1⟩, h2⟩

theorem recentFor_mem {n : Name} {ops : List (Op X)} {m : Msg X} : ∀ {acc : List (Msg X)},
    m ∈ recentFor n ops acc → m ∈ acc ∨ ∃ s, (m, s) ∈ offersFor n ops := by
  induction ops with
  | nil => intro acc h; exact Or.inl h
  | cons o r ih =>
    intro acc h
    cases o with
    | clear =>
      simp only [recentFor] at h
      rcases ih h with h | ⟨s, h⟩
      · cases h
      · exact Or.inr ⟨s, h⟩
    | set m' a' s' =>
      simp only [recentFor, offersFor] at h ⊢
      split at h
      · rename_i hv
        rcases ih h with h | ⟨s, h⟩
        · rcases List.mem_append.1 h with h | h
          · exact Or.inl h
          · rw [List.mem_singleton.1 h, if_pos hv]; exact Or.inr ⟨s', List.mem_cons_self ..⟩
        · rw [if_pos hv]; exact Or.inr ⟨s, List.mem_cons_of_mem _ h⟩
      · rename_i hv
        rw [if_neg hv]
        exact ih h

theorem Effective.mem {D : Duration} {ops : List (Op X)} {n : Name} {m : Msg X} (h : Effective D ops n m) :
    m ∈ recentFor n ops [] := List.mem_of_find?_eq_some h.1

theorem Effective.unique {D : Duration} {ops : List (Op X)} {n : Name} {m m' : Msg X} (h : Effective D ops n m)
    (h' : Effective D ops n m') (e : m.stamp = m'.stamp) : m = m' := by
  have h1 := h.1
  have h2 := h'.1
  rw [e, h2] at h1
  injection h1 with h1; exact h1.symm

/-- The stored window consists of the messages that count. -/
theorem window_counts {D : Duration} {ops : List (Op X)} {n : Name} {ids : Name → Nat} {st : List (Sample X)}
    (h : IsWindow D (attempts (frameCalls ids n ops) []) st) (s : Sample X) :
    s ∈ st ↔ ∃ m, Effective D ops n m ∧ s = toSample ids n m := by
  have e := attempts_frameCalls ids n ops ([] : List (Msg X))
  simp only [List.map_nil] at e
  rw [e] at h
  rw [h.2 s]
  constructor
  · rintro ⟨h1, h2⟩
    unfold FirstWithStamp at h1
    rw [List.find?_map, Option.map_eq_some_iff] at h1
    obtain ⟨m, hm, rfl⟩ := h1
    refine ⟨m, ⟨hm, ?_⟩, rfl⟩
    intro a ha
    exact h2 _ (List.mem_map_of_mem ha)
  · rintro ⟨m, ⟨h1, h2⟩, rfl⟩
    refine ⟨?_, ?_⟩
    · unfold FirstWithStamp
      rw [List.find?_map, Option.map_eq_some_iff]
      exact ⟨m, h1, rfl⟩
    · intro a ha
      obtain ⟨a', ha', rfl⟩ := List.mem_map.1 ha
      exact h2 a' ha'

theorem offers_ne_reserved {D : Duration} {ops : List (Op X)} (hreg : Regular D ops) {n : Name} {m : Msg X} {s : Bool}
    (h : (m, s) ∈ offersFor n ops) : n ≠ noParentName := by
  obtain ⟨⟨a, h1⟩, h2, h3⟩ := offersFor_mem h
  rw [← h3]; exact hreg.names _ _ _ h1 h2

theorem Says.offer {D : Duration} {ops : List (Op X)} {t : Time} {n p : Name} {e : X} (h : Says D ops t n p e) :
    ∃ m s, (m, s) ∈ offersFor n ops ∧ p = stripSlash m.parent := by
  have key : ∀ {m : Msg X}, Effective D ops n m → ∃ m' s, (m', s) ∈ offersFor n ops ∧ stripSlash m.parent = stripSlash m'.parent := by
    intro m hm
    rcases recentFor_mem hm.mem with h | ⟨s, h⟩
    · cases h
    · exact ⟨m, s, h, rfl⟩
  cases h with
  | @static m0 m s r h1 h2 => exact ⟨m, s, List.mem_of_getLast? h2, rfl⟩
  | exact _ h2 _ => exact key h2
  | between _ h2 _ _ _ _ _ => exact key h2
  | switch _ h2 _ _ _ _ _ => exact key h2

/-- A registered name has a number, and the number of a name is that of the table. -/
theorem mentioned_number {D : Duration} {ops : List (Op X)} {b : Buf X} (hb : b = (Buf.init D).run ops) {n : Name}
    (h : n ∈ mentions ops) : b.frameIDs n = some (b.lookupFrameNumber n) := by
  obtain ⟨i, hi⟩ := mentions_registered (D := D) ops _ h
  rw [← hb] at hi
  rw [hi]; unfold Buf.lookupFrameNumber; rw [hi]; rfl

theorem isFrame_of_mentioned {D : Duration} {ops : List (Op X)} {b : Buf X} (hb : b = (Buf.init D).run ops) {n : Name}
    (h : n ∈ mentions ops) (hn : n ≠ noParentName) : IsFrame b n (b.lookupFrameNumber n) := by
  have hw : WF D b := by rw [hb]; exact WF.run (WF.init D) ops
  have h1 := mentioned_number hb h
  refine ⟨?_, h1⟩
  intro h0
  rw [h0, hw.frameIDs_zero] at h1
  exact hn h1

/-- **The correspondence**: what a buffer answers for one frame is what the messages say. -/
theorem says_iff {D : Duration} {ops : List (Op X)} (hreg : Regular D ops) (hz : InterpZero X) {b : Buf X}
    (hb : b = (Buf.init D).run ops) {t : Time} (ht : t ≠ 0) {n : Name} {i : Nat} (hi : IsFrame b n i) (j : Nat) (e : X) :
    ParentAt b t i j e ↔ ∃ p, IsFrame b p j ∧ Says D ops t n p e := by
  have hz' : ∀ (a b : X) (d : Int), Rigid.interp a b 0 d = a := hz
  have hw : WF D b := by rw [hb]; exact WF.run (WF.init D) ops
  have hn : n ≠ noParentName := by
    intro h; have := hi.2; rw [h] at this
    exact hi.1 (by have h0 := (hw.ids noParentName 0).2 hw.zero; rw [this] at h0; injection h0)
  have hnum : b.lookupFrameNumber n = i := lookupFrameNumber_isFrame hi
  -- numbers of parents
  have hpar : ∀ {m : Msg X} {s : Bool}, (m, s) ∈ offersFor n ops →
      b.frameIDs (stripSlash m.parent) = some (b.lookupFrameNumber (stripSlash m.parent)) := by
    intro m s hm; exact mentioned_number hb (offersFor_mentions hm).2.1
  have hinj : ∀ {m m' : Msg X} {s s' : Bool}, (m, s) ∈ offersFor n ops → (m', s') ∈ offersFor n ops →
      b.lookupFrameNumber (stripSlash m.parent) = b.lookupFrameNumber (stripSlash m'.parent) →
      stripSlash m.parent = stripSlash m'.parent := by
    intro m m' s s' hm hm' he
    have h1 := hpar hm
    rw [he] at h1
    exact hw.inj h1 (hpar hm')
  -- a parent answer is a name
  have hname : ∀ {m : Msg X} {s : Bool}, (m, s) ∈ offersFor n ops →
      (b.lookupFrameNumber (stripSlash m.parent) = j ∧ j ≠ 0 ↔ IsFrame b (stripSlash m.parent) j) := by
    intro m s hm
    constructor
    · rintro ⟨rfl, h⟩; exact ⟨h, hpar hm⟩
    · rintro ⟨h1, h2⟩; exact ⟨lookupFrameNumber_isFrame ⟨h1, h2⟩, h1⟩
  have hfc := frame_content D hn ops
  rw [← hb] at hfc
  unfold FrameContent at hfc
  cases hoff : offersFor n ops with
  | nil =>
    rw [hoff] at hfc
    have hnone := hfc i hi.2
    constructor
    · intro h; exact absurd ⟨_, _, h⟩ (no_parent_of_no_cache hnone)
    · rintro ⟨p, _, hs⟩
      obtain ⟨m, s, hm, _⟩ := hs.offer
      rw [hoff] at hm; cases hm
  | cons mf r =>
    obtain ⟨m0, f⟩ := mf
    cases f with
    | true =>
      rw [hoff] at hfc
      obtain ⟨i', m, s, h1, h2, h3⟩ := hfc
      have : i' = i := by have h4 := hi.2; rw [h1] at h4; injection h4
      subst this
      have hmem : (m, s) ∈ offersFor n ops := by rw [hoff]; exact List.mem_of_getLast? h2
      constructor
      · rintro ⟨hj, c, sm, hc, hd, hp, hx⟩
        rw [h3] at hc
        injection hc with hc
        subst hc
        simp only [Cache.getData, GetRes.ok.injEq] at hd
        subst hd
        simp only at hp hx
        subst hx
        exact ⟨_, (hname hmem).1 ⟨hp, hj⟩, .static hoff (by rw [hoff]; exact h2)⟩
      · rintro ⟨p, hpf, hs⟩
        cases hs with
        | @static m0' m' s' r' h4 h5 =>
          rw [hoff] at h5
          rw [h2] at h5
          injection h5 with h5
          injection h5 with h5 h6
          subst h5
          obtain ⟨h7, h8⟩ := (hname hmem).2 hpf
          exact ⟨h8, _, _, h3, rfl, h7, rfl⟩
        | exact h4 _ _ => rw [hoff] at h4; cases h4
        | between h4 _ _ _ _ _ _ => rw [hoff] at h4; cases h4
        | switch h4 _ _ _ _ _ _ => rw [hoff] at h4; cases h4
    | false =>
      obtain ⟨i', st, h1, h2, h3⟩ := C51_frame_window hreg.dur hn ops hb hoff (by
        intro m s hm
        obtain ⟨⟨a, ha⟩, hv, _⟩ := offersFor_mem hm
        exact hreg.range _ _ _ ha hv)
      have : i' = i := by have h4 := hi.2; rw [h1] at h4; injection h4
      subst this
      have hsort := h3.1
      have hcnt := window_counts h3
      have hoffer : ∀ {m : Msg X}, Effective D ops n m → ∃ s, (m, s) ∈ offersFor n ops := by
        intro m hm
        rcases recentFor_mem hm.mem with h | h
        · cases h
        · exact h
      -- the answer of the cache
      have hadj : ∀ {o w : Sample X}, Adjacent st o w → ∃ mo mw, Effective D ops n mo ∧ Effective D ops n mw ∧
          o = toSample b.lookupFrameNumber n mo ∧ w = toSample b.lookupFrameNumber n mw ∧
          (∀ k, Effective D ops n k → k.stamp ≤ mo.stamp ∨ mw.stamp ≤ k.stamp) := by
        intro o w ha
        obtain ⟨mo, ho, rfl⟩ := (hcnt o).1 ha.1
        obtain ⟨mw, hw', rfl⟩ := (hcnt w).1 ha.2.1
        refine ⟨mo, mw, ho, hw', rfl, rfl, ?_⟩
        intro k hk
        exact ha.2.2.2 _ ((hcnt _).2 ⟨k, hk, rfl⟩)
      have hadj' : ∀ {mo mw : Msg X}, Effective D ops n mo → Effective D ops n mw → mo.stamp < mw.stamp →
          (∀ k, Effective D ops n k → k.stamp ≤ mo.stamp ∨ mw.stamp ≤ k.stamp) →
          Adjacent st (toSample b.lookupFrameNumber n mo) (toSample b.lookupFrameNumber n mw) := by
        intro mo mw ho hw' hlt hk
        refine ⟨(hcnt _).2 ⟨mo, ho, rfl⟩, (hcnt _).2 ⟨mw, hw', rfl⟩, hlt, ?_⟩
        intro s hs
        obtain ⟨k, hk', rfl⟩ := (hcnt s).1 hs
        exact hk k hk'
      have hpar2 : ∀ {mo mw : Msg X}, Effective D ops n mo → Effective D ops n mw →
          ((toSample b.lookupFrameNumber n mo).parent = (toSample b.lookupFrameNumber n mw).parent ↔
            stripSlash mo.parent = stripSlash mw.parent) := by
        intro mo mw ho hw'
        obtain ⟨s, hs⟩ := hoffer ho
        obtain ⟨s', hs'⟩ := hoffer hw'
        exact ⟨fun h => hinj hs hs' h, fun h => by simp only [toSample, h]⟩
      constructor
      · rintro ⟨hj, c, sm, hc, hd, hp, hx⟩
        rw [h2] at hc
        injection hc with hc
        subst hc
        simp only [Cache.getData] at hd
        unfold dynGetData at hd
        rcases findClosest_cases hsort t with ⟨_, e1⟩ | ⟨f, r, _, h0, _⟩ | ⟨_, s, hs, hst, e1⟩ |
          ⟨_, o, w, ha, ho, hw', e1⟩ | ⟨_, _, e1⟩
        · rw [e1] at hd; cases hd
        · exact absurd h0 ht
        · rw [e1] at hd
          simp only [GetRes.ok.injEq] at hd
          subst hd
          obtain ⟨m, hm, rfl⟩ := (hcnt s).1 hs
          obtain ⟨f, hf⟩ := hoffer hm
          subst hx
          exact ⟨_, (hname hf).1 ⟨hp, hj⟩, .exact hoff hm hst.symm⟩
        · rw [e1] at hd
          obtain ⟨mo, mw, hmo, hmw, rfl, rfl, hk⟩ := hadj ha
          have ho' : mo.stamp ≤ t := ho
          have hw'' : t < mw.stamp := hw'
          obtain ⟨f, hf⟩ := hoffer hmo
          simp only [] at hd
          by_cases hsame : stripSlash mo.parent = stripSlash mw.parent
          · rw [if_pos ((hpar2 hmo hmw).2 hsame)] at hd
            simp only [GetRes.ok.injEq, interpolate] at hd
            have hne : (toSample b.lookupFrameNumber n mw).stamp ≠ (toSample b.lookupFrameNumber n mo).stamp := by
              simp only [toSample]; omega
            rw [if_neg hne] at hd
            subst hd
            subst hx
            refine ⟨_, (hname hf).1 ⟨hp, hj⟩, ?_⟩
            by_cases heq : mo.stamp = t
            · have : ((t : Int) - (toSample b.lookupFrameNumber n mo).stamp) = 0 := by simp only [toSample]; omega
              simp only [this, hz']
              exact .exact hoff hmo heq
            · exact .between hoff hmo hmw (by omega) hw'' hk hsame
          · rw [if_neg (fun h => hsame ((hpar2 hmo hmw).1 h))] at hd
            simp only [GetRes.ok.injEq] at hd
            subst hd
            subst hx
            refine ⟨_, (hname hf).1 ⟨hp, hj⟩, ?_⟩
            by_cases heq : mo.stamp = t
            · exact .exact hoff hmo heq
            · exact .switch hoff hmo hmw (by omega) hw'' hk hsame
        · rw [e1] at hd; cases hd
      · rintro ⟨p, hpf, hs⟩
        cases hs with
        | static h4 _ => rw [hoff] at h4; cases h4
        | @exact m0' m r' _ hm hst =>
          obtain ⟨f, hf⟩ := hoffer hm
          obtain ⟨h7, h8⟩ := (hname hf).2 hpf
          have hmem := (hcnt _).2 ⟨m, hm, rfl⟩
          have hcases : dynGetData st t = .ok (toSample b.lookupFrameNumber n m) ∨
              ∃ s', dynGetData st t = .ok s' ∧ s'.parent = (toSample b.lookupFrameNumber n m).parent ∧ s'.xf = m.xf := by
            unfold dynGetData
            rcases findClosest_cases hsort t with ⟨e0, e1⟩ | ⟨f, r, _, h0, _⟩ | ⟨_, s, hs, hst', e1⟩ |
              ⟨_, o, w, ha, ho, hw', e1⟩ | ⟨_, hout, e1⟩
            · rw [e0] at hmem; cases hmem
            · exact absurd h0 ht
            · rw [e1]
              left
              rw [hsort.unique hs hmem (by rw [← hst']; exact hst.symm)]
            · rw [e1]
              have hms : (toSample b.lookupFrameNumber n m).stamp = t := hst
              have : o = toSample b.lookupFrameNumber n m := by
                apply hsort.unique ha.1 hmem
                rcases ha.2.2.2 _ hmem with h' | h' <;> omega
              subst this
              right
              simp only []
              by_cases hpp : (toSample b.lookupFrameNumber n m).parent = w.parent
              · rw [if_pos hpp]
                refine ⟨_, rfl, ?_, ?_⟩
                · unfold interpolate
                  rw [if_neg (by omega)]
                · unfold interpolate
                  rw [if_neg (by omega)]
                  have : ((t : Int) - (toSample b.lookupFrameNumber n m).stamp) = 0 := by omega
                  simp only [this, hz']; rfl
              · rw [if_neg hpp]; exact ⟨_, rfl, rfl, rfl⟩
            · have hms : (toSample b.lookupFrameNumber n m).stamp = t := hst
              rcases hout with h | h
              · have := h _ hmem; omega
              · have := h _ hmem; omega
          rcases hcases with h | ⟨s', h, hp', hx'⟩
          · exact ⟨h8, _, _, h2, h, h7, rfl⟩
          · exact ⟨h8, _, _, h2, h, by rw [hp']; exact h7, hx'⟩
        | @between m0' o w r' _ ho hw' hlo hlt hk hsame =>
          obtain ⟨f, hf⟩ := hoffer ho
          obtain ⟨h7, h8⟩ := (hname hf).2 hpf
          have ha := hadj' ho hw' (by omega) hk
          rcases findClosest_between hsort ha ht (Nat.le_of_lt hlo) hlt with e1 | ⟨e1, _⟩
          · refine ⟨h8, _, interpolate (toSample b.lookupFrameNumber n o) (toSample b.lookupFrameNumber n w) t, h2, ?_, ?_, ?_⟩
            · simp only [Cache.getData]
              unfold dynGetData
              rw [e1]
              simp only []
              rw [if_pos ((hpar2 ho hw').2 hsame)]
            · unfold interpolate
              have : (toSample b.lookupFrameNumber n w).stamp ≠ (toSample b.lookupFrameNumber n o).stamp := by
                simp only [toSample]; omega
              rw [if_neg this]
              exact h7
            · unfold interpolate
              have : (toSample b.lookupFrameNumber n w).stamp ≠ (toSample b.lookupFrameNumber n o).stamp := by
                simp only [toSample]; omega
              rw [if_neg this]; rfl
          · have : t = o.stamp := e1
            omega
        | @switch m0' o w r' _ ho hw' hlo hlt hk hdiff =>
          obtain ⟨f, hf⟩ := hoffer ho
          obtain ⟨h7, h8⟩ := (hname hf).2 hpf
          have ha := hadj' ho hw' (by omega) hk
          rcases findClosest_between hsort ha ht (Nat.le_of_lt hlo) hlt with e1 | ⟨e1, _⟩
          · refine ⟨h8, _, toSample b.lookupFrameNumber n o, h2, ?_, h7, rfl⟩
            simp only [Cache.getData]
            unfold dynGetData
            rw [e1]
            simp only []
            rw [if_neg (fun h => hdiff ((hpar2 ho hw').1 h))]
          · have : t = o.stamp := e1
            omega

end Tf2
