import Verif.Proofs.FrameReport
import Verif.Props.Listing

/-!
# C62: what `allFramesAsYAML` and `_allFramesAsDot` say about each frame
-/
namespace Tf2

variable {X : Type} [Rigid X]

theorem range_names {D : Duration} {b : Buf X} (hw : WF D b) :
    (List.range' 1 (b.frames.length - 1)).map (fun i => (b.frameIDsReverse[i]?).getD []) =
      b.getFrameStrings := by
  apply List.ext_getElem?
  intro k
  unfold Buf.getFrameStrings
  rw [List.getElem?_map, List.getElem?_drop]
  by_cases hk : k < b.frames.length - 1
  · rw [List.getElem?_range' hk]
    have : 1 + k < b.frameIDsReverse.length := by rw [hw.lenEq]; omega
    simp [List.getElem?_eq_getElem this]
  · rw [List.getElem?_eq_none (by simp; omega)]
    have : b.frameIDsReverse.length ≤ 1 + k := by rw [hw.lenEq]; omega
    simp [List.getElem?_eq_none this]

theorem frameStrings_nodup {D : Duration} {b : Buf X} (hr : Reachable D b) : b.getFrameStrings.Nodup := by
  have hrev : b.frameIDsReverse.Nodup := by
    obtain ⟨ops, rfl⟩ := hr
    rw [rev_run]; exact nodup_firstOccurrences _ _ (by simp)
  unfold Buf.getFrameStrings
  exact hrev.sublist (List.drop_sublist _ _)

/-- `latest - oldest` of a cache is the span of its samples. -/
theorem cache_span {D : Duration} (hD : 0 ≤ D) (hDm : D ≤ DURATION_MAX) {st : List (Sample X)}
    (h : Spans D st) (hne : st ≠ []) :
    ∃ f r o, st = f :: r ∧ o ∈ st ∧ dynOldestStamp st = o.stamp ∧
      (∀ s ∈ st, o.stamp ≤ s.stamp ∧ s.stamp ≤ f.stamp) ∧ (f.stamp : Int) - o.stamp ≤ D ∧
      timeDiff (dynLatestStamp st) (dynOldestStamp st) = some ((f.stamp : Int) - o.stamp) := by
  cases st with
  | nil => exact absurd rfl hne
  | cons f r =>
    have hl : (f :: r).getLast? = some ((f :: r).getLast hne) := List.getLast?_eq_some_getLast hne
    have hm : (f :: r).getLast hne ∈ f :: r := List.getLast_mem hne
    have hspan := h.2.2 f (List.mem_cons_self ..) _ hm
    have hle := h.1.front_max hm
    have e : dynOldestStamp (f :: r) = ((f :: r).getLast hne).stamp := by
      unfold dynOldestStamp; rw [hl]
    refine ⟨f, r, _, rfl, hm, e, ?_, by omega, ?_⟩
    · intro s hs
      have := getLast_min h.1 hne hs
      exact ⟨by omega, h.1.front_max hs⟩
    · rw [e]
      have hc : -2147483649000000000 < (f.stamp : Int) - ((f :: r).getLast hne).stamp ∧
          (f.stamp : Int) - ((f :: r).getLast hne).stamp ≤ DURATION_MAX := by omega
      show timeDiff f.stamp _ = _
      unfold timeDiff
      rw [if_pos hc]

/-- The block of one frame. -/
theorem frameReport_spec {D : Duration} (hD : 0 ≤ D) (hDm : D ≤ DURATION_MAX) {ops : List (Op X)}
    (hmax : ∀ m a s, Op.set m a s ∈ ops → m.stamp ≤ TIME_MAX) {b : Buf X} (hb : b = (Buf.init D).run ops)
    (now : Int) {n : Name} {i : Nat} (hi : IsFrame b n i) :
    (¬ HoldsData b i ∧ b.frameReport now i = .ok none) ∨
    (HoldsData b i ∧ ∃ r, b.frameReport now i = .ok (some r) ∧ ReportsFrame D b now n i r ∧
      0 ≤ r.span ∧ r.span ≤ D ∧ 0 < r.count ∧ r.broadcaster = (b.authority i).getD noAuthority) := by
  have hw : WF D b := hb ▸ WF.run (WF.init D) ops
  have hin := (hw.ids _ _).1 hi.2
  unfold Buf.frameReport
  cases hc : b.getFrame i with
  | none =>
    refine Or.inl ⟨?_, rfl⟩
    rintro (⟨D', st, h, _⟩ | ⟨s, h⟩) <;> (rw [hc] at h; cases h)
  | some c =>
    have hok := hw.caches _ _ hc
    cases c with
    | stat o =>
      cases o with
      | none => exact absurd hok (by simp [CacheOK])
      | some s =>
        refine Or.inr ⟨Or.inr ⟨_, hc⟩, ?_⟩
        have hlt := hok.1
        rw [← hw.lenEq] at hlt
        have hget := List.getElem?_eq_getElem hlt
        have ht : timeDiff 0 0 = some 0 := by decide
        simp only [Cache.getData, hin, hget, Cache.latestStamp, Cache.oldestStamp, ht, Cache.listLength]
        refine ⟨_, rfl, ⟨rfl, Or.inr ⟨s, hc, (hw.ids _ _).2 hget, rfl, rfl, rfl⟩, rfl, rfl, rfl⟩,
          Int.le_refl _, hD, Nat.one_pos, rfl⟩
    | dyn D' st =>
      obtain ⟨rfl, hsp⟩ := frame_spans hD hmax (hb ▸ hc)
      by_cases hne : st = []
      · subst hne
        refine Or.inl ⟨?_, rfl⟩
        rintro (⟨D', st, h, h2⟩ | ⟨s, h⟩)
        · rw [hc] at h; cases h; exact h2 rfl
        · rw [hc] at h; cases h
      · refine Or.inr ⟨Or.inl ⟨_, _, hc, hne⟩, ?_⟩
        obtain ⟨f, r, o, rfl, ho, e1, hall, hspan, e2⟩ := cache_span hD hDm hsp hne
        have hlt := (hok.2.2 f (List.mem_cons_self ..)).1
        rw [← hw.lenEq] at hlt
        have hget := List.getElem?_eq_getElem hlt
        have hfo := (hall o ho).2
        simp only [Cache.getData, dynGetData, findClosest_zero, hin, hget, Cache.latestStamp,
          Cache.oldestStamp, e2, Cache.listLength]
        refine ⟨_, rfl, ⟨rfl, Or.inl ⟨_, f, o, hc, List.mem_cons_self .., ho, hall, (hw.ids _ _).2 hget,
          rfl, rfl, e1⟩, ?_, rfl, rfl⟩, by simp only; omega, hspan, by simp, rfl⟩
        rw [e1]; rfl

theorem frameReports_spec {D : Duration} (hD : 0 ≤ D) (hDm : D ≤ DURATION_MAX) {ops : List (Op X)}
    (hmax : ∀ m a s, Op.set m a s ∈ ops → m.stamp ≤ TIME_MAX) {b : Buf X} (hb : b = (Buf.init D).run ops)
    (now : Int) (l : List Nat) (hl : ∀ i ∈ l, i ≠ 0 ∧ i < b.frames.length) :
    ∃ L, b.frameReports now l = .ok L ∧
      (L.map FrameReport.frame).Sublist (l.map (fun i => (b.frameIDsReverse[i]?).getD [])) ∧
      (∀ i ∈ l, ∀ n, IsFrame b n i → HoldsData b i → ∃ r ∈ L, r.frame = n) ∧
      (∀ r ∈ L, ∃ i ∈ l, IsFrame b r.frame i ∧ HoldsData b i ∧ ReportsFrame D b now r.frame i r ∧
        0 ≤ r.span ∧ r.span ≤ D ∧ 0 < r.count ∧ r.broadcaster = (b.authority i).getD noAuthority) := by
  have hw : WF D b := hb ▸ WF.run (WF.init D) ops
  induction l with
  | nil => exact ⟨[], rfl, by simp, by simp, by simp⟩
  | cons i r ih =>
    obtain ⟨L, h1, h2, h3, h4⟩ := ih (fun j hj => hl j (List.mem_cons_of_mem _ hj))
    obtain ⟨hi0, hi⟩ := hl i (List.mem_cons_self ..)
    have hil : i < b.frameIDsReverse.length := by rw [hw.lenEq]; exact hi
    have hig := List.getElem?_eq_getElem hil
    have hframe : IsFrame b (b.frameIDsReverse[i]) i := ⟨hi0, (hw.ids _ _).2 hig⟩
    unfold Buf.frameReports
    rcases frameReport_spec hD hDm hmax hb now hframe with ⟨hno, e⟩ | ⟨hyes, x, e, hx, hx'⟩
    · rw [e, h1]
      refine ⟨L, rfl, List.Sublist.cons _ h2, ?_, ?_⟩
      · intro j hj n hn hd
        rcases List.mem_cons.1 hj with rfl | hj
        · exact absurd hd hno
        · exact h3 j hj n hn hd
      · intro x hx
        obtain ⟨j, hj, h⟩ := h4 x hx
        exact ⟨j, List.mem_cons_of_mem _ hj, h⟩
    · rw [e, h1]
      have hxf : x.frame = b.frameIDsReverse[i] := hx.1
      refine ⟨x :: L, rfl, ?_, ?_, ?_⟩
      · simp only [List.map_cons, hig, Option.getD_some, hxf]
        exact List.Sublist.cons_cons _ h2
      · intro j hj n hn hd
        rcases List.mem_cons.1 hj with rfl | hj
        · have := (hw.ids _ _).1 hn.2
          rw [hig] at this
          exact ⟨x, List.mem_cons_self .., by rw [hxf]; exact Option.some.inj this⟩
        · obtain ⟨y, hy, e⟩ := h3 j hj n hn hd
          exact ⟨y, List.mem_cons_of_mem _ hy, e⟩
      · intro y hy
        rcases List.mem_cons.1 hy with rfl | hy
        · exact ⟨i, List.mem_cons_self .., hxf ▸ hframe, hyes, hxf ▸ hx, hx'⟩
        · obtain ⟨j, hj, h⟩ := h4 y hy
          exact ⟨j, List.mem_cons_of_mem _ hj, h⟩

theorem reports_aux {D : Duration} (hD : 0 ≤ D) (hDm : D ≤ DURATION_MAX) {ops : List (Op X)}
    (hmax : ∀ m a s, Op.set m a s ∈ ops → m.stamp ≤ TIME_MAX) {b : Buf X} (hb : b = (Buf.init D).run ops)
    (now : Int) :
    ∃ L, b.allFramesReport now = .ok L ∧
      (L.map FrameReport.frame).Sublist b.getFrameStrings ∧
      (∀ n i, IsFrame b n i → HoldsData b i → ∃ r ∈ L, r.frame = n) ∧
      (∀ r ∈ L, ∃ i, IsFrame b r.frame i ∧ HoldsData b i ∧ ReportsFrame D b now r.frame i r ∧
        0 ≤ r.span ∧ r.span ≤ D ∧ 0 < r.count ∧ r.broadcaster = (b.authority i).getD noAuthority) := by
  have hw : WF D b := hb ▸ WF.run (WF.init D) ops
  obtain ⟨L, h1, h2, h3, h4⟩ := frameReports_spec hD hDm hmax hb now (List.range' 1 (b.frames.length - 1))
    (by intro i hi; rw [List.mem_range'_1] at hi; omega)
  rw [range_names hw] at h2
  refine ⟨L, h1, h2, ?_, ?_⟩
  · intro n i hi hd
    refine h3 i ?_ n hi hd
    rw [List.mem_range'_1]
    have := hw.id_lt hi.2
    have := hi.1
    omega
  · intro r hr
    obtain ⟨i, _, h⟩ := h4 r hr
    exact ⟨i, h⟩

/-- **C62, the entries.** In every state reached with representable stamps, `allFramesAsYAML` raises no
exception and has exactly one entry for each frame the buffer holds a transform for, in the order of
`_getFrameStrings`.  The entry gives the number of stored transforms (never 0), the newest and oldest
stamps among them and the parent of the newest one; its buffer length is the difference of these stamps
and lies between 0 and the storage duration. -/
theorem C62_entries {D : Duration} (hD : 0 ≤ D) (hDm : D ≤ DURATION_MAX) {ops : List (Op X)}
    (hmax : ∀ m a s, Op.set m a s ∈ ops → m.stamp ≤ TIME_MAX) {b : Buf X} (hb : b = (Buf.init D).run ops)
    (now : Int) :
    ∃ L, b.allFramesReport now = .ok L ∧
      (L.map FrameReport.frame).Sublist b.getFrameStrings ∧ (L.map FrameReport.frame).Nodup ∧
      (∀ n i, IsFrame b n i → (HoldsData b i ↔ ∃ r ∈ L, r.frame = n)) ∧
      (∀ r ∈ L, ∃ i, IsFrame b r.frame i ∧ ReportsFrame D b now r.frame i r ∧
        0 ≤ r.span ∧ r.span ≤ D ∧ 0 < r.count) := by
  obtain ⟨L, h1, h2, h3, h4⟩ := reports_aux hD hDm hmax hb now
  refine ⟨L, h1, h2, (frameStrings_nodup ⟨ops, hb⟩).sublist h2, ?_, ?_⟩
  · intro n i hi
    refine ⟨h3 n i hi, ?_⟩
    rintro ⟨r, hr, rfl⟩
    obtain ⟨j, g1, g2, _⟩ := h4 r hr
    have : i = j := by have a := hi.2; rw [g1.2] at a; injection a with a; exact a.symm
    exact this ▸ g2
  · intro r hr
    obtain ⟨i, g1, _, g2, g3, g4, g5, _⟩ := h4 r hr
    exact ⟨i, g1, g2, g3, g4, g5⟩

/-- **C62, the broadcaster.** The broadcaster of an entry is the authority of the last `setTransform`
of that frame that returned `true`, whatever was refused or cleared since; and if no stamp was so close
to the end of time that adding the storage duration overflows, there always is one. -/
theorem C62_broadcaster {D : Duration} (hD : 0 ≤ D) (hDm : D ≤ DURATION_MAX) {ops : List (Op X)}
    (hmax : ∀ m a s, Op.set m a s ∈ ops → m.stamp ≤ TIME_MAX) {b : Buf X} (hb : b = (Buf.init D).run ops)
    {now : Int} {L : List FrameReport} (hL : b.allFramesReport now = .ok L) {r : FrameReport} (hr : r ∈ L) :
    (∀ a, LastBroadcaster D ops r.frame a → r.broadcaster = a) ∧
    ((∀ a, ¬ LastBroadcaster D ops r.frame a) → r.broadcaster = noAuthority) ∧
    (StampsFit D ops → LastBroadcaster D ops r.frame r.broadcaster) := by
  obtain ⟨L', h1, _, _, h4⟩ := reports_aux hD hDm hmax hb now
  rw [hL] at h1
  injection h1 with h1; subst h1
  obtain ⟨i, hi, hd, _, _, _, _, hbr⟩ := h4 r hr
  subst hb
  have hw : WF D ((Buf.init D).run ops) := WF.run (WF.init D) ops
  have hsome : ∀ a, ((Buf.init D).run ops).authority i = some a → LastBroadcaster D ops r.frame a := by
    intro a ha
    obtain ⟨n, h1, h2⟩ := (authority_run D ops i a).1 ha
    rw [hw.inj hi.2 h1]; exact h2
  refine ⟨?_, ?_, ?_⟩
  · intro a ha
    rw [hbr, (authority_run D ops i a).2 ⟨_, hi.2, ha⟩]; rfl
  · intro hno
    cases ha : ((Buf.init D).run ops).authority i with
    | none => rw [hbr, ha]; rfl
    | some a => exact absurd (hsome a ha) (hno a)
  · intro hfit
    obtain ⟨a, ha⟩ := holdsData_authority hD ops hfit i hd
    rw [hbr, ha]
    exact hsome a ha

/-- **C62, agreement.** `allFramesAsYAML` and `allFramesAsString` name the same parents: every entry is
one of the lines, and every line with a parent other than `NO_PARENT` is an entry. -/
theorem C62_agrees {D : Duration} (hD : 0 ≤ D) (hDm : D ≤ DURATION_MAX) {ops : List (Op X)}
    (hmax : ∀ m a s, Op.set m a s ∈ ops → m.stamp ≤ TIME_MAX) {b : Buf X} (hb : b = (Buf.init D).run ops)
    {now : Int} {L : List FrameReport} (hL : b.allFramesReport now = .ok L) {S : List (Name × Name)}
    (hS : b.allFrames = .ok S) :
    (∀ r ∈ L, (r.frame, r.parent) ∈ S) ∧
    (∀ n q, (n, q) ∈ S → q ≠ noParentName → ∃ r ∈ L, r.frame = n ∧ r.parent = q) := by
  have hw : WF D b := hb ▸ WF.run (WF.init D) ops
  obtain ⟨L', h1, _, h3, h4⟩ := reports_aux hD hDm hmax hb now
  rw [hL] at h1
  injection h1 with h1; subst h1
  obtain ⟨S', g1, g2, _, _⟩ := C36_all_frames ⟨ops, hb⟩
  rw [hS] at g1
  injection g1 with g1; subst g1
  have key : ∀ r ∈ L, (r.frame, r.parent) ∈ S := by
    intro r hr
    rw [g2]
    obtain ⟨i, hi, _, hrep, _⟩ := h4 r hr
    refine ⟨i, ?_⟩
    rcases hrep.2.1 with ⟨st, f, o, hc, hf, _, hall, hp, _⟩ | ⟨s, hc, hp, _⟩
    · refine ⟨_, hi, hc, Or.inl ?_⟩
      have hok := hw.caches _ _ hc
      cases st with
      | nil => cases hf
      | cons f' r' =>
        have : f' = f := by
          have h1 := hok.2.1.sorted.front_max hf
          have h2 := (hall f' (List.mem_cons_self ..)).2
          exact hok.2.1.sorted.unique (List.mem_cons_self ..) hf (by omega)
        subst this
        exact ⟨f', by simp [Cache.getData, dynGetData, findClosest_zero], hp⟩
    · exact ⟨_, hi, hc, Or.inl ⟨_, rfl, hp⟩⟩
  refine ⟨key, ?_⟩
  intro n q hq hne
  obtain ⟨i, c, hi, hc, hor⟩ := (g2 n q).1 hq
  rcases hor with ⟨s, e1, e2⟩ | ⟨_, e2⟩
  · have hd : HoldsData b i := by
      cases c with
      | dyn D' st =>
        refine Or.inl ⟨_, _, hc, ?_⟩
        intro e; subst e; cases e1
      | stat o => exact Or.inr ⟨_, hc⟩
    obtain ⟨r, hr, rfl⟩ := h3 n i hi hd
    refine ⟨r, hr, rfl, ?_⟩
    obtain ⟨j, d, hj, hd', hor'⟩ := (g2 _ _).1 (key r hr)
    have : i = j := by have a := hi.2; rw [hj.2] at a; injection a with a; exact a.symm
    subst this
    rw [hc] at hd'; cases hd'
    rcases hor' with ⟨s', e1', e2'⟩ | ⟨e1', _⟩
    · rw [e1] at e1'; cases e1'; exact hw.inj e2' e2
    · rw [e1] at e1'; cases e1'
  · exact absurd e2 hne

theorem dotRoots_spec {D : Duration} {b : Buf X} (hw : WF D b) (now : Int) (l : List Nat)
    (hl : ∀ i ∈ l, i ≠ 0 ∧ i < b.frames.length) :
    ∃ R, b.dotRoots now l = .ok R ∧ R.Sublist (l.map (fun i => (b.frameIDsReverse[i]?).getD [])) ∧
      ∀ n, n ∈ R ↔ ∃ i ∈ l, IsFrame b n i ∧
        ((b.getFrame i = none ∧ 0 < now) ∨ ListedAs b n noParentName) := by
  induction l with
  | nil => exact ⟨[], rfl, by simp, by simp⟩
  | cons i r ih =>
    obtain ⟨L, h1, h2, h3⟩ := ih (fun j hj => hl j (List.mem_cons_of_mem _ hj))
    obtain ⟨hi0, hi⟩ := hl i (List.mem_cons_self ..)
    have hil : i < b.frameIDsReverse.length := by rw [hw.lenEq]; exact hi
    have hig := List.getElem?_eq_getElem hil
    have hframe : IsFrame b (b.frameIDsReverse[i]) i := ⟨hi0, (hw.ids _ _).2 hig⟩
    have huniq : ∀ n, IsFrame b n i → n = b.frameIDsReverse[i] := fun n hn => hw.inj hn.2 hframe.2
    have hone : (b.dotRoot now i = .ok (some b.frameIDsReverse[i]) ∧
          ((b.getFrame i = none ∧ 0 < now) ∨ ListedAs b b.frameIDsReverse[i] noParentName)) ∨
        (b.dotRoot now i = .ok none ∧
          ¬ ((b.getFrame i = none ∧ 0 < now) ∨ ListedAs b b.frameIDsReverse[i] noParentName)) := by
      unfold Buf.dotRoot
      cases hc : b.getFrame i with
      | none =>
        have hnl : ¬ ListedAs b b.frameIDsReverse[i] noParentName := by
          rintro ⟨j, c, hj, hcj, _⟩
          have : j = i := by have a := hj.2; rw [hframe.2] at a; injection a with a; exact a.symm
          subst this; rw [hc] at hcj; cases hcj
        simp only [hig, true_and]
        by_cases hn : 0 < now
        · rw [if_pos hn]; exact Or.inl ⟨rfl, Or.inl hn⟩
        · rw [if_neg hn]; exact Or.inr ⟨rfl, by rintro (h | h); exact hn h; exact hnl h⟩
      | some c =>
        have hok := hw.caches _ _ hc
        simp only
        cases hd : c.getData 0 with
        | ub => exact absurd hd (hok.getData_ne_ub 0)
        | fail =>
          simp only [hw.zero, hig, if_true]
          exact Or.inl ⟨trivial, Or.inr ⟨i, c, hframe, hc, Or.inr ⟨hd, rfl⟩⟩⟩
        | ok s =>
          have hlt := (hok.getData_parent hd).1
          rw [← hw.lenEq] at hlt
          have hget := List.getElem?_eq_getElem hlt
          simp only [hig, hget]
          by_cases hq : b.frameIDsReverse[s.parent] = noParentName
          · rw [if_pos hq]
            refine Or.inl ⟨rfl, Or.inr ⟨i, c, hframe, hc, Or.inl ⟨s, hd, ?_⟩⟩⟩
            rw [← hq]; exact (hw.ids _ _).2 hget
          · rw [if_neg hq]
            refine Or.inr ⟨rfl, ?_⟩
            rintro (⟨h, _⟩ | ⟨j, c', hj, hcj, hor⟩)
            · cases h
            · have : j = i := by have a := hj.2; rw [hframe.2] at a; injection a with a; exact a.symm
              subst this; rw [hc] at hcj; cases hcj
              rcases hor with ⟨s', e1, e2⟩ | ⟨e1, _⟩
              · rw [hd] at e1; cases e1
                exact hq (hw.inj ((hw.ids _ _).2 hget) e2)
              · rw [hd] at e1; cases e1
    unfold Buf.dotRoots
    rcases hone with ⟨e, hin⟩ | ⟨e, hout⟩
    · rw [e, h1]
      refine ⟨b.frameIDsReverse[i] :: L, rfl, ?_, ?_⟩
      · simp only [List.map_cons, hig, Option.getD_some]
        exact List.Sublist.cons_cons _ h2
      · intro n
        rw [List.mem_cons, h3]
        constructor
        · rintro (rfl | ⟨j, hj, h⟩)
          · exact ⟨i, List.mem_cons_self .., hframe, hin⟩
          · exact ⟨j, List.mem_cons_of_mem _ hj, h⟩
        · rintro ⟨j, hj, hn, h⟩
          rcases List.mem_cons.1 hj with rfl | hj
          · exact Or.inl (huniq n hn)
          · exact Or.inr ⟨j, hj, hn, h⟩
    · rw [e, h1]
      refine ⟨L, rfl, List.Sublist.cons _ h2, ?_⟩
      intro n
      rw [h3]
      constructor
      · rintro ⟨j, hj, h⟩
        exact ⟨j, List.mem_cons_of_mem _ hj, h⟩
      · rintro ⟨j, hj, hn, h⟩
        rcases List.mem_cons.1 hj with rfl | hj
        · exact absurd (huniq n hn ▸ h) hout
        · exact ⟨j, hj, hn, h⟩

/-- **C62, the graph.** `_allFramesAsDot` draws exactly the edges of `allFramesAsYAML`; with a positive
time it marks as root each known frame that holds no transform to a named parent, once, and no other. -/
theorem C62_graph {D : Duration} (hD : 0 ≤ D) (hDm : D ≤ DURATION_MAX) {ops : List (Op X)}
    (hmax : ∀ m a s, Op.set m a s ∈ ops → m.stamp ≤ TIME_MAX) {b : Buf X} (hb : b = (Buf.init D).run ops)
    {now : Int} (hnow : 0 < now) :
    ∃ E R, b.allFramesDot now = .ok (E, R) ∧ b.allFramesReport now = .ok E ∧ R.Nodup ∧
      ∀ n, n ∈ R ↔ n ∈ b.getFrameStrings ∧ ¬ ∃ r ∈ E, r.frame = n ∧ r.parent ≠ noParentName := by
  have hw : WF D b := hb ▸ WF.run (WF.init D) ops
  obtain ⟨E, h1, _, h3, h4⟩ := reports_aux hD hDm hmax hb now
  obtain ⟨R, g1, g2, g3⟩ := dotRoots_spec hw now (List.range' 1 (b.frames.length - 1))
    (by intro i hi; rw [List.mem_range'_1] at hi; omega)
  rw [range_names hw] at g2
  obtain ⟨S, s1, s2, _, _⟩ := C36_all_frames (X := X) ⟨ops, hb⟩
  obtain ⟨k1, k2⟩ := C62_agrees hD hDm hmax hb h1 s1
  refine ⟨E, R, ?_, h1, (frameStrings_nodup ⟨ops, hb⟩).sublist g2, ?_⟩
  · unfold Buf.allFramesDot; rw [h1, g1]
  · intro n
    constructor
    · intro hn
      refine ⟨g2.subset hn, ?_⟩
      rintro ⟨r, hr, rfl, hp⟩
      obtain ⟨i, _, hi, hor⟩ := (g3 _).1 hn
      obtain ⟨j, c, hj, hc, hq⟩ := (s2 _ _).1 (k1 r hr)
      have : j = i := by have a := hj.2; rw [hi.2] at a; injection a with a; exact a.symm
      subst this
      rcases hor with ⟨h, _⟩ | ⟨j', c', hj', hc', hq'⟩
      · rw [h] at hc; cases hc
      · have : j' = j := by have a := hj'.2; rw [hi.2] at a; injection a with a; exact a.symm
        subst this
        rw [hc] at hc'; cases hc'
        rcases hq with ⟨s, e1, e2⟩ | ⟨_, e2⟩
        · rcases hq' with ⟨s', e1', e2'⟩ | ⟨e1', _⟩
          · rw [e1] at e1'; cases e1'; exact hp (hw.inj e2 e2')
          · rw [e1] at e1'; cases e1'
        · exact hp e2
    · rintro ⟨hmem, hno⟩
      unfold Buf.getFrameStrings at hmem
      obtain ⟨k, hk⟩ := List.getElem?_of_mem hmem
      rw [List.getElem?_drop] at hk
      have hi : IsFrame b n (1 + k) := ⟨by omega, (hw.ids _ _).2 hk⟩
      have hlt := hw.id_lt hi.2
      rw [g3]
      refine ⟨1 + k, by rw [List.mem_range'_1]; omega, hi, ?_⟩
      cases hc : b.getFrame (1 + k) with
      | none => exact Or.inl ⟨rfl, hnow⟩
      | some c =>
        have hok := hw.caches _ _ hc
        refine Or.inr ⟨_, c, hi, hc, ?_⟩
        cases hd : c.getData 0 with
        | ub => exact absurd hd (hok.getData_ne_ub 0)
        | fail => exact Or.inr ⟨rfl, rfl⟩
        | ok s =>
          left
          have hlt := (hok.getData_parent hd).1
          rw [← hw.lenEq] at hlt
          have hget := (hw.ids _ _).2 (List.getElem?_eq_getElem hlt)
          refine ⟨s, rfl, ?_⟩
          by_cases hq : b.frameIDsReverse[s.parent] = noParentName
          · rw [← hq]; exact hget
          · exact absurd (k2 n _ ((s2 n _).2 ⟨_, c, hi, hc, Or.inl ⟨s, hd, hget⟩⟩) hq)
              (fun ⟨r, h1, h2, h3⟩ => hno ⟨r, h1, h2, h3 ▸ hq⟩)

/-- A history with two broadcasters, a refused message, a static frame and a cleared frame. -/
def repOps : List (Op Int) :=
  [.set (tmsg ['z'] ['y'] 5 1) ['n'] false, .clear,
   .set (tmsg ['w'] ['a'] 10 1) ['n'] false, .set (tmsg ['w'] ['a'] 40 1) ['m'] false,
   .set (tmsg ['v'] ['a'] 30 1) ['o'] false, .set (tmsg ['q'] ['a'] 40 1) ['p'] false,
   .set (tmsg ['a'] ['s'] 7 1) ['t'] true]

example : ((Buf.init 100).run repOps).allFramesReport 50 = .ok
      [⟨['a'], ['w'], ['o'], 3, 100000, 40, 10, some 10, 30⟩,
       ⟨['s'], ['a'], ['t'], 1, 100000, 0, 0, some 50, 0⟩] ∧
    ((Buf.init 100).run repOps).allFramesDot 50 = .ok
      ([⟨['a'], ['w'], ['o'], 3, 100000, 40, 10, some 10, 30⟩,
        ⟨['s'], ['a'], ['t'], 1, 100000, 0, 0, some 50, 0⟩],
       [['y'], ['z'], ['w'], ['v'], ['q']]) ∧
    StampsFit 100 repOps := by
  refine ⟨by decide +kernel, by decide +kernel, ?_⟩
  intro m a s h
  simp only [repOps, List.mem_cons, List.not_mem_nil, or_false, Op.set.injEq, reduceCtorEq, false_or] at h
  rcases h with h | h | h | h | h | h <;> (obtain ⟨rfl, _⟩ := h; decide)

/-- **C62, limit (finding).** A message whose stamp plus the storage duration is past the end of time is
stored although `setTransform` throws; its frame is then listed with "no recorded authority". -/
theorem C62_overflow_finding :
    ∃ b : Buf Int, b = (Buf.init 100).run [.set (tmsg ['w'] ['a'] (TIME_MAX - 50) 1) ['n'] false] ∧
      ((Buf.init 100 : Buf Int).setTransform (tmsg ['w'] ['a'] (TIME_MAX - 50) 1) ['n'] false).2 = .threw ∧
      ∃ r, b.allFramesReport 0 = .ok [r] ∧ r.frame = ['a'] ∧ r.broadcaster = noAuthority :=
  ⟨_, rfl, by decide +kernel, ⟨['a'], ['w'], noAuthority, 1, 100000, TIME_MAX - 50, TIME_MAX - 50, none, 0⟩,
    by decide +kernel, rfl, rfl⟩

end Tf2
