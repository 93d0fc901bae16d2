import Verif.Spec.Cache

namespace Tf2

variable {X : Type}

theorem takeWhile_filter_of_sorted {st : List (Sample X)} (h : NewestFirst st) (t : Time) :
    st.takeWhile (fun e => decide (t < e.stamp)) = st.filter (fun e => decide (t < e.stamp)) := by
  induction st with
  | nil => rfl
  | cons a r ih =>
    rw [NewestFirst, List.pairwise_cons] at h
    by_cases ha : t < a.stamp
    · simp [ha, ih h.2]
    · have : ∀ x ∈ r, ¬ t < x.stamp := fun x hx => by have := h.1 x hx; omega
      simp only [List.takeWhile_cons, ha, decide_false, Bool.false_eq_true, if_false]
      symm
      rw [List.filter_eq_nil_iff]
      intro x hx
      rcases List.mem_cons.1 hx with rfl | hx
      · simp [ha]
      · simpa using this x hx

theorem dropWhile_filter_of_sorted {st : List (Sample X)} (h : NewestFirst st) (t : Time) :
    st.dropWhile (fun e => decide (t < e.stamp)) = st.filter (fun e => decide (e.stamp ≤ t)) := by
  induction st with
  | nil => rfl
  | cons a r ih =>
    rw [NewestFirst, List.pairwise_cons] at h
    by_cases ha : t < a.stamp
    · simp [ha, ih h.2, Nat.not_le.2 ha]
    · have : ∀ x ∈ r, x.stamp ≤ t := fun x hx => by have := h.1 x hx; omega
      simp only [List.dropWhile_cons, ha, decide_false, Bool.false_eq_true, if_false]
      symm
      rw [List.filter_eq_self]
      intro x hx
      rcases List.mem_cons.1 hx with rfl | hx
      · simp; omega
      · simpa using this x hx

theorem NewestFirst.filter {st : List (Sample X)} (h : NewestFirst st) (p) :
    NewestFirst (st.filter p) := List.Pairwise.filter _ h

theorem NewestFirst.sublist {st st' : List (Sample X)} (h : NewestFirst st) (hs : st'.Sublist st) :
    NewestFirst st' := List.Pairwise.sublist hs h

/-- the list before pruning -/
theorem insert_sorted {st : List (Sample X)} (h : NewestFirst st) (s : Sample X)
    (hne : ∀ e ∈ st, e.stamp ≠ s.stamp) :
    NewestFirst (st.filter (fun e => decide (s.stamp < e.stamp)) ++
      s :: st.filter (fun e => decide (e.stamp ≤ s.stamp))) := by
  rw [NewestFirst, List.pairwise_append, List.pairwise_cons]
  refine ⟨h.filter _, ⟨?_, h.filter _⟩, ?_⟩
  · intro a ha
    simp only [List.mem_filter, decide_eq_true_eq] at ha
    have := hne a ha.1
    omega
  · intro a ha b hb
    simp only [List.mem_filter, decide_eq_true_eq, List.mem_cons] at ha hb
    rcases hb with rfl | hb
    · exact ha.2
    · omega

theorem timeAdd_eq_some {t : Time} {D : Duration} {e : Time} (h : timeAdd t D = some e) :
    (e : Int) = t + D := by
  unfold timeAdd at h
  split at h
  · rename_i hh
    injection h with h
    omega
  · cases h

theorem timeAdd_of_repr {t : Time} {D : Duration} (h0 : 0 ≤ (t : Int) + D)
    (h1 : (t : Int) + D ≤ TIME_MAX) : timeAdd t D = some ((t : Int) + D).toNat := by
  unfold timeAdd
  rw [if_pos ⟨h0, h1⟩]

theorem pruneRev_suffix (D : Duration) (l : Time) (r : List (Sample X)) :
    (pruneRev D l r).1 <:+ r := by
  induction r with
  | nil => exact List.suffix_refl _
  | cons b r ih =>
    unfold pruneRev
    split
    · exact List.suffix_refl _
    · split
      · exact ih.trans (List.suffix_cons _ _)
      · exact List.suffix_refl _

theorem pruneList_sublist (D : Duration) (st : List (Sample X)) :
    (pruneList D st).1.Sublist st := by
  unfold pruneList
  split
  · exact List.Sublist.refl _
  · rename_i f r
    have := (pruneRev_suffix D f.stamp (f :: r).reverse).sublist
    simpa using this.reverse

/-- pruning an ascending list keeps exactly the elements inside the window -/
theorem pruneRev_eq_filter {D : Duration} {l : Time} {r : List (Sample X)}
    (hs : r.Pairwise (fun a b => a.stamp < b.stamp))
    (hr : ∀ e ∈ r, 0 ≤ (e.stamp : Int) + D ∧ (e.stamp : Int) + D ≤ TIME_MAX) :
    pruneRev D l r = (r.filter (fun e => decide ((l : Int) ≤ e.stamp + D)), false) := by
  induction r with
  | nil => rfl
  | cons b r ih =>
    rw [List.pairwise_cons] at hs
    have hb := hr b (List.mem_cons_self ..)
    unfold pruneRev
    rw [timeAdd_of_repr hb.1 hb.2]
    simp only
    by_cases hlt : ((b.stamp : Int) + D).toNat < l
    · rw [if_pos hlt, ih hs.2 (fun e he => hr e (List.mem_cons_of_mem _ he))]
      have : ¬ ((l : Int) ≤ b.stamp + D) := by omega
      simp [this]
    · rw [if_neg hlt]
      have h1 : ((l : Int) ≤ b.stamp + D) := by omega
      have h2 : ∀ x ∈ r, ((l : Int) ≤ x.stamp + D) := fun x hx => by
        have := hs.1 x hx; omega
      have : (b :: r).filter (fun e => decide ((l : Int) ≤ e.stamp + D)) = b :: r := by
        rw [List.filter_eq_self]
        intro x hx
        rcases List.mem_cons.1 hx with rfl | hx
        · simpa using h1
        · simpa using h2 x hx
      rw [this]

theorem pruneList_eq_filter {D : Duration} {f : Sample X} {r : List (Sample X)}
    (hs : NewestFirst (f :: r))
    (hr : ∀ e ∈ f :: r, 0 ≤ (e.stamp : Int) + D ∧ (e.stamp : Int) + D ≤ TIME_MAX) :
    pruneList D (f :: r) =
      ((f :: r).filter (fun e => decide ((f.stamp : Int) ≤ e.stamp + D)), false) := by
  unfold pruneList
  simp only
  rw [pruneRev_eq_filter (List.pairwise_reverse.2 hs) (fun e he => hr e (List.mem_reverse.1 he))]
  rw [List.filter_reverse, List.reverse_reverse]

/-- `insertBody` on a sorted list, in terms of filters. -/
theorem insertBody_eq {D : Duration} {st : List (Sample X)} (h : NewestFirst st) (s : Sample X) :
    insertBody D st s =
      if (∃ e ∈ st, e.stamp = s.stamp) then (st, .repeated)
      else
        let r := pruneList D (st.filter (fun e => decide (s.stamp < e.stamp)) ++
          s :: st.filter (fun e => decide (e.stamp ≤ s.stamp)))
        (r.1, if r.2 then .threw else .accepted) := by
  have e1 : (fun e : Sample X => decide (¬ e.stamp ≤ s.stamp)) =
      (fun e => decide (s.stamp < e.stamp)) := by
    funext e; simp
  unfold insertBody
  simp only [e1, takeWhile_filter_of_sorted h, dropWhile_filter_of_sorted h]
  by_cases hex : ∃ e ∈ st, e.stamp = s.stamp
  · rw [if_pos hex]
    obtain ⟨e, he, hes⟩ := hex
    have hmem : e ∈ st.filter (fun e => decide (e.stamp ≤ s.stamp)) := by
      simp [List.mem_filter, he, hes]
    generalize hl : st.filter (fun e => decide (e.stamp ≤ s.stamp)) = l at *
    cases l with
    | nil => cases hmem
    | cons a r =>
      have hsl : NewestFirst (a :: r) := hl ▸ h.filter _
      have hle : a.stamp ≤ s.stamp := by
        have : a ∈ st.filter (fun e => decide (e.stamp ≤ s.stamp)) := hl ▸ List.mem_cons_self ..
        simpa using (List.mem_filter.1 this).2
      have : a.stamp = s.stamp := by
        rcases List.mem_cons.1 hmem with rfl | hm
        · exact hes
        · have := (List.pairwise_cons.1 hsl).1 e hm
          omega
      simp [this]
  · rw [if_neg hex]
    generalize hl : st.filter (fun e => decide (e.stamp ≤ s.stamp)) = l
    cases l with
    | nil => rfl
    | cons a r =>
      have hm : a ∈ st.filter (fun e => decide (e.stamp ≤ s.stamp)) := hl ▸ List.mem_cons_self ..
      have : a.stamp ≠ s.stamp := fun h' => hex ⟨a, (List.mem_filter.1 hm).1, h'⟩
      simp [this]

theorem dynInsert_sorted {D : Duration} {st : List (Sample X)} (h : NewestFirst st)
    (s : Sample X) : NewestFirst (dynInsert D st s).1 := by
  have hb : NewestFirst (insertBody D st s).1 := by
    rw [insertBody_eq h]
    split
    · exact h
    · rename_i hne
      exact (insert_sorted h s (fun e he hs => hne ⟨e, he, hs⟩)).sublist (pruneList_sublist _ _)
  unfold dynInsert
  split
  · exact hb
  · split
    · exact h
    · split
      · exact h
      · exact hb

theorem Cache.run_append (c : Cache X) (o1 o2 : List (CacheOp X)) :
    c.run (o1 ++ o2) = (c.run o1).run o2 := by
  induction o1 generalizing c with
  | nil => rfl
  | cons o r ih => cases o <;> simp [Cache.run, ih]

theorem run_dyn (D : Duration) (ops : List (CacheOp X)) (st : List (Sample X))
    (h : NewestFirst st) : ∃ st', Cache.run (.dyn D st) ops = .dyn D st' ∧ NewestFirst st' := by
  induction ops generalizing st with
  | nil => exact ⟨st, rfl, h⟩
  | cons o r ih =>
    cases o with
    | insert s => exact ih _ (dynInsert_sorted h s)
    | clear => exact ih [] List.Pairwise.nil

theorem ReachableCache.sorted {D : Duration} {st : List (Sample X)} (h : ReachableCache D st) :
    NewestFirst st := by
  obtain ⟨ops, ho⟩ := h
  obtain ⟨st', h1, h2⟩ := run_dyn D ops [] (List.Pairwise.nil)
  rw [ho] at h1
  cases h1
  exact h2

theorem NewestFirst.front_max {f : Sample X} {r : List (Sample X)} (h : NewestFirst (f :: r))
    {x : Sample X} (hx : x ∈ f :: r) : x.stamp ≤ f.stamp := by
  rcases List.mem_cons.1 hx with rfl | hx
  · exact Nat.le_refl _
  · exact Nat.le_of_lt ((List.pairwise_cons.1 h).1 x hx)

theorem NewestFirst.unique {st : List (Sample X)} (h : NewestFirst st) {a b : Sample X}
    (ha : a ∈ st) (hb : b ∈ st) (he : a.stamp = b.stamp) : a = b := by
  induction st with
  | nil => cases ha
  | cons x r ih =>
    have h' := List.pairwise_cons.1 h
    rcases List.mem_cons.1 ha with rfl | ha' <;> rcases List.mem_cons.1 hb with rfl | hb'
    · rfl
    · have := h'.1 b hb'; omega
    · have := h'.1 a ha'; omega
    · exact ih h'.2 ha' hb'

/-- Two newest-first lists with the same members are equal. -/
theorem NewestFirst.ext {s1 s2 : List (Sample X)} (h1 : NewestFirst s1) (h2 : NewestFirst s2)
    (h : ∀ x, x ∈ s1 ↔ x ∈ s2) : s1 = s2 := by
  induction s1 generalizing s2 with
  | nil =>
    cases s2 with
    | nil => rfl
    | cons b r => exact absurd ((h b).2 (List.mem_cons_self ..)) (by simp)
  | cons a r ih =>
    cases s2 with
    | nil => exact absurd ((h a).1 (List.mem_cons_self ..)) (by simp)
    | cons b r2 =>
      have hab : a = b := by
        have e1 := h2.front_max ((h a).1 (List.mem_cons_self ..))
        have e2 := h1.front_max ((h b).2 (List.mem_cons_self ..))
        exact h1.unique (List.mem_cons_self ..) ((h b).2 (List.mem_cons_self ..)) (by omega)
      subst hab
      have h1' := List.pairwise_cons.1 h1
      have h2' := List.pairwise_cons.1 h2
      congr 1
      apply ih h1'.2 h2'.2
      intro x
      constructor
      · intro hx
        rcases List.mem_cons.1 ((h x).1 (List.mem_cons_of_mem _ hx)) with rfl | hx2
        · have := h1'.1 x hx; omega
        · exact hx2
      · intro hx
        rcases List.mem_cons.1 ((h x).2 (List.mem_cons_of_mem _ hx)) with rfl | hx2
        · have := h2'.1 x hx; omega
        · exact hx2

/-- In a window state the front is the newest attempt. -/
theorem IsWindow.front {D : Duration} (hD : 0 ≤ D) {att st : List (Sample X)}
    (h : IsWindow D att st) (hne : att ≠ []) :
    ∃ f r, st = f :: r ∧ (∀ a ∈ att, a.stamp ≤ f.stamp) := by
  -- the newest attempt exists
  obtain ⟨m, hm, hmax⟩ : ∃ m ∈ att, ∀ a ∈ att, a.stamp ≤ m.stamp := by
    clear h
    induction att with
    | nil => exact absurd rfl hne
    | cons a r ih =>
      by_cases hr : r = []
      · subst hr; exact ⟨a, List.mem_cons_self .., by simp⟩
      · obtain ⟨m, hm, hmax⟩ := ih hr
        by_cases hle : a.stamp ≤ m.stamp
        · refine ⟨m, List.mem_cons_of_mem _ hm, ?_⟩
          intro x hx
          rcases List.mem_cons.1 hx with rfl | hx
          · exact hle
          · exact hmax x hx
        · refine ⟨a, List.mem_cons_self .., ?_⟩
          intro x hx
          rcases List.mem_cons.1 hx with rfl | hx
          · exact Nat.le_refl _
          · have := hmax x hx; omega
  -- its first occurrence is stored
  have : ∃ m', FirstWithStamp att m' ∧ m'.stamp = m.stamp := by
    have : (att.find? (fun a => a.stamp == m.stamp)).isSome := by
      rw [List.find?_isSome]; exact ⟨m, hm, by simp⟩
    obtain ⟨m', hm'⟩ := Option.isSome_iff_exists.1 this
    have e : m'.stamp = m.stamp := by simpa using List.find?_some hm'
    exact ⟨m', by unfold FirstWithStamp; rw [e]; exact hm', e⟩
  obtain ⟨m', hf, he⟩ := this
  have hin : m' ∈ st := (h.2 m').2 ⟨hf, fun a ha => by have := hmax a ha; omega⟩
  cases st with
  | nil => cases hin
  | cons f r =>
    refine ⟨f, r, rfl, fun a ha => ?_⟩
    have := h.1.front_max hin
    have := hmax a ha
    omega

theorem firstWithStamp_mem {att : List (Sample X)} {s : Sample X} (h : FirstWithStamp att s) :
    s ∈ att := List.mem_of_find?_eq_some h

theorem firstWithStamp_append {att : List (Sample X)} {s x : Sample X} :
    FirstWithStamp (att ++ [s]) x ↔
      FirstWithStamp att x ∨ ((∀ a ∈ att, a.stamp ≠ s.stamp) ∧ x = s) := by
  unfold FirstWithStamp
  rw [List.find?_append]
  by_cases h : ∃ a ∈ att, a.stamp = x.stamp
  · have : (att.find? (fun a => a.stamp == x.stamp)).isSome := by
      rw [List.find?_isSome]; obtain ⟨a, ha, he⟩ := h; exact ⟨a, ha, by simpa using he⟩
    obtain ⟨y, hy⟩ := Option.isSome_iff_exists.1 this
    rw [hy]
    simp only [Option.some_or]
    constructor
    · exact Or.inl
    · rintro (h' | ⟨h1, rfl⟩)
      · exact h'
      · obtain ⟨a, ha, he⟩ := h; exact absurd he (h1 a ha)
  · have hn : att.find? (fun a => a.stamp == x.stamp) = none := by
      rw [List.find?_eq_none]; intro a ha; simp; exact fun he => h ⟨a, ha, he⟩
    rw [hn]
    simp only [Option.none_or, reduceCtorEq, false_or, List.find?_singleton]
    by_cases hx : s.stamp = x.stamp
    · simp only [hx, beq_self_eq_true, if_true, Option.some.injEq]
      constructor
      · rintro rfl
        exact ⟨fun a ha he => h ⟨a, ha, he⟩, rfl⟩
      · rintro ⟨_, rfl⟩; rfl
    · have : (s.stamp == x.stamp) = false := by simpa using hx
      simp only [this, Bool.false_eq_true, if_false, reduceCtorEq, false_iff, not_and]
      rintro _ rfl
      exact hx rfl

/-- One insertion keeps the window specification. -/
theorem IsWindow.insert {D : Duration} (hD : 0 ≤ D) {att st : List (Sample X)} (s : Sample X)
    (h : IsWindow D att st) (hr : Representable D (att ++ [s])) :
    IsWindow D (att ++ [s]) (dynInsert D st s).1 ∧ (dynInsert D st s).2 ≠ .threw := by
  have hsr := hr s (by simp)
  have hatt : ∀ a ∈ st, a ∈ att := fun a ha => firstWithStamp_mem ((h.2 a).1 ha).1
  -- description of the inserted, pruned list
  have key : (∀ e ∈ st, e.stamp ≠ s.stamp) → (∀ a ∈ att, (a.stamp : Int) ≤ s.stamp + D) →
      insertBody D st s =
        ((st.filter (fun e => decide (s.stamp < e.stamp)) ++
          s :: st.filter (fun e => decide (e.stamp ≤ s.stamp))).filter
            (fun e => decide ((s.stamp : Int) ≤ e.stamp + D)), .accepted) := by
    intro hne hlim
    rw [insertBody_eq h.1, if_neg (by rintro ⟨e, he, hs⟩; exact hne e he hs)]
    have hsl := insert_sorted h.1 s hne
    have hmem : ∀ e ∈ (st.filter (fun e => decide (s.stamp < e.stamp)) ++
          s :: st.filter (fun e => decide (e.stamp ≤ s.stamp))), e ∈ st ∨ e = s := by
      intro e he
      simp only [List.mem_append, List.mem_filter, List.mem_cons] at he
      rcases he with ⟨h', _⟩ | rfl | ⟨h', _⟩
      · exact Or.inl h'
      · exact Or.inr rfl
      · exact Or.inl h'
    generalize hL : (st.filter (fun e => decide (s.stamp < e.stamp)) ++
          s :: st.filter (fun e => decide (e.stamp ≤ s.stamp))) = L at *
    have hsL : s ∈ L := by rw [← hL]; simp
    cases L with
    | nil => cases hsL
    | cons f r =>
      have hrep : ∀ e ∈ f :: r, 0 ≤ (e.stamp : Int) + D ∧ (e.stamp : Int) + D ≤ TIME_MAX := by
        intro e he
        rcases hmem e he with h' | rfl
        · exact hr e (by simp [hatt e h'])
        · exact hsr
      rw [pruneList_eq_filter hsl hrep]
      simp only [Bool.false_eq_true, if_false, Prod.mk.injEq, and_true]
      -- f is s or an old front; both filters agree
      have hfs : s.stamp ≤ f.stamp := hsl.front_max hsL
      apply List.filter_congr
      intro e he
      simp only [decide_eq_decide]
      constructor
      · intro h'; omega
      · intro h'
        rcases hmem f (List.mem_cons_self ..) with hf | rfl
        · rcases hmem e he with h1 | rfl
          · exact ((h.2 e).1 h1).2 f (hatt f hf)
          · exact hlim f (hatt f hf)
        · exact h'
  have step : (∀ e ∈ st, e.stamp ≠ s.stamp) → (∀ a ∈ att, (a.stamp : Int) ≤ s.stamp + D) →
      IsWindow D (att ++ [s]) (insertBody D st s).1 := by
    intro hne hlim
    refine ⟨?_, ?_⟩
    · rw [key hne hlim]; exact (insert_sorted h.1 s hne).filter _
    · rw [key hne hlim]
      intro x
      simp only [List.mem_filter, List.mem_append, List.mem_cons, decide_eq_true_eq]
      rw [firstWithStamp_append]
      -- an attempt with s's stamp would be stored
      have hatts : ∀ a ∈ att, a.stamp ≠ s.stamp := by
        intro a ha he
        have : (att.find? (fun b => b.stamp == a.stamp)).isSome := by
          rw [List.find?_isSome]; exact ⟨a, ha, by simp⟩
        obtain ⟨y, hy⟩ := Option.isSome_iff_exists.1 this
        have e : y.stamp = a.stamp := by simpa using List.find?_some hy
        have : y ∈ st := (h.2 y).2 ⟨by unfold FirstWithStamp; rw [e]; exact hy,
          fun b hb => by have := hlim b hb; omega⟩
        exact hne y this (by omega)
      constructor
      · rintro ⟨hx, hw⟩
        have hx' : x ∈ st ∨ x = s := by
          rcases hx with ⟨h', _⟩ | rfl | ⟨h', _⟩
          · exact Or.inl h'
          · exact Or.inr rfl
          · exact Or.inl h'
        rcases hx' with hx | rfl
        · have := (h.2 x).1 hx
          refine ⟨Or.inl this.1, ?_⟩
          intro a ha
          rcases List.mem_append.1 ha with ha | ha
          · exact this.2 a ha
          · simp at ha; subst ha; exact hw
        · refine ⟨Or.inr ⟨hatts, rfl⟩, ?_⟩
          intro a ha
          rcases List.mem_append.1 ha with ha | ha
          · exact hlim a ha
          · simp at ha; subst ha; omega
      · rintro ⟨hx, hw⟩
        have hs := hw s (by simp)
        refine ⟨?_, hs⟩
        rcases hx with hx | ⟨_, rfl⟩
        · have : x ∈ st := (h.2 x).2 ⟨hx, fun a ha => hw a (by simp [ha])⟩
          by_cases hlt : s.stamp < x.stamp
          · exact Or.inl ⟨this, hlt⟩
          · exact Or.inr (Or.inr ⟨this, by omega⟩)
        · exact Or.inr (Or.inl rfl)
  -- an attempt that is refused does not change the window
  have refused : ((∃ e ∈ st, e.stamp = s.stamp) ∨
      (∃ f ∈ st, (s.stamp : Int) + D < f.stamp)) → IsWindow D (att ++ [s]) st := by
    intro href
    refine ⟨h.1, fun x => ?_⟩
    rw [firstWithStamp_append, h.2 x]
    have hmax : ∃ f ∈ st, s.stamp ≤ f.stamp := by
      rcases href with ⟨e, he, hs⟩ | ⟨f, hf, hlt⟩
      · exact ⟨e, he, by omega⟩
      · exact ⟨f, hf, by omega⟩
    obtain ⟨f, hf, hfs⟩ := hmax
    constructor
    · rintro ⟨h1, h2⟩
      refine ⟨Or.inl h1, ?_⟩
      intro a ha
      rcases List.mem_append.1 ha with ha | ha
      · exact h2 a ha
      · simp at ha; subst ha
        have := h2 f (hatt f hf); omega
    · rintro ⟨h1, h2⟩
      rcases h1 with h1 | ⟨h1, rfl⟩
      · exact ⟨h1, fun a ha => h2 a (by simp [ha])⟩
      · rcases href with ⟨e, he, hs⟩ | ⟨f, hf, hlt⟩
        · exact absurd hs (h1 e (hatt e he))
        · have := h2 f (by simp [hatt f hf]); omega
  have body : (∀ a ∈ att, (a.stamp : Int) ≤ s.stamp + D) →
      IsWindow D (att ++ [s]) (insertBody D st s).1 ∧ (insertBody D st s).2 ≠ .threw := by
    intro hlim
    by_cases hex : ∃ e ∈ st, e.stamp = s.stamp
    · have : insertBody D st s = (st, .repeated) := by rw [insertBody_eq h.1, if_pos hex]
      rw [this]; exact ⟨refused (Or.inl hex), by simp⟩
    · have hne : ∀ e ∈ st, e.stamp ≠ s.stamp := fun e he hs => hex ⟨e, he, hs⟩
      exact ⟨step hne hlim, by rw [key hne hlim]; simp⟩
  unfold dynInsert
  split
  · apply body
    by_cases ha : att = []
    · subst ha; simp
    · obtain ⟨f, r, hh, _⟩ := h.front hD ha; cases hh
  · rename_i front rest
    rw [timeAdd_of_repr hsr.1 hsr.2]
    simp only
    split
    · rename_i hlt
      exact ⟨refused (Or.inr ⟨front, List.mem_cons_self .., by omega⟩), by simp⟩
    · rename_i hlt
      apply body
      intro a ha
      obtain ⟨f, r, hh, hmax⟩ := h.front hD (List.ne_nil_of_mem ha)
      cases hh
      have := hmax a ha
      omega

/-! ### Window specification along histories -/

theorem attempts_append (o : List (CacheOp X)) (op : CacheOp X) (acc : List (Sample X)) :
    attempts (o ++ [op]) acc =
      match op with
      | .insert s => attempts o acc ++ [s]
      | .clear => [] := by
  induction o generalizing acc with
  | nil => cases op <;> rfl
  | cons a r ih => cases a <;> simp [attempts, ih]

/-- every stamp ever given to the cache plus `D` is representable -/
def AllRepr (D : Duration) (ops : List (CacheOp X)) : Prop :=
  ∀ s, CacheOp.insert s ∈ ops → 0 ≤ (s.stamp : Int) + D ∧ (s.stamp : Int) + D ≤ TIME_MAX

theorem mem_attempts {ops : List (CacheOp X)} {acc : List (Sample X)} {s : Sample X}
    (h : s ∈ attempts ops acc) : CacheOp.insert s ∈ ops ∨ s ∈ acc := by
  induction ops generalizing acc with
  | nil => exact Or.inr h
  | cons o r ih =>
    cases o with
    | insert a =>
      rcases ih h with h' | h'
      · exact Or.inl (List.mem_cons_of_mem _ h')
      · rcases List.mem_append.1 h' with h' | h'
        · exact Or.inr h'
        · simp at h'; subst h'; exact Or.inl (List.mem_cons_self ..)
    | clear =>
      rcases ih h with h' | h'
      · exact Or.inl (List.mem_cons_of_mem _ h')
      · cases h'

theorem IsWindow.nil (D : Duration) : IsWindow D ([] : List (Sample X)) [] :=
  ⟨List.Pairwise.nil, fun s => by simp [FirstWithStamp]⟩

theorem run_window {D : Duration} (hD : 0 ≤ D) (ops : List (CacheOp X)) (hr : AllRepr D ops) :
    ∀ att st, IsWindow D att st →
      Representable D att →
      ∃ st', Cache.run (.dyn D st) ops = .dyn D st' ∧ IsWindow D (attempts ops att) st' := by
  induction ops with
  | nil => intro att st h _; exact ⟨st, rfl, h⟩
  | cons o r ih =>
    intro att st h hra
    have hr' : AllRepr D r := fun s hs => hr s (List.mem_cons_of_mem _ hs)
    cases o with
    | insert s =>
      have hrep : Representable D (att ++ [s]) := by
        intro a ha
        rcases List.mem_append.1 ha with ha | ha
        · exact hra a ha
        · simp at ha; subst ha; exact hr a (List.mem_cons_self ..)
      exact ih hr' _ _ (h.insert hD s hrep).1 hrep
    | clear =>
      exact ih hr' [] [] (IsWindow.nil D) (by intro a ha; cases ha)

end Tf2
