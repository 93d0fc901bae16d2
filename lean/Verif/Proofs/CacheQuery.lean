import Verif.Proofs.Cache

namespace Tf2

variable {X : Type}

theorem adjacent_split {st : List (Sample X)} (h : NewestFirst st) {o n : Sample X}
    (ha : Adjacent st o n) : ∃ p q, st = p ++ n :: o :: q := by
  obtain ⟨ho, hn, hlt, hadj⟩ := ha
  obtain ⟨p, r, rfl⟩ := List.append_of_mem hn
  have hp := List.pairwise_append.1 h
  have hor : o ∈ r := by
    rcases List.mem_append.1 ho with ho' | ho'
    · have := hp.2.2 o ho' n (List.mem_cons_self ..); omega
    · rcases List.mem_cons.1 ho' with rfl | ho'
      · omega
      · exact ho'
  cases r with
  | nil => cases hor
  | cons x q =>
    refine ⟨p, q, ?_⟩
    have hnr := List.pairwise_cons.1 hp.2.1
    have hx := hnr.1 x (List.mem_cons_self ..)
    have : o = x := by
      rcases List.mem_cons.1 hor with rfl | hoq
      · rfl
      · have h1 := (List.pairwise_cons.1 hnr.2).1 o hoq
        rcases hadj x (by simp) with h2 | h2 <;> omega
    rw [this]

theorem split_adjacent {p q : List (Sample X)} {o n : Sample X}
    (h : NewestFirst (p ++ n :: o :: q)) : Adjacent (p ++ n :: o :: q) o n := by
  have hp := List.pairwise_append.1 h
  have hn := List.pairwise_cons.1 hp.2.1
  have ho := List.pairwise_cons.1 hn.2
  refine ⟨by simp, by simp, hn.1 o (List.mem_cons_self ..), ?_⟩
  intro s hs
  rcases List.mem_append.1 hs with hs | hs
  · have := hp.2.2 s hs n (List.mem_cons_self ..); right; omega
  · rcases List.mem_cons.1 hs with rfl | hs
    · right; omega
    · rcases List.mem_cons.1 hs with rfl | hs
      · left; omega
      · have := ho.1 s hs; left; omega

theorem exists_adjacent {st : List (Sample X)} (h : NewestFirst st) (t : Time)
    (hlo : ∃ s ∈ st, s.stamp ≤ t) (hhi : ∃ s ∈ st, t < s.stamp) :
    ∃ o n, Adjacent st o n ∧ o.stamp ≤ t ∧ t < n.stamp := by
  have hsplit := List.takeWhile_append_dropWhile (p := fun e : Sample X => decide (t < e.stamp)) (l := st)
  rw [takeWhile_filter_of_sorted h, dropWhile_filter_of_sorted h] at hsplit
  generalize hp : st.filter (fun e => decide (t < e.stamp)) = p at hsplit
  generalize hq : st.filter (fun e => decide (e.stamp ≤ t)) = q at hsplit
  have hpne : p ≠ [] := by
    obtain ⟨s, hs, hlt⟩ := hhi
    exact List.ne_nil_of_mem (hp ▸ List.mem_filter.2 ⟨hs, by simpa using hlt⟩)
  have hqne : q ≠ [] := by
    obtain ⟨s, hs, hle⟩ := hlo
    exact List.ne_nil_of_mem (hq ▸ List.mem_filter.2 ⟨hs, by simpa using hle⟩)
  obtain ⟨o, q', rfl⟩ := List.exists_cons_of_ne_nil hqne
  obtain ⟨p', n, rfl⟩ : ∃ p' n, p = p' ++ [n] :=
    ⟨p.dropLast, p.getLast hpne, (List.dropLast_concat_getLast hpne).symm⟩
  have hst : st = p' ++ n :: o :: q' := by rw [← hsplit]; simp
  have ho : o ∈ st.filter (fun e => decide (e.stamp ≤ t)) := hq ▸ List.mem_cons_self ..
  have hn : n ∈ st.filter (fun e => decide (t < e.stamp)) := hp ▸ (by simp)
  refine ⟨o, n, ?_, by simpa using (List.mem_filter.1 ho).2, by simpa using (List.mem_filter.1 hn).2⟩
  rw [hst] at h ⊢
  exact split_adjacent h

theorem lowerBound_split {p q : List (Sample X)} {o n : Sample X} {t : Time}
    (h : NewestFirst (p ++ n :: o :: q)) (h1 : o.stamp ≤ t) (h2 : t < n.stamp) :
    lowerBound (p ++ n :: o :: q) t = some (p.length + 1) := by
  have hp := List.pairwise_append.1 h
  have hn := List.pairwise_cons.1 hp.2.1
  have ho := List.pairwise_cons.1 hn.2
  have htake : (p ++ n :: o :: q).takeWhile (fun s => decide (t < s.stamp)) = p ++ [n] := by
    rw [List.takeWhile_append_of_pos]
    · simp [h2, Nat.not_lt.2 h1]
    · intro a ha
      have := hp.2.2 a ha n (List.mem_cons_self ..)
      simp; omega
  unfold lowerBound
  simp only [htake, List.length_append, List.length_cons, List.length_nil]
  have hdrop : (p ++ n :: o :: q).drop (p.length + (0 + 1)) = o :: q := by
    have : p ++ n :: o :: q = (p ++ [n]) ++ o :: q := by simp
    rw [this, List.drop_left' (by simp)]
  rw [hdrop]
  have hall : (o :: q).all (fun s => decide (¬ t < s.stamp)) = true := by
    rw [List.all_eq_true]
    intro s hs
    rcases List.mem_cons.1 hs with rfl | hs
    · simp; exact h1
    · have := ho.1 s hs; simp; omega
  rw [if_pos hall]

theorem getLast_min {st : List (Sample X)} (h : NewestFirst st) (hne : st ≠ []) {s : Sample X}
    (hs : s ∈ st) : (st.getLast hne).stamp ≤ s.stamp := by
  have hsplit := List.dropLast_concat_getLast hne
  rw [← hsplit] at hs h
  have hp := List.pairwise_append.1 h
  rcases List.mem_append.1 hs with hs | hs
  · exact Nat.le_of_lt (hp.2.2 s hs _ (List.mem_singleton.2 rfl))
  · rw [List.mem_singleton.1 hs]; exact Nat.le_refl _

/-- The pair found by `findClosest` when the time lies between two adjacent stamps. -/
theorem findClosest_between {st : List (Sample X)} (h : NewestFirst st) {o n : Sample X}
    (ha : Adjacent st o n) {t : Time} (ht : t ≠ 0) (h1 : o.stamp ≤ t) (h2 : t < n.stamp) :
    findClosest st t = .two o n ∨ (t = o.stamp ∧ findClosest st t = .one o) := by
  obtain ⟨p, q, rfl⟩ := adjacent_split h ha
  -- expose the first two elements
  have hlb := lowerBound_split h h1 h2
  have hget1 : (p ++ n :: o :: q)[p.length + 1]? = some o := by
    rw [List.getElem?_append_right (by omega)]
    have : p.length + 1 - p.length = 1 := by omega
    rw [this]; rfl
  have hget0 : (p ++ n :: o :: q)[p.length]? = some n := by
    rw [List.getElem?_append_right (by omega)]; simp
  have hlast := fun hne : p ++ n :: o :: q ≠ [] => getLast_min h hne (s := o) (by simp)
  obtain ⟨f, s2, r, hst⟩ : ∃ f s2 r, p ++ n :: o :: q = f :: s2 :: r := by
    cases p with
    | nil => exact ⟨n, o, q, rfl⟩
    | cons a p =>
      cases p with
      | nil => exact ⟨a, n, _, rfl⟩
      | cons b p => exact ⟨a, b, _, rfl⟩
  have hfront : n.stamp ≤ f.stamp := by
    have : n ∈ f :: s2 :: r := hst ▸ (by simp)
    exact NewestFirst.front_max (hst ▸ h) this
  have hgl : (s2 :: r).getLast (List.cons_ne_nil _ _) =
      (p ++ n :: o :: q).getLast (by simp) := by
    simp only [hst, List.getLast_cons_cons]
  have hlast' := hlast (by simp)
  rw [← hgl] at hlast'
  have hmem : (s2 :: r).getLast (List.cons_ne_nil _ _) ∈ p ++ n :: o :: q := by
    rw [hgl]; exact List.getLast_mem _
  rw [hst] at hlb hget1 hget0 hmem
  rw [hst]
  unfold findClosest
  simp only [ht, if_false]
  rw [if_neg (by omega)]
  by_cases hb : t = ((s2 :: r).getLast (List.cons_ne_nil _ _)).stamp
  · rw [if_pos hb]
    right
    have : (s2 :: r).getLast (List.cons_ne_nil _ _) = o := by
      apply NewestFirst.unique (hst ▸ h) hmem
      · rw [← hst]; simp
      · omega
    rw [this]
    exact ⟨by rw [← this]; exact hb, rfl⟩
  · rw [if_neg hb, if_neg (by omega), if_neg (by omega), hlb]
    left
    simp only [hget1, hget0]

theorem findClosest_front {f : Sample X} {r : List (Sample X)} :
    findClosest (f :: r) f.stamp = .one f := by
  cases r <;> simp [findClosest]

theorem findClosest_zero {f : Sample X} {r : List (Sample X)} :
    findClosest (f :: r) 0 = .one f := rfl

theorem findClosest_late {f : Sample X} {r : List (Sample X)} (h : NewestFirst (f :: r)) {t : Time}
    (ht : f.stamp < t) : findClosest (f :: r) t = .zero := by
  have ht0 : t ≠ 0 := by omega
  unfold findClosest
  simp only [ht0, if_false]
  cases r with
  | nil => simp only; rw [if_neg (by omega)]
  | cons s r =>
    simp only
    have : ((s :: r).getLast (List.cons_ne_nil _ _)).stamp ≤ f.stamp :=
      NewestFirst.front_max h (List.mem_cons_of_mem _ (List.getLast_mem _))
    rw [if_neg (by omega), if_neg (by omega), if_pos ht]

theorem findClosest_early {f : Sample X} {r : List (Sample X)} (h : NewestFirst (f :: r)) {t : Time}
    (ht0 : t ≠ 0) (ht : ∀ s ∈ f :: r, t < s.stamp) : findClosest (f :: r) t = .zero := by
  have hf := ht f (List.mem_cons_self ..)
  unfold findClosest
  simp only [ht0, if_false]
  cases r with
  | nil => simp only; rw [if_neg (by omega)]
  | cons s r =>
    simp only
    have := ht _ (List.mem_cons_of_mem _ (List.getLast_mem (List.cons_ne_nil s r)))
    rw [if_neg (by omega), if_neg (by omega), if_neg (by omega), if_pos this]

/-- Complete case analysis of `findClosest` on a sorted list. -/
theorem findClosest_cases {st : List (Sample X)} (h : NewestFirst st) (t : Time) :
    (st = [] ∧ findClosest st t = .zero) ∨
    (∃ f r, st = f :: r ∧ t = 0 ∧ findClosest st t = .one f) ∨
    (t ≠ 0 ∧ ∃ s ∈ st, t = s.stamp ∧ findClosest st t = .one s) ∨
    (t ≠ 0 ∧ ∃ o n, Adjacent st o n ∧ o.stamp ≤ t ∧ t < n.stamp ∧ findClosest st t = .two o n) ∨
    (t ≠ 0 ∧ ((∀ s ∈ st, t < s.stamp) ∨ (∀ s ∈ st, s.stamp < t)) ∧ findClosest st t = .zero) := by
  cases st with
  | nil => exact Or.inl ⟨rfl, rfl⟩
  | cons f r =>
    by_cases ht0 : t = 0
    · subst ht0; exact Or.inr (Or.inl ⟨f, r, rfl, rfl, rfl⟩)
    · by_cases h1 : f.stamp < t
      · refine Or.inr (Or.inr (Or.inr (Or.inr ⟨ht0, Or.inr ?_, findClosest_late h h1⟩)))
        intro s hs; have := h.front_max hs; omega
      · by_cases h2 : t = f.stamp
        · refine Or.inr (Or.inr (Or.inl ⟨ht0, f, List.mem_cons_self .., h2, ?_⟩))
          rw [h2]; exact findClosest_front
        · by_cases h3 : ∃ s ∈ f :: r, s.stamp ≤ t
          · obtain ⟨o, n, hadj, ho, hn⟩ := exists_adjacent h t h3 ⟨f, List.mem_cons_self .., by omega⟩
            rcases findClosest_between h hadj ht0 ho hn with hh | ⟨ht, hh⟩
            · exact Or.inr (Or.inr (Or.inr (Or.inl ⟨ht0, o, n, hadj, ho, hn, hh⟩)))
            · exact Or.inr (Or.inr (Or.inl ⟨ht0, o, hadj.1, ht, hh⟩))
          · have h3' : ∀ s ∈ f :: r, t < s.stamp := by
              intro s hs
              exact Nat.lt_of_not_le fun hle => h3 ⟨s, hs, hle⟩
            exact Or.inr (Or.inr (Or.inr (Or.inr ⟨ht0, Or.inl h3', findClosest_early h ht0 h3'⟩)))

theorem Adjacent.unique {st : List (Sample X)} (h : NewestFirst st) {o n o' n' : Sample X} {t : Time}
    (h1 : Adjacent st o n) (h2 : Adjacent st o' n') (ho : o.stamp ≤ t) (hn : t < n.stamp)
    (ho' : o'.stamp ≤ t) (hn' : t < n'.stamp) : o = o' ∧ n = n' := by
  have a := h1.2.2.2
  have b := h2.2.2.2
  constructor
  · apply h.unique h1.1 h2.1
    rcases a o' h2.1 with h' | h' <;> rcases b o h1.1 with h'' | h'' <;> omega
  · apply h.unique h1.2.1 h2.2.1
    rcases a n' h2.2.1 with h' | h' <;> rcases b n h1.2.1 with h'' | h'' <;> omega

end Tf2
