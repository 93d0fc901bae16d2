import Verif.Proofs.CacheQuery
import Verif.Spec.Toy

/-!
# Properties of the transform caches: C01, C02, C03, C04, C05 (discrete part), C07
-/
namespace Tf2

variable {X : Type}

/-- **C01.** After any history of insertions and clears the cache (storage duration `D ≥ 0`, every
`stamp + D` representable) holds exactly the attempted samples of the window, newest first; the
reported length, latest and oldest stamps are those of that set. -/
theorem C01_cache_window {D : Duration} (hD : 0 ≤ D) (ops : List (CacheOp X))
    (hr : ∀ s, CacheOp.insert s ∈ ops → 0 ≤ (s.stamp : Int) + D ∧ (s.stamp : Int) + D ≤ TIME_MAX) :
    ∃ st, Cache.run (.dyn D []) ops = .dyn D st ∧
      IsWindow D (attempts ops []) st ∧
      (Cache.dyn D st).listLength = st.length ∧
      (∀ s ∈ st, (Cache.dyn D st).oldestStamp ≤ s.stamp ∧ s.stamp ≤ (Cache.dyn D st).latestStamp) ∧
      (st ≠ [] → (∃ s ∈ st, s.stamp = (Cache.dyn D st).latestStamp) ∧
        (∃ s ∈ st, s.stamp = (Cache.dyn D st).oldestStamp)) := by
  obtain ⟨st, h1, h2⟩ := run_window hD ops hr [] [] (IsWindow.nil D) (by intro a ha; cases ha)
  refine ⟨st, h1, h2, rfl, ?_, ?_⟩
  · intro s hs
    cases st with
    | nil => cases hs
    | cons f r =>
      refine ⟨?_, h2.1.front_max hs⟩
      have := getLast_min h2.1 (List.cons_ne_nil f r) hs
      simpa [Cache.oldestStamp, dynOldestStamp, List.getLast?_eq_some_getLast] using this
  · intro hne
    cases st with
    | nil => exact absurd rfl hne
    | cons f r =>
      refine ⟨⟨f, List.mem_cons_self .., rfl⟩, (f :: r).getLast hne, List.getLast_mem _, ?_⟩
      simp [Cache.oldestStamp, dynOldestStamp, List.getLast?_eq_some_getLast]

/-- Concrete case for C01: out-of-order arrivals, a repeated stamp, one sample that falls out of the
window, one that arrives too old. -/
example : Cache.run (.dyn 10 [])
    [.insert (smp 5 1 2 0), .insert (smp 9 1 2 1), .insert (smp 9 1 2 7), .insert (smp 7 1 2 2),
     .insert (smp 17 1 2 3), .insert (smp 6 1 2 4)]
    = .dyn 10 [smp 17 1 2 3, smp 9 1 2 1, smp 7 1 2 2] := by decide

/-- **C01, negative duration.** With a negative storage duration nothing is ever kept. -/
theorem C01_negative_duration {D : Duration} (hD : D < 0) (ops : List (CacheOp X))
    (hr : ∀ s, CacheOp.insert s ∈ ops → 0 ≤ (s.stamp : Int) + D ∧ (s.stamp : Int) + D ≤ TIME_MAX) :
    Cache.run (.dyn D []) ops = .dyn D [] := by
  induction ops with
  | nil => rfl
  | cons o r ih =>
    have ih := ih (fun s hs => hr s (List.mem_cons_of_mem _ hs))
    cases o with
    | clear => exact ih
    | insert s =>
      have hs := hr s (List.mem_cons_self ..)
      have : dynInsert D [] s = ([], .accepted) := by
        simp only [dynInsert, insertBody, List.takeWhile_nil, List.dropWhile_nil, List.nil_append,
          pruneList, List.reverse_cons, List.reverse_nil, pruneRev, timeAdd_of_repr hs.1 hs.2]
        rw [if_pos (by omega)]
        simp
      simp only [Cache.run, Cache.insert, this]
      exact ih

example : Cache.run (.dyn (-1) []) [.insert (smp 5 1 2 0), .insert (smp 9 1 2 1)] = .dyn (-1) [] := by
  decide

/-- **C02.** Inserting samples with distinct stamps in any order leaves the same cache, so every
later query (`getData`, `getParent`, latest, oldest, length) answers the same. -/
theorem C02_order_independent {D : Duration} (hD : 0 ≤ D) (l1 l2 : List (Sample X))
    (hperm : l1.Perm l2) (hdist : l1.Pairwise (fun a b => a.stamp ≠ b.stamp))
    (hr : ∀ s ∈ l1, 0 ≤ (s.stamp : Int) + D ∧ (s.stamp : Int) + D ≤ TIME_MAX) :
    Cache.run (.dyn D []) (l1.map .insert) = Cache.run (.dyn D []) (l2.map .insert) := by
  have att : ∀ (l acc : List (Sample X)), attempts (l.map .insert) acc = acc ++ l := by
    intro l
    induction l with
    | nil => intro acc; simp [attempts]
    | cons a r ih => intro acc; simp [attempts, ih]
  have all : ∀ l : List (Sample X),
      (∀ s ∈ l, 0 ≤ (s.stamp : Int) + D ∧ (s.stamp : Int) + D ≤ TIME_MAX) →
      AllRepr D (l.map CacheOp.insert) := by
    intro l h s hs
    obtain ⟨a, ha, he⟩ := List.mem_map.1 hs
    injection he with he; subst he
    exact h a ha
  have first : ∀ l : List (Sample X), l.Pairwise (fun a b => a.stamp ≠ b.stamp) →
      ∀ s, FirstWithStamp l s ↔ s ∈ l := by
    intro l hl s
    constructor
    · exact firstWithStamp_mem
    · intro hs
      unfold FirstWithStamp
      induction l with
      | nil => cases hs
      | cons a r ih =>
        have hl' := List.pairwise_cons.1 hl
        rcases List.mem_cons.1 hs with rfl | hs'
        · simp
        · have := hl'.1 s hs'
          simp [this, ih hl'.2 hs']
  have hdist2 : l2.Pairwise (fun a b => a.stamp ≠ b.stamp) :=
    (hperm.pairwise_iff (fun h => Ne.symm h)).1 hdist
  obtain ⟨s1, e1, w1⟩ := run_window hD _ (all l1 hr) [] [] (IsWindow.nil D) (by intro a ha; cases ha)
  obtain ⟨s2, e2, w2⟩ := run_window hD _ (all l2 (fun s hs => hr s (hperm.mem_iff.2 hs))) [] []
    (IsWindow.nil D) (by intro a ha; cases ha)
  rw [e1, e2]
  congr 1
  apply NewestFirst.ext w1.1 w2.1
  intro x
  rw [w1.2, w2.2, att, att, List.nil_append, List.nil_append, first l1 hdist, first l2 hdist2,
    hperm.mem_iff]
  simp only [InWindow, hperm.mem_iff]

example : Cache.run (.dyn 10 []) ([smp 5 1 2 0, smp 9 1 2 1, smp 17 1 2 3].map .insert) =
    Cache.run (.dyn 10 []) ([smp 17 1 2 3, smp 5 1 2 0, smp 9 1 2 1].map .insert) := by decide

/-- **C03.** On a cache in any reachable state an insertion (with `stamp + D` representable) is
refused as too old exactly when some stored stamp exceeds `stamp + D`, refused as repeated exactly
when it is not too old and its stamp is stored, and a refused insertion changes nothing. -/
theorem C03_rejection {D : Duration} {st : List (Sample X)} (h : ReachableCache D st)
    (s : Sample X) (hr : 0 ≤ (s.stamp : Int) + D ∧ (s.stamp : Int) + D ≤ TIME_MAX) :
    ((dynInsert D st s).2 = .tooOld ↔ ∃ f ∈ st, (s.stamp : Int) + D < f.stamp) ∧
    ((dynInsert D st s).2 = .repeated ↔
      (¬ ∃ f ∈ st, (s.stamp : Int) + D < f.stamp) ∧ ∃ e ∈ st, e.stamp = s.stamp) ∧
    ((dynInsert D st s).2 = .tooOld ∨ (dynInsert D st s).2 = .repeated → (dynInsert D st s).1 = st)
    := by
  have hs := h.sorted
  have hb := insertBody_eq (D := D) hs s
  cases st with
  | nil =>
    simp only [dynInsert, hb]
    simp only [List.not_mem_nil, false_and, exists_false, if_false, iff_false, not_false_eq_true,
      and_false]
    refine ⟨?_, ?_, ?_⟩
    · split <;> simp
    · split <;> simp
    · split <;> simp
  | cons f r =>
    have hlim : (∃ g ∈ f :: r, (s.stamp : Int) + D < g.stamp) ↔ (s.stamp : Int) + D < f.stamp := by
      constructor
      · rintro ⟨g, hg, hlt⟩; have := hs.front_max hg; omega
      · intro h'; exact ⟨f, List.mem_cons_self .., h'⟩
    rw [hlim]
    simp only [dynInsert, timeAdd_of_repr hr.1 hr.2]
    by_cases hold : (s.stamp : Int) + D < f.stamp
    · rw [if_pos (by omega)]; simp [hold]
    · rw [if_neg (by omega), hb]
      by_cases hex : ∃ e ∈ f :: r, e.stamp = s.stamp
      · rw [if_pos hex]; simp only [hold, hex]; simp
      · rw [if_neg hex]; simp only [hold, hex]
        refine ⟨?_, ?_, ?_⟩
        · simp only [iff_false]; split <;> simp
        · simp only [and_false, iff_false]; split <;> simp
        · split <;> simp

/-- C03: both refusals happen. -/
example : ReachableCache 10 [smp 17 1 2 3, smp 9 1 2 1] :=
  ⟨[.insert (smp 9 1 2 1), .insert (smp 17 1 2 3)], by decide⟩
example : (dynInsert 10 [smp 17 1 2 3, smp 9 1 2 1] (smp 6 1 2 0)).2 = .tooOld := by decide
example : (dynInsert 10 [smp 17 1 2 3, smp 9 1 2 1] (smp 7 1 2 0)).2 = .accepted := by decide
example : (dynInsert 10 [smp 17 1 2 3, smp 9 1 2 1] (smp 9 3 2 0)).2 = .repeated := by decide

/-- **C03, converse.** With `D ≥ 0` an accepted sample is stored. -/
theorem C03_accepted_stored {D : Duration} (hD : 0 ≤ D) {st : List (Sample X)}
    (h : ReachableCache D st) (s : Sample X) (ha : (dynInsert D st s).2 = .accepted) :
    s ∈ (dynInsert D st s).1 := by
  have hs := h.sorted
  have body : (insertBody D st s).2 = .accepted → (∀ f ∈ st, (f.stamp : Int) ≤ s.stamp + D) →
      s ∈ (insertBody D st s).1 := by
    intro hacc hlim
    rw [insertBody_eq hs] at hacc ⊢
    split at hacc
    · cases hacc
    · rename_i hne
      rw [if_neg hne]
      have hsl := insert_sorted hs s (fun e he hh => hne ⟨e, he, hh⟩)
      have hmem : ∀ e ∈ (st.filter (fun e => decide (s.stamp < e.stamp)) ++
          s :: st.filter (fun e => decide (e.stamp ≤ s.stamp))), e ∈ st ∨ e = s := by
        intro e he
        simp only [List.mem_append, List.mem_filter, List.mem_cons] at he
        rcases he with ⟨h', _⟩ | rfl | ⟨h', _⟩
        · exact Or.inl h'
        · exact Or.inr rfl
        · exact Or.inl h'
      have hsL : s ∈ (st.filter (fun e => decide (s.stamp < e.stamp)) ++
          s :: st.filter (fun e => decide (e.stamp ≤ s.stamp))) := by simp
      simp only at hacc ⊢
      generalize (st.filter (fun e => decide (s.stamp < e.stamp)) ++
          s :: st.filter (fun e => decide (e.stamp ≤ s.stamp))) = L at *
      cases L with
      | nil => cases hsL
      | cons f r =>
        have hf : (f.stamp : Int) ≤ s.stamp + D := by
          rcases hmem f (List.mem_cons_self ..) with h' | rfl
          · exact hlim f h'
          · omega
        unfold pruneList
        simp only [List.mem_reverse]
        have : ∀ l : List (Sample X), s ∈ l → s ∈ (pruneRev D f.stamp l).1 := by
          intro l
          induction l with
          | nil => intro h'; cases h'
          | cons b l ih =>
            intro hm
            unfold pruneRev
            split
            · exact hm
            · rename_i e he
              split
              · rename_i hlt
                rcases List.mem_cons.1 hm with rfl | hm
                · have := timeAdd_eq_some he; omega
                · exact ih hm
              · exact hm
        exact this _ (List.mem_reverse.2 hsL)
  cases hst : st with
  | nil =>
    subst hst
    exact body ha (by intro f hf; cases hf)
  | cons f r =>
    rw [hst] at ha hs body
    unfold dynInsert at ha ⊢
    simp only at ha ⊢
    split at ha
    · cases ha
    · rename_i lim hlim
      have := timeAdd_eq_some hlim
      split at ha
      · cases ha
      · rename_i hnlt
        rw [if_neg hnlt]
        refine body ha ?_
        intro g hg
        have := hs.front_max hg
        omega

/-- **C04, no undefined behaviour.** On every reachable cache and every query time the search is
applied to a partitioned range and every iterator it dereferences is valid. -/
theorem C04_no_ub [Rigid X] {D : Duration} {st : List (Sample X)} (h : ReachableCache D st)
    (t : Time) : dynGetData st t ≠ .ub ∧ dynGetParent st t ≠ .ub := by
  unfold dynGetData dynGetParent
  rcases findClosest_cases h.sorted t with ⟨_, e⟩ | ⟨f, r, _, _, e⟩ | ⟨_, s, _, _, e⟩ |
    ⟨_, o, n, _, _, _, e⟩ | ⟨_, _, e⟩ <;> rw [e] <;> simp
  split <;> simp

/-- **C04, when a query succeeds.** A query succeeds exactly when data is stored and the time is zero
or lies between two stored stamps (inclusive): no extrapolation, on either side. -/
theorem C04_succeeds_iff [Rigid X] {D : Duration} {st : List (Sample X)} (h : ReachableCache D st)
    (t : Time) :
    (∃ s, dynGetData st t = .ok s) ↔
      st ≠ [] ∧ (t = 0 ∨ ∃ a ∈ st, ∃ b ∈ st, a.stamp ≤ t ∧ t ≤ b.stamp) := by
  unfold dynGetData
  rcases findClosest_cases h.sorted t with ⟨e0, e⟩ | ⟨f, r, e0, e1, e⟩ | ⟨_, s, hs, ht, e⟩ |
    ⟨_, o, n, hadj, ho, hn, e⟩ | ⟨h0, hout, e⟩ <;> rw [e]
  · simp [e0]
  · simp [e0, e1]
  · simp only [GetRes.ok.injEq, exists_eq', true_iff]
    exact ⟨List.ne_nil_of_mem hs, Or.inr ⟨s, hs, s, hs, by omega, by omega⟩⟩
  · have : st ≠ [] ∧ (t = 0 ∨ ∃ a ∈ st, ∃ b ∈ st, a.stamp ≤ t ∧ t ≤ b.stamp) :=
      ⟨List.ne_nil_of_mem hadj.1, Or.inr ⟨o, hadj.1, n, hadj.2.1, ho, by omega⟩⟩
    refine ⟨fun _ => this, fun _ => ?_⟩
    by_cases hp : o.parent = n.parent <;> simp [hp]
  · simp only [reduceCtorEq, exists_false, false_iff, not_and, not_or, h0, not_false_eq_true,
      true_and]
    rintro _ ⟨a, ha, b, hb, h1, h2⟩
    rcases hout with h' | h'
    · have := h' a ha; omega
    · have := h' b hb; omega

/-- **C04, time zero.** A query at time zero returns the newest stored sample unchanged. -/
theorem C04_latest [Rigid X] {D : Duration} {st : List (Sample X)} (h : ReachableCache D st)
    {f : Sample X} (hf : f ∈ st) (hmax : ∀ s ∈ st, s.stamp ≤ f.stamp) :
    dynGetData st 0 = .ok f := by
  cases st with
  | nil => cases hf
  | cons a r =>
    have : a = f := by
      apply h.sorted.unique (List.mem_cons_self ..) hf
      have := hmax a (List.mem_cons_self ..)
      have := h.sorted.front_max hf
      omega
    subst this
    rfl

/-- **C04, between two samples.** Strictly between two adjacent stamps, the answer is computed from
exactly those two samples: interpolated if they have the same parent, the older one otherwise. -/
theorem C04_between [Rigid X] {D : Duration} {st : List (Sample X)} (h : ReachableCache D st)
    {o n : Sample X} (hadj : Adjacent st o n) {t : Time} (ho : o.stamp < t) (hn : t < n.stamp) :
    dynGetData st t = .ok
      (if o.parent = n.parent then
        { stamp := t, parent := o.parent, child := o.child
          xf := Rigid.interp o.xf n.xf ((t : Int) - o.stamp) ((n.stamp : Int) - o.stamp) }
       else o) := by
  rcases findClosest_between h.sorted hadj (by omega) (by omega) hn with e | ⟨e, _⟩
  · unfold dynGetData
    rw [e]
    simp only [interpolate]
    have : n.stamp ≠ o.stamp := by omega
    simp only [this, if_false]
    split <;> rfl
  · omega

/-- **C04, on a stamp.** At a stored stamp the answer comes from that sample: it is returned
unchanged, or (interior stamps) interpolated with ratio exactly 0 towards its newer neighbour.
`C05_exact` shows that ratio 0 gives the sample itself for real-valued transforms. -/
theorem C04_on_stamp [Rigid X] {D : Duration} {st : List (Sample X)} (h : ReachableCache D st)
    {s : Sample X} (hs : s ∈ st) (h0 : s.stamp ≠ 0) :
    dynGetData st s.stamp = .ok s ∨
      ∃ n, Adjacent st s n ∧ s.parent = n.parent ∧
        dynGetData st s.stamp =
          .ok { s with xf := Rigid.interp s.xf n.xf 0 ((n.stamp : Int) - s.stamp) } := by
  unfold dynGetData
  rcases findClosest_cases h.sorted s.stamp with ⟨e0, e⟩ | ⟨f, r, e0, e1, e⟩ | ⟨_, s', hs', ht, e⟩ |
    ⟨_, o, n, hadj, ho, hn, e⟩ | ⟨_, hout, e⟩
  · subst e0; cases hs
  · exact absurd e1 h0
  · rw [e, h.sorted.unique hs hs' ht]; exact Or.inl rfl
  · have : o = s := by
      apply h.sorted.unique hadj.1 hs
      rcases hadj.2.2.2 s hs with h' | h' <;> omega
    subst this
    rw [e]
    simp only
    split
    · rename_i hp
      right
      refine ⟨n, hadj, hp, ?_⟩
      have : n.stamp ≠ o.stamp := by have := hadj.2.2.1; omega
      simp [interpolate, this]
    · exact Or.inl rfl
  · rcases hout with h' | h' <;> · have := h' s hs; omega

/-- The reachable cache used by the examples of C04 and C07. -/
theorem C04_example_reachable :
    ReachableCache 100 [smp 30 2 1 9, smp 20 5 1 6, smp 10 5 1 4] :=
  ⟨[.insert (smp 10 5 1 4), .insert (smp 30 2 1 9), .insert (smp 20 5 1 6)], by decide⟩

example : dynGetData [smp 30 2 1 9, smp 20 5 1 6, smp 10 5 1 4] 15 = .ok (smp 15 5 1 5) := by decide
example : dynGetData [smp 30 2 1 9, smp 20 5 1 6, smp 10 5 1 4] 0 = .ok (smp 30 2 1 9) := by decide
example : dynGetData [smp 30 2 1 9, smp 20 5 1 6, smp 10 5 1 4] 31 = .fail := by decide
example : dynGetData [smp 30 2 1 9, smp 20 5 1 6, smp 10 5 1 4] 9 = .fail := by decide
/-- Different parents on either side: the older sample is returned unchanged. -/
example : dynGetData [smp 30 2 1 9, smp 20 5 1 6, smp 10 5 1 4] 25 = .ok (smp 20 5 1 6) := by decide

/-- **C07.** When the samples around the query time have different parents the answer is the older
sample, unchanged (all of it: rotation, translation, parent and stamp). -/
theorem C07_no_mixing [Rigid X] {D : Duration} {st : List (Sample X)} (h : ReachableCache D st)
    {o n : Sample X} (hadj : Adjacent st o n) {t : Time} (h0 : t ≠ 0) (ho : o.stamp ≤ t)
    (hn : t < n.stamp) (hp : o.parent ≠ n.parent) : dynGetData st t = .ok o := by
  unfold dynGetData
  rcases findClosest_between h.sorted hadj h0 ho hn with e | ⟨_, e⟩ <;> rw [e]
  simp [hp]

/-- **C07, parent.** Every answer carries the parent of one stored sample (the older of the two
around the time, or the newest for time zero), and `getParent` reports exactly the parent of what
`getData` returns, 0 when `getData` fails. -/
theorem C07_parent_agrees [Rigid X] {D : Duration} {st : List (Sample X)} (_h : ReachableCache D st)
    (t : Time) :
    dynGetParent st t =
      match dynGetData st t with
      | .ok s => .id s.parent
      | .fail => .id 0
      | .ub => .ub := by
  unfold dynGetData dynGetParent
  cases findClosest st t with
  | zero => rfl
  | one a => rfl
  | two a b =>
    by_cases hp : a.parent = b.parent
    · by_cases hst : b.stamp = a.stamp <;> simp [hp, interpolate, hst]
    · simp [hp]
  | ub => rfl

example : dynGetParent [smp 30 2 1 9, smp 20 5 1 6, smp 10 5 1 4] 25 = .id 5 := by decide

end Tf2
