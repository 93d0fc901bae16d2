import Verif.Props.Late
import Verif.Props.SameData

/-!
# C65, second part: late subscribers of the static topic, every query
-/
namespace Tf2

variable {X : Type} [Rigid X]

omit [Rigid X] in
/-- What an early subscriber received and a late one did not was sent before the late one connected. -/
theorem early_late {before : List (List (Msg X))} (later : List (List (Msg X))) :
    ∀ m ∈ earlyReceives (before ++ later), m ∈ before.flatten ∨ m ∈ lateReceives before later := by
  intro m hm
  obtain ⟨l, hl⟩ := published_append before later
  have hd : (SBroadcaster.after (before ++ later)).published.drop before.length = l := by
    rw [hl, ← published_length before, List.drop_left]
  unfold earlyReceives at hm
  rw [hl, List.flatten_append, List.mem_append] at hm
  rcases hm with hm | hm
  · exact Or.inl (published_sent before m hm)
  · right
    unfold lateReceives
    rw [hd]
    exact List.mem_append_right _ hm

/-- **C65, every query.** In the situation of `C65_late_subscriber`, if moreover every parent frame named by a static
transform sent before the late subscriber connected is known to it (which fails only if nothing but superseded static
transforms ever named that frame), then no query at all tells the two buffers apart: lookups and their exceptions at every
time including zero, with and without a fixed frame, `canTransform`, the frame listings and what `setTransform` returns. -/
theorem C65_indistinguishable {D : Duration} {before later : List (List (Msg X))} (hb : before ≠ [])
    {early late : List (Op X)}
    (he : staticPart early = earlyReceives (before ++ later)) (hl : staticPart late = lateReceives before later)
    (ho : otherPart early = otherPart late) (hs : StaticFrames (before ++ later).flatten early)
    (hr : Regular D early) (hp : ∀ m ∈ before.flatten, stripSlash m.parent ∈ mentions late) :
    Indistinguishable ((Buf.init D).run early) ((Buf.init D).run late) := by
  have hdyn : ∀ {o : List (Op X)} {m : Msg X} {a : Name}, Op.set m a false ∈ o ↔ Op.set m a false ∈ otherPart o := by
    intro o m a
    simp [otherPart]
  have hsub : ∀ {m : Msg X} {a : Name} {s : Bool}, Op.set m a s ∈ late → ∃ a', Op.set m a' s ∈ early := by
    intro m a s hm
    cases s with
    | false => exact ⟨a, by rw [hdyn, ho, ← hdyn]; exact hm⟩
    | true =>
      have h1 : m ∈ staticPart late := mem_staticPart.2 ⟨a, hm⟩
      rw [hl] at h1
      have h2 := late_early later m h1
      rw [← he] at h2
      exact mem_staticPart.1 h2
  have hr' : Regular D late := by
    refine ⟨hr.dur, ?_, ?_⟩
    · intro m a s hm
      obtain ⟨a', h⟩ := hsub hm
      exact hr.range m a' s h
    · intro m a s hm
      obtain ⟨a', h⟩ := hsub hm
      exact hr.names m a' s h
  have hs' : StaticFrames (before ++ later).flatten late :=
    ⟨hs.valid, hs.plain, fun m hm m' a hm' => hs.own m hm m' a (by rw [hdyn, ho, ← hdyn]; exact hm')⟩
  obtain ⟨xs, hxs⟩ := early_ends (calls := before ++ later) (by simp [hb])
  obtain ⟨ys, hys⟩ := late_ends hb later
  have hxs' : ∀ m ∈ earlyReceives (before ++ later), m ∈ (before ++ later).flatten := published_sent _
  have hstat : ∀ n, (∃ m ∈ (before ++ later).flatten, m.child = n) → ∃ m m0 r m0' r',
      m ∈ lateReceives before later ∧ m.child = n ∧
      (offersFor n early).getLast? = some (m, true) ∧ offersFor n early = (m0, true) :: r ∧
      (offersFor n late).getLast? = some (m, true) ∧ offersFor n late = (m0', true) :: r' := by
    intro n hin
    obtain ⟨m, m0, r, h1, h2, h3⟩ := static_last hs (net_is _) (he.trans hxs) hin
    obtain ⟨m', m0', r', h1', h2', h3'⟩ := static_last hs' (net_is _) (hl.trans hys) hin
    rw [h1] at h1'
    injection h1' with h1'
    subst h1'
    have hml := lastSent_mem h1
    have hmn : m ∈ (SBroadcaster.after (before ++ later)).net := ((net_is _).mem m).2 (by rw [hml.2]; exact h1)
    exact ⟨m, m0, r, m0', r', by rw [hys]; exact List.mem_append_right _ hmn, hml.2, h2, h3, h2', h3'⟩
  have hother : ∀ n, (¬ ∃ m ∈ (before ++ later).flatten, m.child = n) →
      offersFor n early = offersFor n late ∧ recentFor n early [] = recentFor n late [] := by
    intro n hin
    have h1 : ∀ m ∈ staticPart early, stripSlash m.child ≠ n := by
      intro m hm h
      rw [he] at hm
      have := hxs' m hm
      exact hin ⟨m, this, by rw [← h, hs.plain m this]⟩
    have h2 : ∀ m ∈ staticPart late, stripSlash m.child ≠ n := by
      intro m hm h
      rw [hl] at hm
      have := hxs' m (late_early later m hm)
      exact hin ⟨m, this, by rw [← h, hs.plain m this]⟩
    obtain ⟨a1, a2⟩ := offersFor_other h1
    obtain ⟨b1, b2⟩ := offersFor_other h2
    exact ⟨by rw [a1, b1, ho], by rw [a2, b2, ho]⟩
  refine C86_same_data hr hr' ⟨?_, ?_, ?_, ?_⟩
  · intro n
    constructor
    · intro hn
      obtain ⟨m, a, s, h1, h2, h3⟩ := mem_mentions.1 hn
      cases s with
      | false => exact mem_mentions.2 ⟨m, a, false, by rw [hdyn, ← ho, ← hdyn]; exact h1, h2, h3⟩
      | true =>
        have hm : m ∈ earlyReceives (before ++ later) := by rw [← he]; exact mem_staticPart.2 ⟨a, h1⟩
        rcases h3 with rfl | rfl
        · have hsent := hxs' m hm
          obtain ⟨k, _, _, _, _, hk, hkc, _⟩ := hstat m.child ⟨m, hsent, rfl⟩
          rw [← hl] at hk
          obtain ⟨a', ha'⟩ := mem_staticPart.1 hk
          have hks : k ∈ (before ++ later).flatten := hxs' k (late_early later k (by rw [← hl]; exact hk))
          exact mem_mentions.2 ⟨k, a', true, ha', hs.valid k hks, Or.inl (by rw [hs.plain k hks, hs.plain m hsent, hkc])⟩
        · rcases early_late later m hm with hb | hlr
          · exact hp m hb
          · rw [← hl] at hlr
            obtain ⟨a', ha'⟩ := mem_staticPart.1 hlr
            exact mem_mentions.2 ⟨m, a', true, ha', h2, Or.inr rfl⟩
    · intro hn
      obtain ⟨m, a, s, h1, h2, h3⟩ := mem_mentions.1 hn
      obtain ⟨a', h⟩ := hsub h1
      exact mem_mentions.2 ⟨m, a', s, h, h2, h3⟩
  · intro n
    by_cases hin : ∃ m ∈ (before ++ later).flatten, m.child = n
    · obtain ⟨m, m0, r, m0', r', _, _, _, h2, _, h4⟩ := hstat n hin
      unfold kindOf
      rw [h2, h4]; rfl
    · unfold kindOf
      rw [(hother n hin).1]
  · intro n _
    by_cases hin : ∃ m ∈ (before ++ later).flatten, m.child = n
    · obtain ⟨m, m0, r, m0', r', _, _, h1, _, h3, _⟩ := hstat n hin
      rw [h1, h3]
    · rw [(hother n hin).1]
  · intro n hk v
    by_cases hin : ∃ m ∈ (before ++ later).flatten, m.child = n
    · obtain ⟨m, m0, r, m0', r', _, _, _, h2, _, _⟩ := hstat n hin
      unfold kindOf at hk
      rw [h2] at hk
      simp at hk
    · unfold Effective
      rw [(hother n hin).2]

/-- The histories of the example above meet the hypothesis, although the first call's `w → a` is superseded. -/
example : (∀ m ∈ lateBefore.flatten, stripSlash m.parent ∈ mentions lateLate) ∧
    ((Buf.init 100).run lateEarly).lookupTransform ['w'] ['d'] 0 = .ok (tmsg ['w'] ['d'] 20 37) ∧
    ((Buf.init 100).run lateLate).lookupTransform ['w'] ['d'] 0 = .ok (tmsg ['w'] ['d'] 20 37) := by
  refine ⟨by decide, by decide +kernel, by decide +kernel⟩

/-- **C65 (finding).** A frame named only by a superseded static transform stays known to those who were there and is
unknown to those who connect later: the same query throws different exceptions. -/
theorem C65_forgotten_parent_finding :
    ∃ calls : List (List (Msg Int)),
      let node := fun ms : List (Msg Int) => (Buf.init 100).run (ms.map (fun m => Op.set m ['p'] true))
      (node (earlyReceives calls)).lookupTransform ['w'] ['a'] 5 = .throw .connectivity ∧
      (node (lateReceives calls [])).lookupTransform ['w'] ['a'] 5 = .throw .lookup ∧
      (node (earlyReceives calls)).frameExists ['w'] = true ∧ (node (lateReceives calls [])).frameExists ['w'] = false :=
  ⟨[[tmsg ['w'] ['a'] 0 1], [tmsg ['v'] ['a'] 0 2]], by decide +kernel⟩

end Tf2
