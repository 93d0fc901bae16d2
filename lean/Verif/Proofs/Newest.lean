import Verif.Spec.Newest
import Verif.Proofs.Denote
import Verif.Props.Latest

/-!
# What `getLatestCommonTime` follows is what the messages tell
-/
namespace Tf2

variable {X : Type} [Rigid X]

/-- Of a nonempty list of messages, the first one with the largest stamp. -/
theorem exists_newest : ∀ {l : List (Msg X)}, l ≠ [] →
    ∃ m, l.find? (fun a => a.stamp == m.stamp) = some m ∧ ∀ a ∈ l, a.stamp ≤ m.stamp := by
  intro l
  induction l with
  | nil => intro h; exact absurd rfl h
  | cons a r ih =>
    intro _
    by_cases hr : r = []
    · subst hr
      exact ⟨a, by simp, by simp⟩
    · obtain ⟨m, h1, h2⟩ := ih hr
      by_cases h : m.stamp ≤ a.stamp
      · refine ⟨a, by simp, ?_⟩
        intro x hx
        rcases List.mem_cons.1 hx with rfl | hx
        · exact Nat.le_refl _
        · exact Nat.le_trans (h2 x hx) h
      · refine ⟨m, ?_, ?_⟩
        · rw [List.find?_cons_of_neg]
          · exact h1
          · simp only [beq_iff_eq]; omega
        · intro x hx
          rcases List.mem_cons.1 hx with rfl | hx
          · omega
          · exact h2 x hx

theorem isFrame_ne {D : Duration} {b : Buf X} (hw : WF D b) {n : Name} {i : Nat} (hi : IsFrame b n i) :
    n ≠ noParentName := by
  intro h; have := hi.2; rw [h] at this
  exact hi.1 (by have h0 := (hw.ids noParentName 0).2 hw.zero; rw [this] at h0; injection h0)

theorem Newest.offer {ops : List (Op X)} {n p : Name} {s : Time} {e : X} (h : Newest ops n p s e) :
    ∃ m f, (m, f) ∈ offersFor n ops ∧ p = stripSlash m.parent := by
  cases h with
  | @static m0 m s r h1 h2 => exact ⟨m, s, List.mem_of_getLast? h2, rfl⟩
  | @dynamic m0 m r h1 h2 _ =>
    rcases recentFor_mem (List.mem_of_find?_eq_some h2) with h | ⟨s, h⟩
    · cases h
    · exact ⟨m, s, h, rfl⟩

/-- **The correspondence at time zero.** -/
theorem newest_iff {D : Duration} {ops : List (Op X)} (hreg : Regular D ops) {b : Buf X}
    (hb : b = (Buf.init D).run ops) {n : Name} {i : Nat} (hi : IsFrame b n i) (j : Nat) (s : Time) (e : X) :
    (NewestEdge b i j s ∧ ParentAt b 0 i j e) ↔ ∃ p, IsFrame b p j ∧ Newest ops n p s e := by
  have hw : WF D b := by rw [hb]; exact WF.run (WF.init D) ops
  have hn : n ≠ noParentName := isFrame_ne hw hi
  have hpar : ∀ {m : Msg X} {s : Bool}, (m, s) ∈ offersFor n ops →
      b.frameIDs (stripSlash m.parent) = some (b.lookupFrameNumber (stripSlash m.parent)) := by
    intro m s hm; exact mentioned_number hb (offersFor_mentions hm).2.1
  have hname : ∀ {m : Msg X} {s : Bool}, (m, s) ∈ offersFor n ops →
      (b.lookupFrameNumber (stripSlash m.parent) = j ∧ j ≠ 0 ↔ IsFrame b (stripSlash m.parent) j) := by
    intro m s hm
    constructor
    · rintro ⟨rfl, h⟩; exact ⟨h, hpar hm⟩
    · rintro ⟨h1, h2⟩; exact ⟨lookupFrameNumber_isFrame ⟨h1, h2⟩, h1⟩
  have hfc := frame_content D hn ops
  rw [← hb] at hfc
  unfold FrameContent at hfc
  cases hoff : offersFor n ops with
  | nil =>
    rw [hoff] at hfc
    have hnone := hfc i hi.2
    constructor
    · rintro ⟨⟨_, c, _, h, _⟩, _⟩; rw [hnone] at h; cases h
    · rintro ⟨p, _, hs⟩
      obtain ⟨m, s, hm, _⟩ := hs.offer
      rw [hoff] at hm; cases hm
  | cons mf r =>
    obtain ⟨m0, f⟩ := mf
    cases f with
    | true =>
      rw [hoff] at hfc
      obtain ⟨i', m, f, h1, h2, h3⟩ := hfc
      have : i' = i := by have h4 := hi.2; rw [h1] at h4; injection h4
      subst this
      have hmem : (m, f) ∈ offersFor n ops := by rw [hoff]; exact List.mem_of_getLast? h2
      constructor
      · rintro ⟨⟨hj, c, sm, hc, hd, hp, hs⟩, ⟨_, c', sm', hc', hd', hp', hx⟩⟩
        rw [h3] at hc hc'
        injection hc with hc
        injection hc' with hc'
        subst hc; subst hc'
        simp only [Cache.getData, GetRes.ok.injEq] at hd hd'
        subst hd; subst hd'
        simp only at hp hx hs
        subst hx; subst hs
        exact ⟨_, (hname hmem).1 ⟨hp, hj⟩, .static hoff (by rw [hoff]; exact h2)⟩
      · rintro ⟨p, hpf, hs⟩
        cases hs with
        | @static m0' m' s' r' h4 h5 =>
          rw [hoff, h2] at h5
          injection h5 with h5
          injection h5 with h5 h6
          subst h5
          obtain ⟨h7, h8⟩ := (hname hmem).2 hpf
          exact ⟨⟨h8, _, _, h3, rfl, h7, rfl⟩, ⟨h8, _, _, h3, rfl, h7, rfl⟩⟩
        | dynamic h4 _ _ => rw [hoff] at h4; cases h4
    | false =>
      obtain ⟨i', st, h1, h2, h3⟩ := C51_frame_window hreg.dur hn ops hb hoff (by
        intro m s hm
        obtain ⟨⟨a, ha⟩, hv, _⟩ := offersFor_mem hm
        exact hreg.range _ _ _ ha hv)
      have : i' = i := by have h4 := hi.2; rw [h1] at h4; injection h4
      subst this
      have hsort := h3.1
      have hcnt := window_counts h3
      have hoffer : ∀ {m : Msg X}, m ∈ recentFor n ops [] → ∃ s, (m, s) ∈ offersFor n ops := by
        intro m hm
        rcases recentFor_mem hm with h | h
        · cases h
        · exact h
      have heff : ∀ {m : Msg X}, (recentFor n ops []).find? (fun a => a.stamp == m.stamp) = some m →
          (∀ a ∈ recentFor n ops [], a.stamp ≤ m.stamp) → Effective D ops n m := by
        intro m ha hb'
        refine ⟨ha, ?_⟩
        intro a ha'
        have h5 := hb' a ha'
        have h6 := hreg.dur
        omega
      cases st with
      | nil =>
        constructor
        · rintro ⟨⟨_, c, sm, hc, hd, _⟩, _⟩
          rw [h2] at hc
          injection hc with hc
          subst hc
          cases hd
        · rintro ⟨p, hpf, hs⟩
          cases hs with
          | static h4 _ => rw [hoff] at h4; cases h4
          | @dynamic m0' m r' _ h5 h6 =>
            have := (hcnt _).2 ⟨m, heff h5 h6, rfl⟩
            cases this
      | cons hd0 tl =>
        have hget : (Cache.dyn D (hd0 :: tl)).getData 0 = .ok hd0 := rfl
        -- the head of the window is the newest message
        obtain ⟨mh, hmh, ehd⟩ := (hcnt hd0).1 (List.mem_cons_self ..)
        have hne : recentFor n ops [] ≠ [] := by
          intro h; have := hmh.mem; rw [h] at this; cases this
        obtain ⟨mn, hn1, hn2⟩ := exists_newest hne
        have hnm : toSample b.lookupFrameNumber n mn ∈ hd0 :: tl := (hcnt _).2 ⟨mn, heff hn1 hn2, rfl⟩
        have hmax : mn.stamp ≤ hd0.stamp := by
          rcases List.mem_cons.1 hnm with h | h
          · rw [← h]; exact Nat.le_refl _
          · have := List.rel_of_pairwise_cons hsort h
            exact Nat.le_of_lt this
        have hstamp : hd0.stamp = mh.stamp := by rw [ehd]; rfl
        have hmem := hn2 _ hmh.mem
        have heq : mh = mn := hmh.unique (heff hn1 hn2) (by omega)
        subst heq
        obtain ⟨f, hf⟩ := hoffer hmh.mem
        constructor
        · rintro ⟨⟨hj, c, sm, hc, hd, hp, hs⟩, ⟨_, c', sm', hc', hd', hp', hx⟩⟩
          rw [h2] at hc hc'
          injection hc with hc
          injection hc' with hc'
          subst hc; subst hc'
          rw [hget] at hd hd'
          injection hd with hd
          injection hd' with hd'
          subst hd; subst hd'
          simp only at hs
          subst hx; subst hs; subst ehd
          exact ⟨_, (hname hf).1 ⟨hp, hj⟩, .dynamic hoff hn1 hn2⟩
        · rintro ⟨p, hpf, hs⟩
          cases hs with
          | static h4 _ => rw [hoff] at h4; cases h4
          | @dynamic m0' m r' _ h5 h6 =>
            have hle := h6 _ hmh.mem
            have hge := hn2 _ (List.mem_of_find?_eq_some h5)
            have : m = mh := (heff h5 h6).unique hmh (by omega)
            subst this
            obtain ⟨h7, h8⟩ := (hname hf).2 hpf
            subst ehd
            exact ⟨⟨h8, _, _, h2, hget, h7, rfl⟩, ⟨h8, _, _, h2, hget, h7, rfl⟩⟩

theorem Newest.isFrame {D : Duration} {ops : List (Op X)} {b : Buf X} (hb : b = (Buf.init D).run ops) {n p : Name}
    {s : Time} {e : X} (h : Newest ops n p s e) (hp : p ≠ noParentName) :
    IsFrame b p (b.lookupFrameNumber p) := by
  obtain ⟨m, f, hm, rfl⟩ := h.offer
  exact isFrame_of_mentioned hb (offersFor_mentions hm).2.1 hp

/-- A way along the newest transforms of the messages is a path in the buffer. -/
theorem NewestWay.path {D : Duration} {ops : List (Op X)} (hreg : Regular D ops) {b : Buf X}
    (hb : b = (Buf.init D).run ops) {n c : Name} {i : Nat} (hi : IsFrame b n i) {l : List Time} {x : X}
    (h : NewestWay ops n c l x) :
    ∃ j L, IsFrame b c j ∧ NewestPath b i j L ∧ L.map Prod.fst = l ∧ Chain b 0 i j x l.length := by
  induction h with
  | refl => exact ⟨i, [], hi, .nil _, rfl, .refl⟩
  | @snoc c p l s x e hp hs hne ih =>
    obtain ⟨j, L, hj, hL, hl, hc⟩ := ih
    have hf := hs.isFrame hb hne
    obtain ⟨h1, h2⟩ := (newest_iff hreg hb hj _ s e).2 ⟨p, hf, hs⟩
    refine ⟨_, L ++ [(s, b.lookupFrameNumber p)], hf, hL.append (.cons h1 (.nil _)), by simp [hl], ?_⟩
    rw [List.length_append]
    exact .snoc hc h2

theorem NewestEdge.tells {D : Duration} {ops : List (Op X)} (hreg : Regular D ops) {b : Buf X}
    (hb : b = (Buf.init D).run ops) {n : Name} {i j : Nat} (hi : IsFrame b n i) {s : Time} (h : NewestEdge b i j s) :
    ∃ p e, IsFrame b p j ∧ Newest ops n p s e := by
  obtain ⟨e, he⟩ := h.parentAt
  obtain ⟨p, h1, h2⟩ := (newest_iff hreg hb hi j s e).1 ⟨h, he⟩
  exact ⟨p, e, h1, h2⟩

theorem NewestWay.cons {ops : List (Op X)} {a p c : Name} {s : Time} {e : X} (h0 : Newest ops a p s e)
    (hp : p ≠ noParentName) {l : List Time} {x : X} (h : NewestWay ops p c l x) : ∃ y, NewestWay ops a c (s :: l) y := by
  induction h with
  | refl => exact ⟨_, .snoc .refl h0 hp⟩
  | snoc _ h1 h2 ih =>
    obtain ⟨y, hy⟩ := ih
    exact ⟨_, .snoc hy h1 h2⟩

/-- A path in the buffer is a way along the newest transforms of the messages. -/
theorem NewestPath.way {D : Duration} {ops : List (Op X)} (hreg : Regular D ops) {b : Buf X}
    (hb : b = (Buf.init D).run ops) {i j : Nat} {L : List (Time × Nat)} (h : NewestPath b i j L) :
    ∀ {n : Name}, IsFrame b n i → ∃ c x, IsFrame b c j ∧ NewestWay ops n c (L.map Prod.fst) x := by
  have hw : WF D b := by rw [hb]; exact WF.run (WF.init D) ops
  induction h with
  | nil => intro n hi; exact ⟨n, _, hi, .refl⟩
  | cons he hp ih =>
    intro n hi
    obtain ⟨p, e, hpf, hs⟩ := he.tells hreg hb hi
    obtain ⟨c, x, hc, hx⟩ := ih hpf
    obtain ⟨y, hy⟩ := NewestWay.cons hs (isFrame_ne hw hpf) hx
    exact ⟨c, y, hc, hy⟩

theorem EndsBy.root {D : Duration} {ops : List (Op X)} (hreg : Regular D ops) {b : Buf X}
    (hb : b = (Buf.init D).run ops) {n c : Name} {i : Nat} (hi : IsFrame b n i) (h : EndsBy ops n c) :
    ∃ j, IsFrame b c j ∧ NewestRoot b i j := by
  have hw : WF D b := by rw [hb]; exact WF.run (WF.init D) ops
  obtain ⟨⟨l, x, h1, h2⟩, h3⟩ := h
  obtain ⟨j, L, hj, hL, hl, _⟩ := h1.path hreg hb hi
  refine ⟨j, hj, ⟨L, hL, by rw [← hl, List.length_map] at h2; exact h2⟩, ?_⟩
  rintro ⟨p, s, hs⟩
  obtain ⟨q, e, hq, hn⟩ := hs.tells hreg hb hj
  exact h3 ⟨q, s, e, hn, isFrame_ne hw hq⟩

theorem LowestBy.lowest {D : Duration} {ops : List (Op X)} (hreg : Regular D ops) {b : Buf X}
    (hb : b = (Buf.init D).run ops) {n m c : Name} {i k : Nat} (hi : IsFrame b n i) (hk : IsFrame b m k)
    (h : LowestBy ops n m c) {j : Nat} (hj : IsFrame b c j) : LowestCommon b i k j := by
  have hw : WF D b := by rw [hb]; exact WF.run (WF.init D) ops
  have key : ∀ {n : Name} {i : Nat}, IsFrame b n i → ∀ {c : Name} {j : Nat}, IsFrame b c j → ReachesBy ops n c → ∃ l, NewestPath b i j l := by
    intro n i hi c j hj ⟨l, x, h⟩
    obtain ⟨j', L, hj', hL, _⟩ := h.path hreg hb hi
    have : j' = j := by have h1 := hj.2; rw [hj'.2] at h1; exact Option.some.inj h1
    subst this
    exact ⟨L, hL⟩
  have key' : ∀ {n : Name} {i : Nat}, IsFrame b n i → ∀ {j : Nat}, (∃ l, NewestPath b i j l) →
      ∃ c, IsFrame b c j ∧ ReachesBy ops n c := by
    intro n i hi j ⟨L, hL⟩
    obtain ⟨c, x, hc, hx⟩ := hL.way hreg hb hi
    exact ⟨c, hc, _, _, hx⟩
  obtain ⟨h1, h2, h3⟩ := h
  refine ⟨key hi hj h1, key hk hj h2, ?_⟩
  intro f hf hf'
  obtain ⟨c1, hc1, r1⟩ := key' hi hf
  obtain ⟨c2, hc2, r2⟩ := key' hk hf'
  have : c1 = c2 := hw.inj hc1.2 hc2.2
  subst this
  exact key hj hc1 (h3 c1 r1 r2)

end Tf2
