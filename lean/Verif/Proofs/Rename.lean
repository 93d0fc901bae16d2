import Verif.Proofs.WalkAt
import Verif.Proofs.History

/-! # Renumbering frames: all queries commute with an injective renumbering that fixes 0 -/
namespace Tf2

variable {X A B : Type}

/-- Renumber the frames of a sample. -/
def Sample.rename (π : Nat → Nat) (s : Sample X) : Sample X := { s with parent := π s.parent, child := π s.child }

/-- Renumber the frames of a cache. -/
def Cache.rename (π : Nat → Nat) : Cache X → Cache X
  | .dyn D st => .dyn D (st.map (Sample.rename π))
  | .stat o => .stat (o.map (Sample.rename π))

/-- Renumber the frames of a call. -/
def CacheOp.rename (π : Nat → Nat) : CacheOp X → CacheOp X
  | .insert s => .insert (s.rename π)
  | .clear => .clear

/-- Renumber. -/
def Closest.rename (π : Nat → Nat) : Closest X → Closest X
  | .zero => .zero
  | .one a => .one (a.rename π)
  | .two a b => .two (a.rename π) (b.rename π)
  | .ub => .ub

/-- Renumber. -/
def GetRes.rename (π : Nat → Nat) : GetRes X → GetRes X
  | .fail => .fail
  | .ok s => .ok (s.rename π)
  | .ub => .ub

/-- Renumber. -/
def ParRes.rename (π : Nat → Nat) : ParRes → ParRes
  | .id n => .id (π n)
  | .ub => .ub

@[simp] theorem Sample.rename_stamp (π : Nat → Nat) (s : Sample X) : (s.rename π).stamp = s.stamp := rfl
@[simp] theorem Sample.rename_parent (π : Nat → Nat) (s : Sample X) : (s.rename π).parent = π s.parent := rfl
@[simp] theorem Sample.rename_xf (π : Nat → Nat) (s : Sample X) : (s.rename π).xf = s.xf := rfl

theorem lowerBound_rename (π : Nat → Nat) (st : List (Sample X)) (t : Time) :
    lowerBound (st.map (Sample.rename π)) t = lowerBound st t := by
  unfold lowerBound
  have e : ((st.map (Sample.rename π)).takeWhile (fun s => decide (t < s.stamp))).length =
      (st.takeWhile (fun s => decide (t < s.stamp))).length := by
    rw [List.takeWhile_map, List.length_map]; rfl
  simp only [e, ← List.map_drop, List.all_map]
  rfl

theorem findClosest_rename (π : Nat → Nat) (st : List (Sample X)) (t : Time) :
    findClosest (st.map (Sample.rename π)) t = (findClosest st t).rename π := by
  match st with
  | [] => rfl
  | [f] =>
    unfold findClosest
    by_cases h1 : t = 0
    · simp [h1, Closest.rename]
    · by_cases h2 : f.stamp = t <;> simp [h1, h2, Closest.rename]
  | f :: s :: r =>
    have hlb := lowerBound_rename π (f :: s :: r) t
    have hl : ((s.rename π :: r.map (Sample.rename π)).getLast (List.cons_ne_nil _ _)) =
        ((s :: r).getLast (List.cons_ne_nil _ _)).rename π := by
      have := List.getLast_map (f := Sample.rename π) (l := s :: r) (by simp)
      simpa using this
    unfold findClosest
    simp only [List.map_cons] at hlb ⊢
    simp only [hl, hlb, Sample.rename_stamp]
    split
    · rfl
    split
    · rfl
    split
    · rfl
    split
    · rfl
    split
    · rfl
    have hg : ∀ i : Nat, (f.rename π :: s.rename π :: r.map (Sample.rename π))[i]? =
        ((f :: s :: r)[i]?).map (Sample.rename π) := by
      intro i
      rw [← List.getElem?_map]; rfl
    cases lowerBound (f :: s :: r) t with
    | none => rfl
    | some i =>
      simp only [hg]
      cases h1 : (f :: s :: r)[i]? with
      | none => simp [Closest.rename]
      | some o =>
        cases i with
        | zero => simp [Closest.rename]
        | succ j =>
          cases h2 : (f :: s :: r)[j]? with
          | none => simp [h2, Closest.rename]
          | some n => simp [h2, Closest.rename]

variable {π : Nat → Nat} (hinj : ∀ i j, π i = π j → i = j) (h0 : π 0 = 0)

theorem interpolate_rename [Rigid X] (a b : Sample X) (t : Time) :
    interpolate (a.rename π) (b.rename π) t = (interpolate a b t).rename π := by
  unfold interpolate
  by_cases h : b.stamp = a.stamp
  · simp [h]
  · simp [h, Sample.rename]

include hinj in
theorem getData_rename [Rigid X] (c : Cache X) (t : Time) :
    (c.rename π).getData t = (c.getData t).rename π := by
  match c with
  | .dyn D st =>
    simp only [Cache.rename, Cache.getData, dynGetData, findClosest_rename]
    cases findClosest st t with
    | zero => rfl
    | one a => rfl
    | ub => rfl
    | two a b =>
      by_cases h : a.parent = b.parent
      · have h' : (a.rename π).parent = (b.rename π).parent := by simp [h]
        simp only [Closest.rename, if_pos h, if_pos h', interpolate_rename]; rfl
      · have h' : (a.rename π).parent ≠ (b.rename π).parent := fun e => h (hinj _ _ e)
        simp only [Closest.rename, if_neg h, if_neg h']; rfl
  | .stat none => rfl
  | .stat (some s) => rfl

include h0 in
theorem getParent_rename (c : Cache X) (t : Time) :
    (c.rename π).getParent t = (c.getParent t).rename π := by
  match c with
  | .dyn D st =>
    simp only [Cache.rename, Cache.getParent, dynGetParent, findClosest_rename]
    cases findClosest st t with
    | zero => simp [ParRes.rename, Closest.rename, h0]
    | one a => rfl
    | ub => rfl
    | two a b => rfl
  | .stat none => rfl
  | .stat (some s) => rfl

include h0 in
theorem latestTimeAndParent_rename (c : Cache X) :
    (c.rename π).latestTimeAndParent = (c.latestTimeAndParent).map (fun e => (e.1, π e.2)) := by
  match c with
  | .dyn D [] => simp [Cache.rename, Cache.latestTimeAndParent, dynLatest, h0]
  | .dyn D (s :: r) => rfl
  | .stat none => rfl
  | .stat (some s) => rfl

theorem latestStamp_rename (c : Cache X) : (c.rename π).latestStamp = c.latestStamp := by
  match c with
  | .dyn D [] => rfl
  | .dyn D (s :: r) => rfl
  | .stat _ => rfl

theorem pruneRev_rename (D : Duration) (l : Time) (st : List (Sample X)) :
    pruneRev D l (st.map (Sample.rename π)) =
      ((pruneRev D l st).1.map (Sample.rename π), (pruneRev D l st).2) := by
  induction st with
  | nil => rfl
  | cons b r ih =>
    simp only [List.map_cons, pruneRev, Sample.rename_stamp]
    cases timeAdd b.stamp D with
    | none => rfl
    | some e =>
      simp only
      split
      · exact ih
      · rfl

theorem pruneList_rename (D : Duration) (st : List (Sample X)) :
    pruneList D (st.map (Sample.rename π)) =
      ((pruneList D st).1.map (Sample.rename π), (pruneList D st).2) := by
  cases st with
  | nil => rfl
  | cons f r =>
    have := pruneRev_rename (π := π) D f.stamp (f :: r).reverse
    rw [List.map_reverse] at this
    simp only [List.map_cons] at this
    simp only [pruneList, List.map_cons, Sample.rename_stamp, this, List.map_reverse]

theorem insertBody_rename (D : Duration) (st : List (Sample X)) (s : Sample X) :
    insertBody D (st.map (Sample.rename π)) (s.rename π) =
      ((insertBody D st s).1.map (Sample.rename π), (insertBody D st s).2) := by
  have e1 : (st.map (Sample.rename π)).takeWhile (fun e => decide (¬ e.stamp ≤ (s.rename π).stamp)) =
      (st.takeWhile (fun e => decide (¬ e.stamp ≤ s.stamp))).map (Sample.rename π) := by
    rw [List.takeWhile_map]; rfl
  have e2 : (st.map (Sample.rename π)).dropWhile (fun e => decide (¬ e.stamp ≤ (s.rename π).stamp)) =
      (st.dropWhile (fun e => decide (¬ e.stamp ≤ s.stamp))).map (Sample.rename π) := by
    rw [List.dropWhile_map]; rfl
  unfold insertBody
  simp only [e1, e2]
  have e3 : ∀ pre post : List (Sample X), pre.map (Sample.rename π) ++ s.rename π :: post.map (Sample.rename π) =
      (pre ++ s :: post).map (Sample.rename π) := by simp
  simp only [e3, pruneList_rename]
  cases hd : st.dropWhile (fun e => decide (¬ e.stamp ≤ s.stamp)) with
  | nil => rfl
  | cons e r =>
    by_cases h : e.stamp = s.stamp
    · have h' : (e.rename π).stamp = (s.rename π).stamp := h
      simp only [List.map_cons, if_pos h, if_pos h']
    · have h' : (e.rename π).stamp ≠ (s.rename π).stamp := h
      simp only [List.map_cons, if_neg h, if_neg h']

theorem insert_rename (c : Cache X) (s : Sample X) :
    (c.rename π).insert (s.rename π) = ((c.insert s).1.rename π, (c.insert s).2) := by
  match c with
  | .stat o => rfl
  | .dyn D [] =>
    have := insertBody_rename (π := π) D [] s
    simp only [List.map_nil] at this
    simp only [Cache.rename, Cache.insert, dynInsert, List.map_nil, this]
  | .dyn D (f :: r) =>
    have := insertBody_rename (π := π) D (f :: r) s
    simp only [List.map_cons] at this
    simp only [Cache.rename, Cache.insert, dynInsert, List.map_cons, Sample.rename_stamp, this]
    cases timeAdd s.stamp D with
    | none => rfl
    | some l =>
      simp only
      split <;> rfl

theorem cacheRun_rename (l : List (CacheOp X)) : ∀ c : Cache X,
    (c.rename π).run (l.map (CacheOp.rename π)) = (c.run l).rename π := by
  induction l with
  | nil => intro c; rfl
  | cons o r ih =>
    intro c
    cases o with
    | insert s =>
      simp only [List.map_cons, CacheOp.rename, Cache.run, insert_rename, ih]
    | clear =>
      simp only [List.map_cons, CacheOp.rename, Cache.run]
      rw [← ih]
      congr 1
      cases c <;> rfl

/-! ### Walks -/

/-- The accumulators `f` and `g` do the same up to the renumbering, with states related by `ρ`. -/
structure AccumIso (π : Nat → Nat) (f : Accum X A) (ρ : A → A) : Prop where
  gather : ∀ c t a, f.gather (c.rename π) t (ρ a) = ((f.gather c t a).1.rename π, ρ (f.gather c t a).2)
  accum : ∀ s a, f.accum s (ρ a) = ρ (f.accum s a)
  finalize : ∀ e t a, f.finalize e t (ρ a) = ρ (f.finalize e t a)

/-- Two buffers that are equal up to the renumbering `π`. -/
structure BufIso (π : Nat → Nat) (b b' : Buf X) : Prop where
  inj : ∀ i j, π i = π j → i = j
  zero : π 0 = 0
  frame : ∀ i, b'.getFrame (π i) = (b.getFrame i).map (Cache.rename π)
  num : ∀ n, b'.lookupFrameNumber n = π (b.lookupFrameNumber n)
  str : ∀ i, b'.lookupFrameString (π i) = b.lookupFrameString i

/-- Renumber. -/
def Loop1.rename (π : Nat → Nat) (ρ : A → A) : Loop1 A → Loop1 A
  | .exit top ex a ch => .exit (π top) ex (ρ a) (ch.map π)
  | .early a ch => .early (ρ a) (ch.map π)
  | .tooDeep => .tooDeep
  | .ub => .ub

/-- Renumber. -/
def Loop2.rename (π : Nat → Nat) (ρ : A → A) : Loop2 A → Loop2 A
  | .exit fr a ch => .exit (π fr) (ρ a) (ch.map π)
  | .extrap => .extrap
  | .early a ch => .early (ρ a) (ch.map π)
  | .tooDeep => .tooDeep
  | .ub => .ub

/-- Renumber. -/
def WalkRes.rename (π : Nat → Nat) (ρ : A → A) : WalkRes A → WalkRes A
  | .done a ch => .done (ρ a) (ch.map π)
  | .err c => .err c
  | .ub => .ub

section
variable {f : Accum X A} {ρ : A → A} {b b' : Buf X}

theorem BufIso.pos (I : BufIso π b b') (p : Nat) : ∃ q, π (p + 1) = q + 1 := by
  have : π (p + 1) ≠ 0 := fun e => by
    have := I.inj (p + 1) 0 (by rw [e, I.zero]); omega
  exact ⟨π (p + 1) - 1, by omega⟩

theorem BufIso.ne (I : BufIso π b b') {i j : Nat} (h : i ≠ j) : π i ≠ π j := fun e => h (I.inj _ _ e)

theorem BufIso.ne0 (I : BufIso π b b') {i : Nat} (h : i ≠ 0) : π i ≠ 0 := fun e => h (I.inj _ _ (by rw [e, I.zero]))

theorem walkSource_rename (I : BufIso π b b') (F : AccumIso π f ρ) (t : Time) (tgt k : Nat) :
    ∀ (frame : Nat) (a : A) (chain : List Nat),
      b'.walkSource f t (π tgt) k (π frame) (ρ a) (chain.map π) =
        (b.walkSource f t tgt k frame a chain).rename π ρ := by
  induction k with
  | zero =>
    intro frame a chain
    by_cases h0 : frame = 0
    · subst h0; rw [I.zero, walkSource_zero, walkSource_zero]; simp [Loop1.rename, I.zero]
    · have h0' := I.ne0 h0
      cases hc : b.getFrame frame with
      | none =>
        have hc' : b'.getFrame (π frame) = none := by rw [I.frame, hc]; rfl
        rw [walkSource_none h0 hc, walkSource_none h0' hc']; simp [Loop1.rename]
      | some c =>
        have hc' : b'.getFrame (π frame) = some (c.rename π) := by rw [I.frame, hc]; rfl
        have e := F.gather c t a
        rcases hf : f.gather c t a with ⟨r, a1⟩
        rw [hf] at e
        match r, hf, e with
        | .ub, hf, e => rw [walkSource_ub h0 hc hf, walkSource_ub h0' hc' e]; rfl
        | .id 0, hf, e =>
          simp only [ParRes.rename, I.zero] at e
          rw [walkSource_fail h0 hc hf, walkSource_fail h0' hc' e]; simp [Loop1.rename]
        | .id (p + 1), hf, e =>
          obtain ⟨q, hq⟩ := I.pos p
          simp only [ParRes.rename, hq] at e
          by_cases ht : frame = tgt
          · rw [walkSource_early h0 hc hf ht, walkSource_early h0' hc' e (by rw [ht]), F.finalize]
            simp [Loop1.rename]
          · rw [walkSource_deep h0 hc hf ht, walkSource_deep h0' hc' e (I.ne ht)]; rfl
  | succ k ih =>
    intro frame a chain
    by_cases h0 : frame = 0
    · subst h0; rw [I.zero, walkSource_zero, walkSource_zero]; simp [Loop1.rename, I.zero]
    · have h0' := I.ne0 h0
      cases hc : b.getFrame frame with
      | none =>
        have hc' : b'.getFrame (π frame) = none := by rw [I.frame, hc]; rfl
        rw [walkSource_none h0 hc, walkSource_none h0' hc']; simp [Loop1.rename]
      | some c =>
        have hc' : b'.getFrame (π frame) = some (c.rename π) := by rw [I.frame, hc]; rfl
        have e := F.gather c t a
        rcases hf : f.gather c t a with ⟨r, a1⟩
        rw [hf] at e
        match r, hf, e with
        | .ub, hf, e => rw [walkSource_ub h0 hc hf, walkSource_ub h0' hc' e]; rfl
        | .id 0, hf, e =>
          simp only [ParRes.rename, I.zero] at e
          rw [walkSource_fail h0 hc hf, walkSource_fail h0' hc' e]; simp [Loop1.rename]
        | .id (p + 1), hf, e =>
          obtain ⟨q, hq⟩ := I.pos p
          simp only [ParRes.rename, hq] at e
          by_cases ht : frame = tgt
          · rw [walkSource_early h0 hc hf ht, walkSource_early h0' hc' e (by rw [ht]), F.finalize]
            simp [Loop1.rename]
          · rw [walkSource_step h0 hc hf ht, walkSource_step h0' hc' e (I.ne ht), F.accum, ← hq,
              ← ih (p + 1)]
            simp

theorem walkTarget_rename (I : BufIso π b b') (F : AccumIso π f ρ) (t : Time) (src top k : Nat) :
    ∀ (frame : Nat) (a : A) (chain : List Nat),
      b'.walkTarget f t (π src) (π top) k (π frame) (ρ a) (chain.map π) =
        (b.walkTarget f t src top k frame a chain).rename π ρ := by
  induction k with
  | zero =>
    intro frame a chain
    by_cases h0 : frame = top
    · subst h0; rw [walkTarget_top, walkTarget_top]; simp [Loop2.rename]
    · have h0' := I.ne h0
      cases hc : b.getFrame frame with
      | none =>
        have hc' : b'.getFrame (π frame) = none := by rw [I.frame, hc]; rfl
        rw [walkTarget_none h0 hc, walkTarget_none h0' hc']; simp [Loop2.rename]
      | some c =>
        have hc' : b'.getFrame (π frame) = some (c.rename π) := by rw [I.frame, hc]; rfl
        have e := F.gather c t a
        rcases hf : f.gather c t a with ⟨r, a1⟩
        rw [hf] at e
        match r, hf, e with
        | .ub, hf, e => rw [walkTarget_ub h0 hc hf, walkTarget_ub h0' hc' e]; rfl
        | .id 0, hf, e =>
          simp only [ParRes.rename, I.zero] at e
          rw [walkTarget_fail h0 hc hf, walkTarget_fail h0' hc' e]; simp [Loop2.rename]
        | .id (p + 1), hf, e =>
          obtain ⟨q, hq⟩ := I.pos p
          simp only [ParRes.rename, hq] at e
          by_cases ht : frame = src
          · rw [walkTarget_early h0 hc hf ht, walkTarget_early h0' hc' e (by rw [ht]), F.finalize]
            simp [Loop2.rename]
          · rw [walkTarget_deep h0 hc hf ht, walkTarget_deep h0' hc' e (I.ne ht)]; rfl
  | succ k ih =>
    intro frame a chain
    by_cases h0 : frame = top
    · subst h0; rw [walkTarget_top, walkTarget_top]; simp [Loop2.rename]
    · have h0' := I.ne h0
      cases hc : b.getFrame frame with
      | none =>
        have hc' : b'.getFrame (π frame) = none := by rw [I.frame, hc]; rfl
        rw [walkTarget_none h0 hc, walkTarget_none h0' hc']; simp [Loop2.rename]
      | some c =>
        have hc' : b'.getFrame (π frame) = some (c.rename π) := by rw [I.frame, hc]; rfl
        have e := F.gather c t a
        rcases hf : f.gather c t a with ⟨r, a1⟩
        rw [hf] at e
        match r, hf, e with
        | .ub, hf, e => rw [walkTarget_ub h0 hc hf, walkTarget_ub h0' hc' e]; rfl
        | .id 0, hf, e =>
          simp only [ParRes.rename, I.zero] at e
          rw [walkTarget_fail h0 hc hf, walkTarget_fail h0' hc' e]; simp [Loop2.rename]
        | .id (p + 1), hf, e =>
          obtain ⟨q, hq⟩ := I.pos p
          simp only [ParRes.rename, hq] at e
          by_cases ht : frame = src
          · rw [walkTarget_early h0 hc hf ht, walkTarget_early h0' hc' e (by rw [ht]), F.finalize]
            simp [Loop2.rename]
          · rw [walkTarget_step h0 hc hf ht, walkTarget_step h0' hc' e (I.ne ht), F.accum, ← hq,
              ← ih (p + 1)]
            simp

theorem stripCommon_map (hinj : ∀ i j, π i = π j → i = j) : ∀ c r : List Nat,
    stripCommon (c.map π) (r.map π) = ((stripCommon c r).1.map π, (stripCommon c r).2.map π) := by
  intro c
  induction c with
  | nil => intro r; cases r <;> rfl
  | cons x c ih =>
    intro r
    cases r with
    | nil => rfl
    | cons y r =>
      simp only [List.map_cons, stripCommon]
      by_cases h : x = y
      · rw [if_pos h, if_pos (by rw [h]), ih]
      · rw [if_neg h, if_neg (fun e => h (hinj _ _ e))]; rfl

theorem pruneChain_map (hinj : ∀ i j, π i = π j → i = j) (c r : List Nat) :
    pruneChain (c.map π) (r.map π) = (pruneChain c r).map (List.map π) := by
  unfold pruneChain
  simp only [← List.map_reverse, stripCommon_map hinj, List.length_map]
  split
  · split
    · simp [List.map_take]
    · rfl
  · simp

theorem walkAt_rename (I : BufIso π b b') (F : AccumIso π f ρ) (t : Time) (tgt src : Nat) (a : A) :
    b'.walkAt f (ρ a) t (π tgt) (π src) = (b.walkAt f a t tgt src).rename π ρ := by
  have h1 := walkSource_rename I F t tgt maxGraphDepth src a []
  rw [List.map_nil] at h1
  unfold Buf.walkAt
  rw [h1]
  cases b.walkSource f t tgt maxGraphDepth src a [] with
  | ub => rfl
  | tooDeep => rfl
  | early => rfl
  | exit top ex a1 ch =>
    have h2 := walkTarget_rename I F t src top maxGraphDepth tgt a1 []
    rw [List.map_nil] at h2
    simp only [Loop1.rename]
    rw [h2]
    cases b.walkTarget f t src top maxGraphDepth tgt a1 [] with
    | ub => rfl
    | tooDeep => rfl
    | extrap => rfl
    | early a rev => simp [Loop2.rename, WalkRes.rename]
    | exit fr a2 rev =>
      simp only [Loop2.rename]
      by_cases h : fr = top
      · rw [if_pos h, if_pos (by rw [h])]
        have e : rev.map π ++ [π fr] = (rev ++ [fr]).map π := by simp
        rw [e, pruneChain_map I.inj]
        cases pruneChain ch (rev ++ [fr]) with
        | none => rfl
        | some l => simp [WalkRes.rename, F.finalize]
      · rw [if_neg h, if_neg (I.ne h)]
        split <;> rfl

end

/-! ### Latest common time -/

theorem lctSource_rename {b b' : Buf X} (I : BufIso π b b') (tgt k : Nat) :
    ∀ (frame : Nat) (common : Time) (lct : List (Time × Nat)),
      b'.lctSource (π tgt) k (π frame) common (lct.map (fun e => (e.1, π e.2))) =
        match b.lctSource tgt k frame common lct with
        | .exit l => .exit (l.map (fun e => (e.1, π e.2)))
        | r => r := by
  induction k with
  | zero =>
    intro frame common lct
    unfold Buf.lctSource
    by_cases h0 : frame = 0
    · subst h0; simp [I.zero]
    · have h0' := I.ne0 h0
      simp only [h0, h0', if_false, I.frame]
      cases hc : b.getFrame frame with
      | none => rfl
      | some c =>
        simp only [Option.map_some, latestTimeAndParent_rename I.zero]
        match c.latestTimeAndParent with
        | none => rfl
        | some (lt, 0) => simp [I.zero]
        | some (lt, p + 1) =>
          obtain ⟨q, hq⟩ := I.pos p
          simp only [Option.map_some, hq]
          by_cases ht : p + 1 = tgt
          · have : q + 1 = π tgt := by rw [← ht, hq]
            simp only [ht, this, if_true]
          · have : q + 1 ≠ π tgt := by rw [← hq]; exact I.ne ht
            simp only [ht, this, if_false]
  | succ k ih =>
    intro frame common lct
    unfold Buf.lctSource
    by_cases h0 : frame = 0
    · subst h0; simp [I.zero]
    · have h0' := I.ne0 h0
      simp only [h0, h0', if_false, I.frame]
      cases hc : b.getFrame frame with
      | none => rfl
      | some c =>
        simp only [Option.map_some, latestTimeAndParent_rename I.zero]
        match c.latestTimeAndParent with
        | none => rfl
        | some (lt, 0) => simp [I.zero]
        | some (lt, p + 1) =>
          obtain ⟨q, hq⟩ := I.pos p
          simp only [Option.map_some, hq]
          by_cases ht : p + 1 = tgt
          · have : q + 1 = π tgt := by rw [← ht, hq]
            simp only [ht, this, if_true]
          · have : q + 1 ≠ π tgt := by rw [← hq]; exact I.ne ht
            simp only [ht, this, if_false]
            rw [← ih (p + 1), hq, List.map_append, List.map_cons, List.map_nil, hq]

theorem any_rename (hinj : ∀ i j, π i = π j → i = j) (l : List (Time × Nat)) (p : Nat) :
    (l.map (fun e => (e.1, π e.2))).any (fun e => decide (e.2 = π p)) = l.any (fun e => decide (e.2 = p)) := by
  rw [List.any_map]
  congr 1
  funext e
  simp only [Function.comp]
  by_cases h : e.2 = p
  · simp [h]
  · have : π e.2 ≠ π p := fun x => h (hinj _ _ x)
    simp [h, this]

/-- Renumber. -/
def Lct2.rename (π : Nat → Nat) : Lct2 → Lct2
  | .exit p c => .exit (π p) c
  | .early t => .early t
  | .tooDeep => .tooDeep
  | .ub => .ub

theorem lctTarget_rename {b b' : Buf X} (I : BufIso π b b') (src : Nat) (lct : List (Time × Nat)) (k : Nat) :
    ∀ (frame : Nat) (common : Time),
      b'.lctTarget (π src) (lct.map (fun e => (e.1, π e.2))) k (π frame) common =
        (b.lctTarget src lct k frame common).rename π := by
  induction k with
  | zero =>
    intro frame common
    unfold Buf.lctTarget
    simp only [I.frame]
    cases hc : b.getFrame frame with
    | none => simp [Lct2.rename, I.zero]
    | some c =>
      simp only [Option.map_some, latestTimeAndParent_rename I.zero]
      match c.latestTimeAndParent with
      | none => rfl
      | some (lt, 0) => simp [Lct2.rename, I.zero]
      | some (lt, p + 1) =>
        obtain ⟨q, hq⟩ := I.pos p
        have ha := any_rename I.inj lct (p + 1)
        rw [hq] at ha
        simp only [Option.map_some, hq, ha]
        split
        · simp [Lct2.rename, hq]
        · by_cases ht : p + 1 = src
          · have : q + 1 = π src := by rw [← ht, hq]
            simp only [ht, this, if_true]; rfl
          · have : q + 1 ≠ π src := by rw [← hq]; exact I.ne ht
            simp only [ht, this, if_false]; rfl
  | succ k ih =>
    intro frame common
    unfold Buf.lctTarget
    simp only [I.frame]
    cases hc : b.getFrame frame with
    | none => simp [Lct2.rename, I.zero]
    | some c =>
      simp only [Option.map_some, latestTimeAndParent_rename I.zero]
      match c.latestTimeAndParent with
      | none => rfl
      | some (lt, 0) => simp [Lct2.rename, I.zero]
      | some (lt, p + 1) =>
        obtain ⟨q, hq⟩ := I.pos p
        have ha := any_rename I.inj lct (p + 1)
        rw [hq] at ha
        simp only [Option.map_some, hq, ha]
        split
        · simp [Lct2.rename, hq]
        · by_cases ht : p + 1 = src
          · have : q + 1 = π src := by rw [← ht, hq]
            simp only [ht, this, if_true]; rfl
          · have : q + 1 ≠ π src := by rw [← hq]; exact I.ne ht
            simp only [ht, this, if_false]
            rw [← ih (p + 1), hq]

theorem lctJoin_rename (hinj : ∀ i j, π i = π j → i = j) (p : Nat) (l : List (Time × Nat)) : ∀ common,
    Buf.lctJoin (π p) (l.map (fun e => (e.1, π e.2))) common = Buf.lctJoin p l common := by
  induction l with
  | nil => intro c; rfl
  | cons e r ih =>
    intro c
    simp only [List.map_cons, Buf.lctJoin]
    by_cases h : e.2 = p
    · rw [if_pos h, if_pos (by rw [h])]
    · rw [if_neg h, if_neg (fun x => h (hinj _ _ x)), ih]

theorem latestCommonTime_rename {b b' : Buf X} (I : BufIso π b b') (tgt src : Nat) :
    b'.latestCommonTime (π tgt) (π src) = b.latestCommonTime tgt src := by
  have e0 : ∀ i, π i = 0 ↔ i = 0 := fun i => ⟨fun h => I.inj _ _ (by rw [h, I.zero]), fun h => by rw [h, I.zero]⟩
  have e1 : π src = π tgt ↔ src = tgt := ⟨fun h => I.inj _ _ h, fun h => by rw [h]⟩
  have h1 := lctSource_rename I tgt maxGraphDepth src TIME_MAX []
  rw [List.map_nil] at h1
  unfold Buf.latestCommonTime
  simp only [e0, e1]
  split
  · rfl
  split
  · rw [I.frame]
    cases b.getFrame src with
    | none => rfl
    | some c => simp [latestStamp_rename]
  rw [h1]
  cases b.lctSource tgt maxGraphDepth src TIME_MAX [] with
  | ub => rfl
  | tooDeep => rfl
  | early => rfl
  | exit l =>
    simp only
    rw [lctTarget_rename I]
    cases b.lctTarget src l maxGraphDepth tgt TIME_MAX with
    | ub => rfl
    | tooDeep => rfl
    | early => rfl
    | exit p c =>
      cases p with
      | zero => simp [Lct2.rename, I.zero]
      | succ p =>
        obtain ⟨q, hq⟩ := I.pos p
        simp only [Lct2.rename, hq]
        rw [← hq, lctJoin_rename I.inj]

theorem walk_rename {f : Accum X A} {ρ : A → A} {b b' : Buf X} (I : BufIso π b b') (F : AccumIso π f ρ)
    (t : Time) (tgt src : Nat) (a : A) :
    b'.walk f (ρ a) t (π tgt) (π src) = (b.walk f a t tgt src).rename π ρ := by
  unfold Buf.walk
  by_cases h : src = tgt
  · rw [if_pos h, if_pos (by rw [h]), F.finalize]; rfl
  rw [if_neg h, if_neg (I.ne h)]
  split
  · rw [latestCommonTime_rename I]
    cases b.latestCommonTime tgt src with
    | ub => rfl
    | err c => rfl
    | ok t' => exact walkAt_rename I F t' tgt src a
  · exact walkAt_rename I F t tgt src a

theorem canAccum_iso (h0 : π 0 = 0) : AccumIso (X := X) π canAccum id where
  gather c t a := by
    show ((c.rename π).getParent t, a) = _
    rw [getParent_rename h0]; rfl
  accum _ _ := rfl
  finalize _ _ _ := rfl

/-- Renumber the sample kept by the accumulator. -/
def TAcc.rename (π : Nat → Nat) (a : TAcc X) : TAcc X := { a with st := a.st.map (Sample.rename π) }

theorem TAcc.edge_rename [Rigid X] (a : TAcc X) : (a.rename π).edge = a.edge := by
  unfold TAcc.edge TAcc.rename
  cases a.st <;> rfl

theorem transformAccum_iso [Rigid X] (hinj : ∀ i j, π i = π j → i = j) (h0 : π 0 = 0) :
    AccumIso (X := X) π transformAccum (TAcc.rename π) where
  gather c t a := by
    simp only [transformAccum, getData_rename hinj]
    cases c.getData t with
    | fail => simp [GetRes.rename, ParRes.rename, h0]
    | ok s => rfl
    | ub => rfl
  accum s a := by
    simp only [transformAccum, TAcc.edge_rename]
    cases s <;> rfl
  finalize e t a := by cases e <;> rfl

/-! ### Queries by name -/

section
variable [Rigid X] {b b' : Buf X}

theorem validateFrameId_rename (I : BufIso π b b') (n : Name) :
    b'.validateFrameId n = match b.validateFrameId n with
      | .ok i => .ok (π i)
      | .throw e => .throw e
      | .ub => .ub := by
  unfold Buf.validateFrameId
  split
  · rfl
  split
  · rfl
  rw [I.num]
  cases b.lookupFrameNumber n with
  | zero => simp [I.zero]
  | succ i =>
    obtain ⟨q, hq⟩ := I.pos i
    simp [hq]

theorem lookupTransform_rename (I : BufIso π b b') (target source : Name) (t : Time) :
    b'.lookupTransform target source t = b.lookupTransform target source t := by
  unfold Buf.lookupTransform
  split
  · rw [I.num, I.frame]
    cases b.getFrame (b.lookupFrameNumber target) with
    | none => rfl
    | some c => simp [latestStamp_rename]
  rw [validateFrameId_rename I, validateFrameId_rename I]
  cases b.validateFrameId target with
  | throw e => rfl
  | ub => rfl
  | ok i =>
    cases b.validateFrameId source with
    | throw e => rfl
    | ub => rfl
    | ok j =>
      simp only
      have := walk_rename I (transformAccum_iso I.inj I.zero) t i j TAcc.init
      rw [show (TAcc.init : TAcc X).rename π = TAcc.init from rfl] at this
      rw [this]
      cases b.walk transformAccum TAcc.init t i j <;> rfl

theorem lookupTransform5_rename (I : BufIso π b b') (target : Name) (tt : Time) (source : Name) (st : Time)
    (fixed : Name) :
    b'.lookupTransform5 target tt source st fixed = b.lookupTransform5 target tt source st fixed := by
  unfold Buf.lookupTransform5
  rw [validateFrameId_rename I, validateFrameId_rename I, validateFrameId_rename I,
    lookupTransform_rename I, lookupTransform_rename I]
  cases b.validateFrameId target with
  | throw e => rfl
  | ub => rfl
  | ok i =>
    cases b.validateFrameId source with
    | throw e => rfl
    | ub => rfl
    | ok j =>
      cases b.validateFrameId fixed with
      | throw e => rfl
      | ub => rfl
      | ok k => rfl

theorem canTransformNoLock_rename (I : BufIso π b b') (i j : Nat) (t : Time) :
    b'.canTransformNoLock (π i) (π j) t = b.canTransformNoLock i j t := by
  have e0 : ∀ i, π i = 0 ↔ i = 0 := fun i => ⟨fun h => I.inj _ _ (by rw [h, I.zero]), fun h => by rw [h, I.zero]⟩
  have e1 : π i = π j ↔ i = j := ⟨fun h => I.inj _ _ h, fun h => by rw [h]⟩
  unfold Buf.canTransformNoLock
  simp only [e0, e1]
  have := walk_rename I (canAccum_iso (X := X) I.zero) t i j ()
  rw [id] at this
  rw [this]
  cases b.walk canAccum () t i j <;> rfl

theorem canTransform_rename (I : BufIso π b b') (target source : Name) (t : Time) :
    b'.canTransform target source t = b.canTransform target source t := by
  have e0 : ∀ i, π i = 0 ↔ i = 0 := fun i => ⟨fun h => I.inj _ _ (by rw [h, I.zero]), fun h => by rw [h, I.zero]⟩
  unfold Buf.canTransform
  simp only [I.num, e0, canTransformNoLock_rename I]

theorem canTransform5_rename (I : BufIso π b b') (target : Name) (tt : Time) (source : Name) (st : Time)
    (fixed : Name) :
    b'.canTransform5 target tt source st fixed = b.canTransform5 target tt source st fixed := by
  have e0 : ∀ i, π i = 0 ↔ i = 0 := fun i => ⟨fun h => I.inj _ _ (by rw [h, I.zero]), fun h => by rw [h, I.zero]⟩
  unfold Buf.canTransform5
  simp only [I.num, e0, canTransformNoLock_rename I]

theorem bufGetParent_rename (I : BufIso π b b') (n : Name) (t : Time) :
    b'.getParent n t = b.getParent n t := by
  unfold Buf.getParent
  rw [I.num, I.frame]
  cases b.getFrame (b.lookupFrameNumber n) with
  | none => rfl
  | some c =>
    simp only [Option.map_some, getParent_rename I.zero]
    match c.getParent t with
    | .ub => rfl
    | .id 0 => simp [ParRes.rename, I.zero]
    | .id (p + 1) =>
      obtain ⟨q, hq⟩ := I.pos p
      simp only [ParRes.rename, hq]
      rw [← hq, I.str]

theorem chainNames_rename (I : BufIso π b b') (l : List Nat) :
    b'.chainNames (l.map π) = b.chainNames l := by
  induction l with
  | nil => rfl
  | cons i r ih => simp only [List.map_cons, Buf.chainNames, I.str, ih]

theorem chainAsVector_rename (I : BufIso π b b') (target : Name) (tt : Time) (source : Name) (st : Time)
    (fixed : Name) :
    b'.chainAsVector target tt source st fixed = b.chainAsVector target tt source st fixed := by
  unfold Buf.chainAsVector
  simp only [I.num]
  have h1 := walk_rename I (transformAccum_iso I.inj I.zero) st (b.lookupFrameNumber fixed)
    (b.lookupFrameNumber source) TAcc.init
  rw [show (TAcc.init : TAcc X).rename π = TAcc.init from rfl] at h1
  rw [h1]
  cases b.walk transformAccum TAcc.init st (b.lookupFrameNumber fixed) (b.lookupFrameNumber source) with
  | ub => rfl
  | err c => rfl
  | done a sc =>
    simp only [WalkRes.rename]
    have h2 := walk_rename I (transformAccum_iso I.inj I.zero) tt (b.lookupFrameNumber target)
      (b.lookupFrameNumber fixed) a
    rw [h2]
    cases b.walk transformAccum a tt (b.lookupFrameNumber target) (b.lookupFrameNumber fixed) with
    | ub => rfl
    | err c => rfl
    | done a' tc =>
      simp only [WalkRes.rename]
      have e : (sc.map π ≠ [] ∧ tc.map π ≠ [] ∧ (sc.map π).getLast? = (tc.map π).head?) ↔
          (sc ≠ [] ∧ tc ≠ [] ∧ sc.getLast? = tc.head?) := by
        simp only [ne_eq, List.map_eq_nil_iff, List.getLast?_map, List.head?_map]
        constructor
        · rintro ⟨h1, h2, h3⟩
          refine ⟨h1, h2, ?_⟩
          cases hx : sc.getLast? with
          | none => exact absurd (List.getLast?_eq_none_iff.1 hx) h1
          | some x =>
            cases hy : tc.head? with
            | none => exact absurd (List.head?_eq_none_iff.1 hy) h2
            | some y =>
              rw [hx, hy] at h3
              simp only [Option.map_some, Option.some.injEq] at h3
              rw [I.inj _ _ h3]
        · rintro ⟨h1, h2, h3⟩
          exact ⟨h1, h2, by rw [h3]⟩
      by_cases hc : sc ≠ [] ∧ tc ≠ [] ∧ sc.getLast? = tc.head?
      · rw [if_pos hc, if_pos (e.2 hc), ← chainNames_rename I]; simp [List.map_dropLast]
      · rw [if_neg hc, if_neg (fun h => hc (e.1 h)), ← chainNames_rename I]; simp

theorem frameLine_rename (I : BufIso π b b') (i : Nat) : b'.frameLine (π i) = b.frameLine i := by
  have hs : ∀ i, b'.frameIDsReverse[π i]? = b.frameIDsReverse[i]? := by
    intro i
    have := I.str i
    unfold Buf.lookupFrameString at this
    generalize b'.frameIDsReverse[π i]? = x at *
    generalize b.frameIDsReverse[i]? = y at *
    cases x <;> cases y <;> simp_all
  unfold Buf.frameLine
  rw [I.frame]
  cases b.getFrame i with
  | none => rfl
  | some c =>
    simp only [Option.map_some, getData_rename I.inj]
    cases c.getData 0 with
    | ub => rfl
    | fail =>
      have := hs 0
      rw [I.zero] at this
      simp only [GetRes.rename, hs, this]
    | ok s => simp only [GetRes.rename, hs, Sample.rename_parent]

end
end Tf2
