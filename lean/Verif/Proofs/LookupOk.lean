import Verif.Proofs.Lookup

namespace Tf2

variable {X : Type}

/-! ### No undefined behaviour -/

theorem CacheOK.latest_ne_none {D : Duration} {i N : Nat} {c : Cache X} (h : CacheOK D i N c) :
    c.latestTimeAndParent ≠ none := by
  cases c with
  | dyn D' st => simp [Cache.latestTimeAndParent]
  | stat o =>
    cases o with
    | none => exact absurd h (by simp [CacheOK])
    | some s => simp [Cache.latestTimeAndParent]

theorem lctSource_ne_ub {D : Duration} {b : Buf X} (hw : WF D b) (tgt k : Nat) :
    ∀ (frame : Nat) (common : Time) (lct : List (Time × Nat)), b.lctSource tgt k frame common lct ≠ .ub := by
  induction k with
  | zero =>
    intro frame common lct
    unfold Buf.lctSource
    split
    · simp
    · cases hc : b.getFrame frame with
      | none => simp
      | some c =>
        simp only
        split
        · rename_i h; exact absurd h (hw.caches _ _ hc).latest_ne_none
        · simp
        · split <;> simp
  | succ k ih =>
    intro frame common lct
    unfold Buf.lctSource
    split
    · simp
    · cases hc : b.getFrame frame with
      | none => simp
      | some c =>
        simp only
        split
        · rename_i h; exact absurd h (hw.caches _ _ hc).latest_ne_none
        · simp
        · split
          · simp
          · exact ih _ _ _

theorem lctTarget_ne_ub {D : Duration} {b : Buf X} (hw : WF D b) (src : Nat) (lct : List (Time × Nat))
    (k : Nat) : ∀ (frame : Nat) (common : Time), b.lctTarget src lct k frame common ≠ .ub := by
  induction k with
  | zero =>
    intro frame common
    unfold Buf.lctTarget
    cases hc : b.getFrame frame with
    | none => simp
    | some c =>
      simp only
      split
      · rename_i h; exact absurd h (hw.caches _ _ hc).latest_ne_none
      · simp
      · split
        · simp
        · split <;> simp
  | succ k ih =>
    intro frame common
    unfold Buf.lctTarget
    cases hc : b.getFrame frame with
    | none => simp
    | some c =>
      simp only
      split
      · rename_i h; exact absurd h (hw.caches _ _ hc).latest_ne_none
      · simp
      · split
        · simp
        · split
          · simp
          · exact ih _ _

theorem latestCommonTime_ne_ub {D : Duration} {b : Buf X} (hw : WF D b) (tgt src : Nat) :
    b.latestCommonTime tgt src ≠ .ub := by
  unfold Buf.latestCommonTime
  split
  · simp
  · split
    · split <;> simp
    · have h1 := lctSource_ne_ub hw tgt maxGraphDepth src TIME_MAX []
      split
      · rename_i h; exact absurd h h1
      · simp
      · simp
      · rename_i lct _
        have h2 := lctTarget_ne_ub hw src lct maxGraphDepth tgt TIME_MAX
        split
        · rename_i h; exact absurd h h2
        all_goals simp

/-- The error codes of `getLatestCommonTime`. -/
theorem latestCommonTime_err {b : Buf X} {tgt src : Nat} {c : Code}
    (h : b.latestCommonTime tgt src = .err c) : c = .lookup ∨ c = .connectivity := by
  unfold Buf.latestCommonTime at h
  repeat' split at h
  all_goals first
    | (injection h with h; subst h; first | exact Or.inl rfl | exact Or.inr rfl)
    | cases h

theorem walk_ne_ub [Rigid X] {D : Duration} {b : Buf X} (hw : WF D b) {t : Time} {tgt src : Nat}
    (hs : src ≠ 0) : b.walk transformAccum TAcc.init t tgt src ≠ .ub := by
  have key : ∀ t, b.walkAt transformAccum TAcc.init t tgt src ≠ .ub := by
    intro t h
    have hsp := walkAt_spec (t := t) hw (tgt := tgt) hs TAcc.init rfl rfl
    rw [h] at hsp; exact hsp
  unfold Buf.walk
  split
  · simp
  · split
    · split
      · rename_i h; exact absurd h (latestCommonTime_ne_ub hw tgt src)
      · simp
      · exact key _
    · exact key _

theorem walk_err [Rigid X] {D : Duration} {b : Buf X} (hw : WF D b) {t : Time} {tgt src : Nat}
    (hs : src ≠ 0) {c : Code} (h : b.walk transformAccum TAcc.init t tgt src = .err c) : c ≠ .noError := by
  have key : ∀ t c, b.walkAt transformAccum TAcc.init t tgt src = .err c → c ≠ .noError := by
    intro t c h hc
    have hsp := walkAt_spec (t := t) hw (tgt := tgt) hs TAcc.init rfl rfl
    rw [h, hc] at hsp; exact hsp
  unfold Buf.walk at h
  split at h
  · cases h
  · split at h
    · split at h
      · cases h
      · rename_i h'
        injection h with h; subst h
        rcases latestCommonTime_err h' with h | h <;> rw [h] <;> simp
      · exact key _ _ h
    · exact key _ _ h

/-- `canTransformNoLock` answers whether the walk of `lookupTransform` succeeds. -/
theorem canNoLock_iff [Rigid X] {D : Duration} {b : Buf X} (hw : WF D b) {t : Time} {tgt src : Nat}
    (hs : src ≠ 0) (ht : tgt ≠ 0) (hne : src ≠ tgt) :
    ∃ v, b.canTransformNoLock tgt src t = .ok v ∧
      (v = true ↔ ∃ a ch, b.walk transformAccum TAcc.init t tgt src = .done a ch) := by
  have hsim := walk_sim (f := transformAccum) (g := canAccum) (fun c t a a' => gather_same (X := X) c t a a')
    b t tgt src TAcc.init ()
  have hub := walk_ne_ub hw (t := t) (tgt := tgt) hs
  unfold Buf.canTransformNoLock
  rw [if_neg (by omega), if_neg (Ne.symm hne)]
  generalize b.walk transformAccum TAcc.init t tgt src = w at *
  generalize b.walk canAccum () t tgt src = w' at *
  cases w <;> cases w' <;> simp [WalkRes.forget] at hsim hub ⊢

/-- Everything a history offered is well formed, and the buffer is the one it produced. -/
theorem edgesIn_run [Rigid X] {U : X → Prop} (L : RigidLaws U) (D : Duration) {ops : List (Op X)}
    (hU : AllOffered U ops) : EdgesIn U ((Buf.init D).run ops) :=
  (StoredIn.run ops (WF.init D) (StoredIn.init U D) hU).edges L (WF.run (WF.init D) ops)

/-- A successful lookup from a frame whose chain ends: both chains end at the same frame. -/
theorem lookup_ok_ends [Rigid X] {D : Duration} {b : Buf X} (hw : WF D b)
    {t : Time} {g s r n : Nat} (hs : s ≠ 0) (he : EndsAt b t s r n) {a : TAcc X} {ch : List Nat}
    (h : b.walkAt transformAccum TAcc.init t g s = .done a ch) : ∃ m, EndsAt b t g r m := by
  have hsp := walkAt_spec (t := t) hw (tgt := g) hs TAcc.init rfl rfl
  rw [h] at hsp
  obtain ⟨_, ⟨k, _, hc⟩ | ⟨k, y, _, hc, _⟩ | ⟨q, x, y, k, l, _, _, hx, hy, hno, _⟩⟩ := hsp
  · exact ⟨_, he.of_chain hc⟩
  · exact ⟨_, EndsAt.cons hc he⟩
  · have e1 : EndsAt b t s q k := ⟨⟨_, hx⟩, hno⟩
    obtain ⟨rfl, _⟩ := he.unique e1
    exact ⟨l, ⟨_, hy⟩, hno⟩

/-- For known frames with legal names whose chains end within the limit, a lookup at a nonzero time
succeeds exactly when the chains end at the same frame. -/
theorem lookup_ok_iff [Rigid X] {D : Duration} {b : Buf X} (hw : WF D b) {target source : Name}
    {t : Time} (ht : t ≠ 0) {g s r r' : Nat} (hg : IsFrame b target g) (hs : IsFrame b source s)
    (lg : LegalName target) (ls : LegalName source) (rs : Rooted b t s r) (rg : Rooted b t g r') :
    (∃ m, b.lookupTransform target source t = .ok m) ↔ r = r' := by
  obtain ⟨n, hn, es⟩ := rs
  obtain ⟨k, hk, eg⟩ := rg
  by_cases hne : target = source
  · subst hne
    have : g = s := by have h1 := hg.2; rw [hs.2] at h1; injection h1 with h1; exact h1.symm
    subst this
    simp [Buf.lookupTransform, (es.unique eg).1]
  · rw [lookup_walkAt hw hg hs lg ls hne ht]
    rcases walkAt_total hw hs.1 es eg hn hk with ⟨h1, a, ch, h2⟩ | ⟨h1, _, _, h2⟩ | ⟨h1, _, h2⟩ <;>
      rw [h2] <;> simp [lookupOfWalk, h1]

/-- The value of a successful lookup, for equal or different names. -/
theorem lookup_value [Rigid X] {U : X → Prop} (L : RigidLaws U) {D : Duration} {b : Buf X}
    (hw : WF D b) (hE : EdgesIn U b) {target source : Name} {t : Time} (ht : t ≠ 0) {g s r n k : Nat}
    (hg : IsFrame b target g) (hs : IsFrame b source s) {x y : X}
    (hx : Chain b t s r x n) (hy : Chain b t g r y k) (hend : ¬ ∃ p e, ParentAt b t r p e)
    {m : Msg X} (h : b.lookupTransform target source t = .ok m) :
    m.xf = Rigid.comp (Rigid.inv y) x := by
  by_cases hne : target = source
  · subst hne
    have : g = s := by have h1 := hg.2; rw [hs.2] at h1; injection h1 with h1; exact h1.symm
    subst this
    have es : EndsAt b t g r n := ⟨⟨_, hx⟩, hend⟩
    have := es.pos_unique hx hy
    subst this
    rw [← (hx.det hy).2, L.inv_comp (hx.inU L hE)]
    simp only [Buf.lookupTransform, if_true, Res.ok.injEq] at h
    rw [← h]
  · obtain ⟨_, _, _, _, lg, ls⟩ := lookup_ok_frames hne h
    rw [lookup_walkAt hw hg hs lg ls hne ht] at h
    cases hwk : b.walkAt transformAccum TAcc.init t g s with
    | ub => rw [hwk] at h; cases h
    | err c => rw [hwk] at h; cases h
    | done a ch =>
      rw [hwk] at h
      simp only [lookupOfWalk, Res.ok.injEq] at h
      subst h
      exact (walkAt_value L hE hw hs.1 ⟨⟨_, hx⟩, hend⟩ ⟨⟨_, hy⟩, hend⟩ hx hy hwk).2

end Tf2
