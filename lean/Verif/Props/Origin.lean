import Verif.Props.Lookup
import Verif.Proofs.History
import Verif.Spec.Toy

/-!
# C66: where the stamps of results come from
-/
namespace Tf2

variable {X : Type}

/-- Every stamp a dynamic cache holds satisfies `P`. -/
def StampsIn (P : Time → Prop) (b : Buf X) : Prop :=
  ∀ f D st, b.getFrame f = some (.dyn D st) → ∀ s ∈ st, P s.stamp

theorem StampsIn.init (P : Time → Prop) (D : Duration) : StampsIn P (Buf.init D : Buf X) := by
  intro f D' st hc
  unfold Buf.init Buf.getFrame at hc
  cases f <;> simp at hc

theorem StampsIn.step [Rigid X] {P : Time → Prop} {D : Duration} {b : Buf X} (hw : WF D b)
    (h : StampsIn P b) (op : Op X) (ho : ∀ m a s, op = .set m a s → ValidMsg m → P m.stamp) : StampsIn P (b.step op) := by
  cases op with
  | clear =>
    intro f D' st hc
    simp only [Buf.step] at hc
    rw [Buf.getFrame_clear] at hc
    split at hc
    · exact h 0 D' st hc
    · cases hb : b.getFrame f with
      | none => rw [hb] at hc; cases hc
      | some c' =>
        rw [hb] at hc; simp only [Option.map_some, Option.some.injEq] at hc
        cases c' with
        | dyn D st' => cases hc; intro s hs; cases hs
        | stat o => cases hc
  | set m a s =>
    simp only [Buf.step]
    cases hv : Buf.msgValid (Buf.stripMsg m) with
    | false => rw [Buf.setTransform_invalid hv]; exact h
    | true =>
      have hm : P m.stamp := ho m a s rfl ((msgValid_iff m).1 hv)
      obtain ⟨cid, pid, c0, c1, ir, st⟩ := Buf.setTransform_step hw.names m a s hv
      intro f D' sts hc
      rw [st.hframes] at hc
      split at hc
      · injection hc with hc
        subst hc
        have hins := st.hins
        have h0 : ∀ D st', c0 = .dyn D st' → ∀ s ∈ st', P s.stamp := by
          intro D1 st1 he
          rw [st.hc0] at he
          cases hb : b.getFrame cid with
          | some c' =>
            rw [hb] at he
            simp only [Option.getD_some] at he
            subst he
            exact h cid D1 st1 hb
          | none =>
            rw [hb] at he
            simp only [Option.getD_none, Buf.newCache] at he
            split at he
            · cases he
            · cases he; intro s hs; cases hs
        cases c0 with
        | dyn D1 st' =>
          simp only [Cache.insert, Prod.mk.injEq] at hins
          have he := hins.1
          injection he with _ he
          subst he
          intro x hx
          rcases mem_dynInsert hx with hx | hx
          · exact h0 D1 st' rfl x hx
          · rw [hx]; exact hm
        | stat o =>
          simp only [Cache.insert, Prod.mk.injEq] at hins
          cases hins.1
      · exact h f D' sts hc

theorem StampsIn.run [Rigid X] {P : Time → Prop} {D : Duration} (ops : List (Op X)) :
    ∀ {b : Buf X}, WF D b → StampsIn P b → (∀ m a s, Op.set m a s ∈ ops → ValidMsg m → P m.stamp) →
      StampsIn P (b.run ops) := by
  induction ops with
  | nil => intro b _ h _; exact h
  | cons o r ih =>
    intro b hw h ho
    have h1 := h.step hw o (fun m a s e => ho m a s (by rw [e]; exact List.mem_cons_self ..))
    exact ih (hw.step o) h1 (fun m a s hm => ho m a s (List.mem_cons_of_mem _ hm))

/-- A newest stamp is zero or stored. -/
theorem StampsIn.latest {P : Time → Prop} {b : Buf X} (h : StampsIn P b) {f : Nat} {c : Cache X}
    (hc : b.getFrame f = some c) : (c.latestStamp = 0 ∨ P c.latestStamp) ∧
      ∀ t p, c.latestTimeAndParent = some (t, p) → t = 0 ∨ P t := by
  cases c with
  | dyn D st =>
    have := h f D st hc
    cases st with
    | nil =>
      refine ⟨.inl rfl, fun t p hp => ?_⟩
      cases hp
      exact .inl rfl
    | cons s r =>
      have hs := this s (List.mem_cons_self ..)
      refine ⟨.inr hs, fun t p hp => ?_⟩
      cases hp
      exact .inr hs
  | stat o =>
    refine ⟨.inl rfl, fun t p hp => ?_⟩
    cases o with
    | none => cases hp
    | some s => cases hp; exact .inl rfl

section
variable {P : Time → Prop} {b : Buf X}

theorem minNonzero_in {t common : Time} (ht : t = 0 ∨ P t) (hc : common = TIME_MAX ∨ P common) :
    minNonzero t common = TIME_MAX ∨ P (minNonzero t common) := by
  unfold minNonzero
  split
  · exact hc
  · rename_i h0
    rcases Nat.le_total t common with hle | hle
    · rw [Nat.min_eq_left hle]; exact .inr (ht.resolve_left h0)
    · rw [Nat.min_eq_right hle]; exact hc

theorem unMax_in {t : Time} (h : t = TIME_MAX ∨ P t) : unMax t = 0 ∨ P (unMax t) := by
  unfold unMax
  split
  · exact .inl rfl
  · rename_i hn; exact .inr (h.resolve_left hn)

theorem lctSource_in (h : StampsIn P b) (tgt k : Nat) : ∀ (frame : Nat) (common : Time) (lct : List (Time × Nat)),
    (common = TIME_MAX ∨ P common) → (∀ e ∈ lct, e.1 = 0 ∨ P e.1) →
    (∀ l, b.lctSource tgt k frame common lct = .exit l → ∀ e ∈ l, e.1 = 0 ∨ P e.1) ∧
    (∀ t, b.lctSource tgt k frame common lct = .early t → t = 0 ∨ P t) := by
  induction k with
  | zero =>
    intro frame common lct hc hl
    unfold Buf.lctSource
    split
    · exact ⟨fun l e => (by cases e; exact hl), fun t e => by cases e⟩
    · cases hf : b.getFrame frame with
      | none => exact ⟨fun l e => (by cases e; exact hl), fun t e => by cases e⟩
      | some c =>
        dsimp only
        cases hp : c.latestTimeAndParent with
        | none => exact ⟨fun l e => (by cases e), fun t e => by cases e⟩
        | some lp =>
          obtain ⟨lt, p⟩ := lp
          cases p with
          | zero => exact ⟨fun l e => (by cases e; exact hl), fun t e => by cases e⟩
          | succ p =>
            dsimp only
            have hlt := (h.latest hf).2 lt (p + 1) hp
            split
            · exact ⟨fun l e => (by cases e), fun t e => by cases e; exact unMax_in (minNonzero_in hlt hc)⟩
            · exact ⟨fun l e => (by cases e), fun t e => by cases e⟩
  | succ k ih =>
    intro frame common lct hc hl
    unfold Buf.lctSource
    split
    · exact ⟨fun l e => (by cases e; exact hl), fun t e => by cases e⟩
    · cases hf : b.getFrame frame with
      | none => exact ⟨fun l e => (by cases e; exact hl), fun t e => by cases e⟩
      | some c =>
        dsimp only
        cases hp : c.latestTimeAndParent with
        | none => exact ⟨fun l e => (by cases e), fun t e => by cases e⟩
        | some lp =>
          obtain ⟨lt, p⟩ := lp
          cases p with
          | zero => exact ⟨fun l e => (by cases e; exact hl), fun t e => by cases e⟩
          | succ p =>
            dsimp only
            have hlt := (h.latest hf).2 lt (p + 1) hp
            split
            · exact ⟨fun l e => (by cases e), fun t e => by cases e; exact unMax_in (minNonzero_in hlt hc)⟩
            · refine ih _ _ _ (minNonzero_in hlt hc) fun e he => ?_
              rcases List.mem_append.1 he with he | he
              · exact hl e he
              · rw [List.mem_singleton.1 he]; exact hlt

theorem lctTarget_in (h : StampsIn P b) (src : Nat) (lct : List (Time × Nat)) (k : Nat) :
    ∀ (frame : Nat) (common : Time), (common = TIME_MAX ∨ P common) →
    (∀ p t, b.lctTarget src lct k frame common = .exit p t → t = TIME_MAX ∨ P t) ∧
    (∀ t, b.lctTarget src lct k frame common = .early t → t = 0 ∨ P t) := by
  induction k with
  | zero =>
    intro frame common hc
    unfold Buf.lctTarget
    cases hf : b.getFrame frame with
    | none => exact ⟨fun p t e => (by cases e; exact hc), fun t e => by cases e⟩
    | some c =>
      dsimp only
      cases hp : c.latestTimeAndParent with
      | none => exact ⟨fun p t e => (by cases e), fun t e => by cases e⟩
      | some lp =>
        obtain ⟨lt, p⟩ := lp
        cases p with
        | zero => exact ⟨fun p t e => (by cases e; exact hc), fun t e => by cases e⟩
        | succ p =>
          dsimp only
          have hlt := (h.latest hf).2 lt (p + 1) hp
          split
          · exact ⟨fun p t e => (by cases e; exact minNonzero_in hlt hc), fun t e => by cases e⟩
          · split
            · exact ⟨fun p t e => (by cases e), fun t e => by cases e; exact unMax_in (minNonzero_in hlt hc)⟩
            · exact ⟨fun p t e => (by cases e), fun t e => by cases e⟩
  | succ k ih =>
    intro frame common hc
    unfold Buf.lctTarget
    cases hf : b.getFrame frame with
    | none => exact ⟨fun p t e => (by cases e; exact hc), fun t e => by cases e⟩
    | some c =>
      dsimp only
      cases hp : c.latestTimeAndParent with
      | none => exact ⟨fun p t e => (by cases e), fun t e => by cases e⟩
      | some lp =>
        obtain ⟨lt, p⟩ := lp
        cases p with
        | zero => exact ⟨fun p t e => (by cases e; exact hc), fun t e => by cases e⟩
        | succ p =>
          dsimp only
          have hlt := (h.latest hf).2 lt (p + 1) hp
          split
          · exact ⟨fun p t e => (by cases e; exact minNonzero_in hlt hc), fun t e => by cases e⟩
          · split
            · exact ⟨fun p t e => (by cases e), fun t e => by cases e; exact unMax_in (minNonzero_in hlt hc)⟩
            · exact ih _ _ (minNonzero_in hlt hc)

theorem lctJoin_in (q : Nat) (l : List (Time × Nat)) : ∀ common, (∀ e ∈ l, e.1 = 0 ∨ P e.1) →
    (common = TIME_MAX ∨ P common) → (Buf.lctJoin q l common = TIME_MAX ∨ P (Buf.lctJoin q l common)) := by
  induction l with
  | nil => intro common _ hc; exact hc
  | cons e r ih =>
    intro common hl hc
    obtain ⟨lt, p⟩ := e
    have h1 := minNonzero_in (hl (lt, p) (List.mem_cons_self ..)) hc
    unfold Buf.lctJoin
    dsimp only
    split
    · exact h1
    · exact ih _ (fun e he => hl e (List.mem_cons_of_mem _ he)) h1

theorem latestCommonTime_in (h : StampsIn P b) {g s : Nat} {t : Time} (hl : b.latestCommonTime g s = .ok t) :
    t = 0 ∨ P t := by
  unfold Buf.latestCommonTime at hl
  split at hl
  · cases hl
  · split at hl
    · cases hf : b.getFrame s with
      | none => rw [hf] at hl; cases hl; exact .inl rfl
      | some c => rw [hf] at hl; cases hl; exact (h.latest hf).1
    · have hsrc := lctSource_in h g maxGraphDepth s TIME_MAX [] (.inl rfl) (fun e he => by cases he)
      cases h1 : b.lctSource g maxGraphDepth s TIME_MAX [] with
      | ub => rw [h1] at hl; cases hl
      | tooDeep => rw [h1] at hl; cases hl
      | early u => rw [h1] at hl; cases hl; exact hsrc.2 _ h1
      | exit lct =>
        rw [h1] at hl
        dsimp only at hl
        have hlct := hsrc.1 _ h1
        have htgt := lctTarget_in h s lct maxGraphDepth g TIME_MAX (.inl rfl)
        cases h2 : b.lctTarget s lct maxGraphDepth g TIME_MAX with
        | ub => rw [h2] at hl; cases hl
        | tooDeep => rw [h2] at hl; cases hl
        | early u => rw [h2] at hl; cases hl; exact htgt.2 _ h2
        | exit p u =>
          rw [h2] at hl
          cases p with
          | zero => cases hl
          | succ p =>
            cases hl
            exact unMax_in (lctJoin_in _ _ _ hlct (htgt.1 _ _ h2))

/-- The stamp of a lookup: the time asked for, or at time zero the common time. -/
theorem lookup_stamp_in [Rigid X] {D : Duration} (hw : WF D b) (h : StampsIn P b) {target source : Name} {t : Time} {m : Msg X}
    (hm : b.lookupTransform target source t = .ok m) : (t ≠ 0 ∧ m.stamp = t) ∨ (t = 0 ∧ (m.stamp = 0 ∨ P m.stamp)) := by
  by_cases hne : target = source
  · subst hne
    simp only [Buf.lookupTransform, if_true, Res.ok.injEq] at hm
    by_cases h0 : t = 0
    · right
      refine ⟨h0, ?_⟩
      rw [← hm]
      simp only [h0, if_true]
      cases hf : b.getFrame (b.lookupFrameNumber target) with
      | none => exact .inl rfl
      | some c => exact (h.latest hf).1
    · left
      rw [← hm]
      simp [h0]
  · unfold Buf.lookupTransform at hm
    rw [if_neg hne] at hm
    cases h1 : b.validateFrameId target with
    | throw e => rw [h1] at hm; cases hm
    | ub => rw [h1] at hm; cases hm
    | ok g =>
      rw [h1] at hm
      dsimp only at hm
      cases h2 : b.validateFrameId source with
      | throw e => rw [h2] at hm; cases hm
      | ub => rw [h2] at hm; cases hm
      | ok s =>
        rw [h2] at hm
        dsimp only at hm
        have hs0 : s ≠ 0 := by
          unfold Buf.validateFrameId at h2
          split at h2
          · cases h2
          · split at h2
            · cases h2
            · split at h2
              · cases h2
              · cases h2; simp
        cases h3 : b.walk transformAccum TAcc.init t g s with
        | ub => rw [h3] at hm; cases hm
        | err c => rw [h3] at hm; cases hm
        | done a ch =>
          rw [h3] at hm
          cases hm
          have key : ∀ t, b.walkAt transformAccum TAcc.init t g s = .done a ch → a.time = t := by
            intro t' hwt
            have := walkAt_spec (t := t') hw (tgt := g) hs0 TAcc.init rfl rfl
            rw [hwt] at this
            exact this.1
          unfold Buf.walk at h3
          split at h3
          · rename_i hsg
            cases h3
            by_cases h0 : t = 0
            · exact .inr ⟨h0, .inl h0⟩
            · exact .inl ⟨h0, rfl⟩
          · split at h3
            · rename_i h0
              right
              refine ⟨h0, ?_⟩
              cases h4 : b.latestCommonTime g s with
              | ub => rw [h4] at h3; cases h3
              | err c => rw [h4] at h3; cases h3
              | ok u =>
                rw [h4] at h3
                rw [key u h3]
                exact latestCommonTime_in h h4
            · rename_i h0
              exact .inl ⟨h0, key t h3⟩

end

/-- **C66.** No lookup invents a time. The result of a lookup at a nonzero time carries that time; the result of a
lookup at time zero carries time zero or the stamp of a well-formed transform that was given to the buffer. -/
theorem C66_stamp_origin [Rigid X] {D : Duration} {ops : List (Op X)} {b : Buf X} (hb : b = (Buf.init D).run ops)
    {target source : Name} {t : Time} {m : Msg X} (h : b.lookupTransform target source t = .ok m) :
    (t ≠ 0 → m.stamp = t) ∧
    (t = 0 → m.stamp = 0 ∨ ∃ o a s, Op.set o a s ∈ ops ∧ ValidMsg o ∧ m.stamp = o.stamp) := by
  have hw : WF D b := by rw [hb]; exact WF.run (WF.init D) ops
  have hin : StampsIn (fun t => ∃ o a s, Op.set o a s ∈ ops ∧ ValidMsg o ∧ t = o.stamp) b := by
    rw [hb]
    exact StampsIn.run ops (WF.init D) (StampsIn.init _ D) (fun m a s hm hv => ⟨m, a, s, hm, hv, rfl⟩)
  rcases lookup_stamp_in hw hin h with ⟨h0, he⟩ | ⟨h0, he⟩
  · exact ⟨fun _ => he, fun h => absurd h h0⟩
  · exact ⟨fun h => absurd h0 h, fun _ => he⟩

example : (∃ m, exBuf.lookupTransform ['w'] ['b'] 0 = .ok m ∧ m.stamp = 18) ∧
    ∃ o a s, Op.set o a s ∈ exOps ∧ ValidMsg o ∧ (18 : Nat) = o.stamp :=
  ⟨⟨_, rfl, by decide⟩, _, _, _, List.mem_of_getElem? (i := 3) rfl, by decide, rfl⟩

/-- **C66**, with a fixed frame: the result carries the target time, or at target time zero, zero or the stamp of a
transform that was given. -/
theorem C66_stamp_origin_fixed [Rigid X] {D : Duration} {ops : List (Op X)} {b : Buf X} (hb : b = (Buf.init D).run ops)
    {target source fixed : Name} {ttime stime : Time} {m : Msg X}
    (h : b.lookupTransform5 target ttime source stime fixed = .ok m) :
    (ttime ≠ 0 → m.stamp = ttime) ∧
    (ttime = 0 → m.stamp = 0 ∨ ∃ o a s, Op.set o a s ∈ ops ∧ ValidMsg o ∧ m.stamp = o.stamp) := by
  unfold Buf.lookupTransform5 at h
  cases h1 : b.validateFrameId target with
  | throw e => rw [h1] at h; cases h
  | ub => rw [h1] at h; cases h
  | ok i =>
    rw [h1] at h
    dsimp only at h
    cases h2 : b.validateFrameId source with
    | throw e => rw [h2] at h; cases h
    | ub => rw [h2] at h; cases h
    | ok j =>
      rw [h2] at h
      dsimp only at h
      cases h3 : b.validateFrameId fixed with
      | throw e => rw [h3] at h; cases h
      | ub => rw [h3] at h; cases h
      | ok k =>
        rw [h3] at h
        dsimp only at h
        cases h4 : b.lookupTransform fixed source stime with
        | throw e => rw [h4] at h; cases h
        | ub => rw [h4] at h; cases h
        | ok m1 =>
          rw [h4] at h
          dsimp only at h
          cases h5 : b.lookupTransform target fixed ttime with
          | throw e => rw [h5] at h; cases h
          | ub => rw [h5] at h; cases h
          | ok m2 =>
            rw [h5] at h
            cases h
            exact C66_stamp_origin (m := m2) hb h5

/-- **C66**, for the common time itself. -/
theorem C66_common_time_origin [Rigid X] {D : Duration} {ops : List (Op X)} {b : Buf X} (hb : b = (Buf.init D).run ops)
    {target source : Nat} {t : Time} (h : b.latestCommonTime target source = .ok t) :
    t = 0 ∨ ∃ o a s, Op.set o a s ∈ ops ∧ ValidMsg o ∧ t = o.stamp := by
  have hin : StampsIn (fun t => ∃ o a s, Op.set o a s ∈ ops ∧ ValidMsg o ∧ t = o.stamp) b := by
    rw [hb]
    exact StampsIn.run ops (WF.init D) (StampsIn.init _ D) (fun m a s hm hv => ⟨m, a, s, hm, hv, rfl⟩)
  exact latestCommonTime_in hin h

example : ∃ t, exBuf.latestCommonTime 1 3 = .ok t ∧ t ≠ 0 := ⟨_, rfl, by decide⟩

end Tf2
