import Verif.Spec.PointCloud
import Verif.Proofs.GeoMsgs

/-!
# Lemmas about transforming point clouds
-/
namespace Tf2.Geo

variable {S : Type}

theorem addr_inj {i j st a b : Nat} (ha : a < st) (hb : b < st) (h : i * st + a = j * st + b) : i = j ∧ a = b := by
  have h1 : (i * st + a) / st = i := by
    rw [Nat.mul_comm, Nat.mul_add_div (by omega), Nat.div_eq_of_lt ha]; rfl
  have h2 : (j * st + b) / st = j := by
    rw [Nat.mul_comm, Nat.mul_add_div (by omega), Nat.div_eq_of_lt hb]; rfl
  have : i = j := by rw [← h1, ← h2, h]
  subst this
  exact ⟨rfl, by omega⟩

/-- The cloud after the points below `k` have been overwritten. -/
noncomputable def cloudAt (t : Xform ℝ) (h : Header) (c : Cloud) (k : Nat) : Cloud :=
  { c with
    header := h
    data := fun a =>
      if ∃ i, i < k ∧ a = i * c.step + c.offX then (t.apply (c.pt (a / c.step))).x
      else if ∃ i, i < k ∧ a = i * c.step + c.offY then (t.apply (c.pt (a / c.step))).y
      else if ∃ i, i < k ∧ a = i * c.step + c.offZ then (t.apply (c.pt (a / c.step))).z
      else c.data a }

theorem cloudAt_pt {t : Xform ℝ} {h : Header} {c : Cloud} (hc : c.Laid) (k i : Nat) :
    (cloudAt t h c k).pt i = if i < k then t.apply (c.pt i) else c.pt i := by
  obtain ⟨hx, hy, hz, hxy, hxz, hyz⟩ := hc
  have dv : ∀ o, o < c.step → (i * c.step + o) / c.step = i := by
    intro o ho
    rw [Nat.mul_comm, Nat.mul_add_div (by omega), Nat.div_eq_of_lt ho]; rfl
  have key : ∀ o p, o < c.step → p < c.step → ((∃ j, j < k ∧ i * c.step + o = j * c.step + p) ↔ (i < k ∧ o = p)) := by
    intro o p ho hp
    constructor
    · rintro ⟨j, hj, e⟩
      obtain ⟨e1, e2⟩ := addr_inj ho hp e
      exact ⟨e1 ▸ hj, e2⟩
    · rintro ⟨hi, rfl⟩; exact ⟨i, hi, rfl⟩
  unfold Cloud.pt cloudAt
  simp only [key _ _ hx hx, key _ _ hx hy, key _ _ hx hz, key _ _ hy hx, key _ _ hy hy, key _ _ hy hz,
    key _ _ hz hx, key _ _ hz hy, key _ _ hz hz, dv _ hx, dv _ hy, dv _ hz, hxy, hxz, hyz, hxy.symm, hxz.symm, hyz.symm,
    and_false, if_false, and_true]
  by_cases hi : i < k <;> simp [hi, Cloud.pt]

/-- One round, on a cloud value. -/
theorem cloudAt_step {t : Xform ℝ} {h : Header} {c : Cloud} (hc : c.Laid) (k : Nat) :
    cloudAt t h c (k + 1) =
      { cloudAt t h c k with
        data := fun a => if a = k * c.step + c.offZ then (t.apply (c.pt k)).z
          else if a = k * c.step + c.offY then (t.apply (c.pt k)).y
          else if a = k * c.step + c.offX then (t.apply (c.pt k)).x
          else (cloudAt t h c k).data a } := by
  obtain ⟨hx, hy, hz, hxy, hxz, hyz⟩ := hc
  have dv : ∀ o, o < c.step → (k * c.step + o) / c.step = k := by
    intro o ho
    rw [Nat.mul_comm, Nat.mul_add_div (by omega), Nat.div_eq_of_lt ho]; rfl
  have ex : ∀ o, o < c.step → ∀ a, (∃ i, i < k + 1 ∧ a = i * c.step + o) ↔ (a = k * c.step + o ∨ ∃ i, i < k ∧ a = i * c.step + o) := by
    intro o ho a
    constructor
    · rintro ⟨i, hi, e⟩
      by_cases hk : i = k
      · subst hk; exact Or.inl e
      · exact Or.inr ⟨i, by omega, e⟩
    · rintro (e | ⟨i, hi, e⟩)
      · exact ⟨k, by omega, e⟩
      · exact ⟨i, by omega, e⟩
  have ne : ∀ o p, o < c.step → p < c.step → o ≠ p → ∀ a, a = k * c.step + o → ¬ (a = k * c.step + p) ∧ ¬ ∃ i, i < k ∧ a = i * c.step + p := by
    intro o p ho hp hop a ha
    refine ⟨fun e => hop (addr_inj ho hp (ha.symm.trans e)).2, ?_⟩
    rintro ⟨i, _, e⟩
    exact hop (addr_inj ho hp (ha.symm.trans e)).2
  unfold cloudAt
  congr 1
  funext a
  simp only [ex _ hx, ex _ hy, ex _ hz]
  by_cases ax : a = k * c.step + c.offX
  · have n1 := ne _ _ hx hy hxy a ax
    have n2 := ne _ _ hx hz hxz a ax
    rw [if_pos (Or.inl ax), if_neg n2.1, if_neg n1.1, if_pos ax, ax, dv _ hx]
  · by_cases ay : a = k * c.step + c.offY
    · have n1 := ne _ _ hy hx hxy.symm a ay
      have n2 := ne _ _ hy hz hyz a ay
      rw [if_neg (by rintro (e | e); exact ax e; exact n1.2 e), if_pos (Or.inl ay), if_neg n2.1, if_pos ay, ay, dv _ hy]
    · by_cases az : a = k * c.step + c.offZ
      · have n1 := ne _ _ hz hx hxz.symm a az
        have n2 := ne _ _ hz hy hyz.symm a az
        rw [if_neg (by rintro (e | e); exact ax e; exact n1.2 e),
          if_neg (by rintro (e | e); exact ay e; exact n2.2 e), if_pos (Or.inl az), if_pos az, az, dv _ hz]
      · simp only [ax, ay, az, false_or, if_false]

theorem cloudStep_get {inp out : Ref S Cloud} (hl : out.Lawful) {t : Xform ℝ} {h : Header}
    {c : Cloud} (hc : c.Laid) {k : Nat} {s : S} (hout : out.get s = cloudAt t h c k)
    (hin : inp = out ∨ (inp.Apart out ∧ inp.get s = c)) :
    out.get (cloudStep inp out t k s) = cloudAt t h c (k + 1) ∧
    (inp = out ∨ (inp.Apart out ∧ inp.get (cloudStep inp out t k s) = c)) := by
  have hpt : (inp.get s).pt k = c.pt k := by
    rcases hin with e | ⟨_, e⟩
    · rw [e, hout, cloudAt_pt hc, if_neg (by omega)]
    · rw [e]
  constructor
  · rw [cloudAt_step hc]
    unfold Cloud.pt at hpt
    unfold Ref.Lawful at hl
    simp only [cloudStep, Ref.word, hl, hout, hpt]
    rfl
  · rcases hin with e | ⟨ha, e⟩
    · exact Or.inl e
    · refine Or.inr ⟨ha, ?_⟩
      rw [← e]; unfold Ref.Apart at ha
      simp [cloudStep, Ref.word, ha]

theorem cloudLoop_get {inp out : Ref S Cloud} (hl : out.Lawful) {t : Xform ℝ} {h : Header}
    {c : Cloud} (hc : c.Laid) : ∀ (n k : Nat) (s : S), out.get s = cloudAt t h c k →
    (inp = out ∨ (inp.Apart out ∧ inp.get s = c)) →
    out.get (cloudLoop inp out t n k s) = cloudAt t h c (k + n) := by
  intro n
  induction n with
  | zero => intro k s h1 _; exact h1
  | succ n ih =>
    intro k s h1 h2
    obtain ⟨g1, g2⟩ := cloudStep_get hl hc h1 h2
    rw [cloudLoop, ih (k + 1) _ g1 g2, Nat.add_right_comm, Nat.add_assoc]

theorem only_cloudLoop (inp out : Ref S Cloud) (t : Xform ℝ) {U : Type} (r : Ref S U) (hr : r.Apart out) :
    ∀ (n k : Nat) (s : S), r.get (cloudLoop inp out t n k s) = r.get s := by
  intro n
  unfold Ref.Apart at hr
  induction n with
  | zero => intro k s; rfl
  | succ n ih => intro k s; rw [cloudLoop, ih]; simp [cloudStep, Ref.word, hr]

end Tf2.Geo
