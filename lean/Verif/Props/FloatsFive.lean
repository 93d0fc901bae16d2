import Verif.Proofs.FloatsFive
import Verif.Props.Floats

/-!
# C89: NaN, infinities and overflow, for the lookup with two times
-/
namespace Tf2

/-- The two lookups of the five-argument lookup, for any kind of transform. -/
theorem lookup5_legs {X : Type} [Rigid X] {b : Buf X} {target source fixed : Name} {tt t : Time} {l : Msg X}
    (h5 : b.lookupTransform5 target tt source t fixed = .ok l) :
    ∃ m1 m2, b.lookupTransform fixed source t = .ok m1 ∧ b.lookupTransform target fixed tt = .ok m2 ∧
      l.xf = Rigid.mulMsg m2.xf m1.xf := by
  unfold Buf.lookupTransform5 at h5
  cases g1 : b.validateFrameId target with
  | ub => rw [g1] at h5; cases h5
  | throw e => rw [g1] at h5; cases h5
  | ok _ =>
  rw [g1] at h5
  cases g2 : b.validateFrameId source with
  | ub => rw [g2] at h5; cases h5
  | throw e => rw [g2] at h5; cases h5
  | ok _ =>
  rw [g2] at h5
  cases g3 : b.validateFrameId fixed with
  | ub => rw [g3] at h5; cases h5
  | throw e => rw [g3] at h5; cases h5
  | ok _ =>
  rw [g3] at h5
  cases g4 : b.lookupTransform fixed source t with
  | ub => rw [g4] at h5; cases h5
  | throw e => rw [g4] at h5; cases h5
  | ok m1 =>
  rw [g4] at h5
  cases g5 : b.lookupTransform target fixed tt with
  | ub => rw [g5] at h5; cases h5
  | throw e => rw [g5] at h5; cases h5
  | ok m2 =>
  rw [g5] at h5
  cases h5
  exact ⟨m1, m2, rfl, rfl, rfl⟩

section
variable {K : Machine} (h : K.IEEE)
include h

/-- **C89, rotations, two times.** Whatever was offered - NaN, infinities, huge translations, in any order - the rotation in
every answer of the five-argument lookup consists of four numbers, and it is a unit quaternion up to 2e-12 in the squared
length, however long the chains. -/
theorem C89_rotation5 (D : Duration) {ops : List (Op FPose)} (hs : ∀ m a s, Op.set m a s ∈ ops → m.stamp ≤ TIME_MAX)
    {target source fixed : Name} {tt st : Time} {m : Msg FPose}
    (hm : K.lookup5 (K.run D ops) target tt source st fixed = .ok m) :
    ∃ q : Quat ℝ, m.xf.1 = ⟨.fin q.x, .fin q.y, .fin q.z, .fin q.w⟩ ∧ |q.length2 - 1| ≤ 2 / 10 ^ 12 := by
  let _ := K.rigid
  have hS : StoredIn (fun p : FPose => ∃ q : Quat ℝ, p.1 = q.up ∧ q.Loose) (K.run D ops) :=
    StoredIn.run_valid ops (WF.init D) (StoredIn.init _ D) (fun m a s _ hv => h.beyond.accepted hv.2.2.2.1 hv.2.2.2.2)
  have hT : StampsIn (fun t => t ≤ TIME_MAX) (K.run D ops) :=
    StampsIn.run ops (WF.init D) (StampsIn.init _ D) (fun m a s hm _ => hs m a s hm)
  have hE := edges_rotation h.beyond.toExtends h.lib h.acosAll (WF.run (WF.init D) ops) hS hT
  obtain ⟨m1, m2, l1, l2, ex⟩ := lookup5_legs hm
  obtain ⟨q1, e1, s1⟩ := lookup_rotation h.beyond.toExtends (WF.run (WF.init D) ops) hE l1
  obtain ⟨q2, e2, s2⟩ := lookup_rotation h.beyond.toExtends (WF.run (WF.init D) ops) hE l2
  obtain ⟨r, e, _, hr⟩ := h.beyond.toExtends.mulMsg_rotation h.lib e2 e1 s2 s1
  refine ⟨r, ?_, hr.trans (by norm_num)⟩
  rw [ex]
  exact e

/-- **C89, answers, two times.** If no offered translation is infinite or larger than 1e290, every answer of the
five-argument lookup consists of seven numbers. -/
theorem C89_finite5 {B : ℝ} (hB : 0 ≤ B) (hB' : B ≤ 10 ^ 290) (D : Duration) {ops : List (Op FPose)} (ht : TranslationsWithin B ops)
    (hs : ∀ m a s, Op.set m a s ∈ ops → m.stamp ≤ TIME_MAX) {target source fixed : Name} {tt st : Time} {m : Msg FPose}
    (hm : K.lookup5 (K.run D ops) target tt source st fixed = .ok m) : m.xf.Finite := by
  let _ := K.rigid
  have hΩ := h.room hB'
  have hS := h.stored_within D ht
  have hT : StampsIn (fun t => t ≤ TIME_MAX) (K.run D ops) :=
    StampsIn.run ops (WF.init D) (StampsIn.init _ D) (fun m a s hm _ => hs m a s hm)
  have hE := edges_finite h.beyond.toExtends h.lib h.acosAll hB (by norm_num at *; linarith) (WF.run (WF.init D) ops) hS hT
  obtain ⟨m1, m2, l1, l2, ex⟩ := lookup5_legs hm
  have s1 := lookup_sound h.beyond.toExtends (by positivity) hΩ (WF.run (WF.init D) ops) hE l1
  have s2 := lookup_sound h.beyond.toExtends (by positivity) hΩ (WF.run (WF.init D) ops) hE l2
  rw [ex]
  exact h.beyond.toExtends.mulMsg h.lib (by positivity) hΩ s2 s1

/-- **C89, publishing again.** Under the same assumption an answer of the five-argument lookup, published as the transform
between any two different named frames, is not called invalid by any buffer on this machine. -/
theorem C89_again5 {B : ℝ} (hB : 0 ≤ B) (hB' : B ≤ 10 ^ 290) (D : Duration) {ops : List (Op FPose)} (ht : TranslationsWithin B ops)
    (hs : ∀ m a s, Op.set m a s ∈ ops → m.stamp ≤ TIME_MAX) {target source fixed : Name} {tt st : Time} {m m' : Msg FPose}
    (hm : K.lookup5 (K.run D ops) target tt source st fixed = .ok m) (hx : m'.xf = m.xf)
    (hne : stripSlash m'.child ≠ stripSlash m'.parent) (hc : stripSlash m'.child ≠ []) (hp : stripSlash m'.parent ≠ [])
    (b : Buf FPose) (authority : Name) (static : Bool) : (K.setTransform b m' authority static).2 ≠ .invalid := by
  obtain ⟨q, e, hq⟩ := C89_rotation5 h D hs hm
  obtain ⟨_, ⟨x, ex⟩, ⟨y, ey⟩, z, ez⟩ := C89_finite5 h hB hB' D ht hs hm
  refine C89_accept h hne hc hp (q := q) (by rw [hx]; exact e) (hq.trans (by norm_num)) ?_ ?_ ?_ b authority static
  · rw [hx, ex]; intro e; cases e
  · rw [hx, ey]; intro e; cases e
  · rw [hx, ez]; intro e; cases e

end

end Tf2
