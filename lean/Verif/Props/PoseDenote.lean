import Verif.Props.Denote
import Verif.Props.Late
import Verif.Props.Pose

/-!
# C59, C65 for real quaternions and translations
-/
namespace Tf2

theorem Says.ok {X : Type} [Rigid X] {U : X → Prop} (L : RigidLaws U) {D : Duration} {ops : List (Op X)} (hU : AllOffered U ops) {t : Time}
    {n p : Name} {e : X} (h : Says D ops t n p e) : U e := by
  have mem : ∀ {m : Msg X}, m ∈ recentFor n ops [] → U m.xf := by
    intro m hm
    rcases recentFor_mem hm with h | ⟨s, h⟩
    · cases h
    · obtain ⟨⟨a, ha⟩, _⟩ := offersFor_mem h
      exact hU m a s ha
  cases h with
  | static h1 h2 =>
    obtain ⟨⟨a, ha⟩, _⟩ := offersFor_mem (List.mem_of_getLast? h2)
    exact hU _ _ _ ha
  | exact _ hm _ => exact mem hm.mem
  | between _ ho hw h1 h2 _ _ => exact L.interp (mem ho.mem) (mem hw.mem) (by omega) (by omega) (by omega)
  | switch _ ho _ _ _ _ _ => exact mem ho.mem

theorem Leads.ok {X : Type} [Rigid X] {U : X → Prop} (L : RigidLaws U) {D : Duration} {ops : List (Op X)} (hU : AllOffered U ops) {t : Time}
    {a c : Name} {x : X} {k : Nat} (h : Leads D ops t a c x k) : U x := by
  induction h with
  | refl => exact L.one
  | snoc _ hs _ ih => exact L.comp (hs.ok L hU) ih

theorem interpZero_pose : InterpZero Pose := fun _ _ _ => Pose.interp_zero _ _ _

theorem Xform.mul_apply' (a b : Xform ℝ) (v : Vec3 ℝ) : (a.mul b).apply v = a.apply (b.apply v) := by
  ext <;> simp [Xform.mul, Xform.apply, Mat3.mul, Mat3.tdotx, Mat3.tdoty, Mat3.tdotz, Vec3.dot] <;> ring

/-- **C59, on points.** If the messages lead from `source` to `c` by `x` and from `target` to `c` by `y`, the transform
a lookup returns takes the coordinates of every point in `source` to coordinates in `target` that describe the same
point of `c`. -/
theorem C59_points {D : Duration} {ops : List (Op Pose)} (hU : AllOffered (fun p => p.rot.Unit) ops)
    (hreg : Regular D ops) {target source : Name} {t : Time} (ht : t ≠ 0) (hne : target ≠ source)
    {m : Msg Pose} (h : ((Buf.init D).run ops).lookupTransform target source t = .ok m) (es : WayEnds D ops t source)
    {c : Name} {x y : Pose} {k l : Nat} (hx : Leads D ops t source c x k) (hy : Leads D ops t target c y l)
    (v : Vec3 ℝ) : y.toXform.apply (m.xf.toXform.apply v) = x.toXform.apply v := by
  have ux := hx.ok pose_laws hU
  have uy := hy.ok pose_laws hU
  have e := C59_value pose_laws hU hreg interpZero_pose ht hne h es hx hy
  have um : m.xf.rot.Unit := by rw [e]; exact pose_laws.comp (pose_laws.inv uy) ux
  have e2 : y.comp m.xf = x := by
    rw [e]
    show Rigid.comp y (Rigid.comp (Rigid.inv y) x) = x
    rw [← pose_laws.assoc uy (pose_laws.inv uy) ux, pose_laws.comp_inv uy, pose_laws.one_comp ux]
  rw [← e2, Pose.toXform_comp uy um]
  exact (Xform.mul_apply' _ _ _).symm

/-- Two frames of `w`, turned differently. -/
noncomputable def turnedOps : List (Op Pose) :=
  [.set ⟨['w'], ['a'], 0, ⟨⟨0, 0, 3/5, 4/5⟩, ⟨1, 2, 3⟩⟩⟩ ['p'] true,
   .set ⟨['w'], ['b'], 0, ⟨⟨5/13, 0, 0, 12/13⟩, ⟨4, 5, 6⟩⟩⟩ ['p'] true]

theorem turned_valid : ∀ m a s, Op.set m a s ∈ turnedOps → ValidMsg m ∧ m.xf.rot.Unit ∧ m.stamp = 0 ∧
    stripSlash m.child ≠ noParentName := by
  intro m a s hm
  simp only [turnedOps, List.mem_cons, List.not_mem_nil, or_false, Op.set.injEq] at hm
  have hok : ∀ p : Pose, p.rot.Unit → Rigid.hasNaN p = false ∧ Rigid.normOK p = true := by
    intro p hp
    refine ⟨rfl, ?_⟩
    show Pose.normOK p = true
    unfold Quat.Unit at hp
    have : p.rot.w * p.rot.w + p.rot.x * p.rot.x + p.rot.y * p.rot.y + p.rot.z * p.rot.z - 1 = 0 := by linarith
    simp only [Pose.normOK, this, abs_zero, decide_eq_true_eq]
    norm_num
  rcases hm with ⟨rfl, _⟩ | ⟨rfl, _⟩
  · have hu : (⟨0, 0, 3/5, 4/5⟩ : Quat ℝ).Unit := by unfold Quat.Unit; norm_num
    exact ⟨⟨by decide, by decide, by decide, (hok _ hu).1, (hok _ hu).2⟩, hu, rfl, by decide⟩
  · have hu : (⟨5/13, 0, 0, 12/13⟩ : Quat ℝ).Unit := by unfold Quat.Unit; norm_num
    exact ⟨⟨by decide, by decide, by decide, (hok _ hu).1, (hok _ hu).2⟩, hu, rfl, by decide⟩

/-- The hypotheses of `C59_points` hold for it, and there is an answer. -/
theorem turned_hyps : AllOffered (fun p : Pose => p.rot.Unit) turnedOps ∧ Regular 100 turnedOps ∧ WayEnds 100 turnedOps 7 ['a'] ∧
    WayEnds 100 turnedOps 7 ['b'] ∧ (∃ x y, Leads 100 turnedOps 7 ['a'] ['w'] x 1 ∧ Leads 100 turnedOps 7 ['b'] ['w'] y 1) ∧
    ∃ m, ((Buf.init 100).run turnedOps).lookupTransform ['b'] ['a'] 7 = .ok m := by
  have hv := turned_valid
  have hU : AllOffered (fun p : Pose => p.rot.Unit) turnedOps := fun m a s hm => (hv m a s hm).2.1
  have hr : Regular 100 turnedOps := ⟨by decide, fun m a s hm _ => by rw [(hv m a s hm).2.2.1]; decide,
    fun m a s hm _ => (hv m a s hm).2.2.2⟩
  have va := (hv _ _ _ (List.mem_cons_self ..)).1
  have vb := (hv _ _ _ (List.mem_cons_of_mem _ (List.mem_cons_self ..))).1
  have oa : offersFor ['a'] turnedOps = [(⟨['w'], ['a'], 0, ⟨⟨0, 0, 3/5, 4/5⟩, ⟨1, 2, 3⟩⟩⟩, true)] := by
    simp [turnedOps, offersFor, va, stripSlash]
  have ob : offersFor ['b'] turnedOps = [(⟨['w'], ['b'], 0, ⟨⟨5/13, 0, 0, 12/13⟩, ⟨4, 5, 6⟩⟩⟩, true)] := by
    simp [turnedOps, offersFor, vb, stripSlash]
  have ow : offersFor ['w'] turnedOps = [] := by
    simp [turnedOps, offersFor, stripSlash]
  have sa : Says 100 turnedOps 7 ['a'] ['w'] _ := .static oa (by rw [oa]; rfl)
  have sb : Says 100 turnedOps 7 ['b'] ['w'] _ := .static ob (by rw [ob]; rfl)
  have hw : ∀ {p : Name} {e : Pose}, ¬ Says 100 turnedOps 7 ['w'] p e := by
    intro p e h
    obtain ⟨m, s, hm, _⟩ := h.offer
    rw [ow] at hm
    cases hm
  have la : Leads 100 turnedOps 7 ['a'] ['w'] _ 1 := .snoc .refl sa (by decide)
  have lb : Leads 100 turnedOps 7 ['b'] ['w'] _ 1 := .snoc .refl sb (by decide)
  have wa : WayEnds 100 turnedOps 7 ['a'] := ⟨_, _, 1, by decide, la, fun ⟨_, _, h, _⟩ => hw h⟩
  have wb : WayEnds 100 turnedOps 7 ['b'] := ⟨_, _, 1, by decide, lb, fun ⟨_, _, h, _⟩ => hw h⟩
  refine ⟨hU, hr, wa, wb, ⟨_, _, la, lb⟩, ?_⟩
  exact (C59_complete hr interpZero_pose (by decide) sb.mentioned.1 sa.mentioned.1 (by decide) (by decide)
    ⟨by decide, by decide⟩ ⟨by decide, by decide⟩ wb wa).2 ⟨_, _, _, _, _, la, lb⟩

/-- **C65** for real transforms with unit quaternions. -/
theorem C65_late_subscriber_pose {D : Duration}
    {before later : List (List (Msg Pose))} (hb : before ≠ []) {early late : List (Op Pose)}
    (he : staticPart early = earlyReceives (before ++ later)) (hl : staticPart late = lateReceives before later)
    (ho : otherPart early = otherPart late) (hs : StaticFrames (before ++ later).flatten early)
    (hU : AllOffered (fun p => p.rot.Unit) early) (hr : Regular D early) {t : Time} (ht : t ≠ 0) {target source : Name}
    (hne : target ≠ source) (ng : target ≠ noParentName) (ns : source ≠ noParentName)
    (eg : WayEnds D early t target) (es : WayEnds D early t source) (m : Msg Pose) :
    ((Buf.init D).run early).lookupTransform target source t = .ok m ↔
      ((Buf.init D).run late).lookupTransform target source t = .ok m :=
  C65_late_subscriber pose_laws interpZero_pose hb he hl ho hs hU hr ht hne ng ns eg es m

end Tf2
