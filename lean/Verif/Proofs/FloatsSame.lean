import Verif.Proofs.FloatsFive
import Verif.Proofs.MapBuf

/-!
# Below the overflow threshold the machine computes what rounded arithmetic computes
-/
namespace Tf2

theorem Quat.up_inj {p q : Quat ℝ} (h : p.up = q.up) : p = q := by
  cases p; cases q
  simp only [Quat.up, Quat.mk.injEq, Fl.fin.injEq] at h
  obtain ⟨rfl, rfl, rfl, rfl⟩ := h
  rfl

theorem Vec3.up_inj {p q : Vec3 ℝ} (h : p.up = q.up) : p = q := by
  cases p; cases q
  simp only [Vec3.up, Vec3.mk.injEq, Fl.fin.injEq] at h
  obtain ⟨rfl, rfl, rfl⟩ := h
  rfl

theorem Pose.up_inj {p q : Pose} (h : p.up = q.up) : p = q := by
  cases p; cases q
  simp only [Pose.up, Prod.mk.injEq] at h
  obtain ⟨h1, h2⟩ := h
  rw [Pose.mk.injEq]
  exact ⟨Quat.up_inj h1, Vec3.up_inj h2⟩

/-! ### The operations agree -/

section
variable {K : Machine} {F : Rounding} {B : ℝ}

theorem FPath.comp_eq (h : Extends K F) (hB : 0 ≤ B) (hΩ : 10 ^ 16 * (B + 1) ≤ F.Ω) {n : ℕ} (hn : n + 1 ≤ 1000) {x e : Pose}
    (hp : FPath B n x.up) (he : FEdge B e.up) : K.comp e.up x.up = (F.comp e x).up := by
  obtain ⟨x', ex, x1, x2⟩ := hp
  obtain ⟨e', ee, e1, e2⟩ := he
  obtain rfl := Pose.up_inj ex
  obtain rfl := Pose.up_inj ee
  obtain ⟨b1, b2⟩ := FPath.bounds hB (by omega) x1 x2
  have e1' := e1.2
  norm_num at hΩ
  exact (h.comp (A := 1000) (B := 21000000 * (B + 1)) (C := 1000 ^ 2 * (21000000 * (B + 1))) (W := B) (by norm_num) (by linarith)
      (e.rot.box_length.mono (by linarith)) (x.rot.box_length.mono b1) (e.trans.box_length.mono e2) (x.trans.box_length.mono b2) le_rfl
      (by norm_num; linarith)).1

theorem FPath.inv_eq (h : Extends K F) (hB : 0 ≤ B) (hΩ : 10 ^ 16 * (B + 1) ≤ F.Ω) {n : ℕ} (hn : n ≤ 1000) {x : Pose}
    (hp : FPath B n x.up) : K.inv x.up = (F.inv x).up := by
  obtain ⟨x', ex, x1, x2⟩ := hp
  obtain rfl := Pose.up_inj ex
  obtain ⟨b1, b2⟩ := FPath.bounds hB hn x1 x2
  norm_num at hΩ
  exact (h.inv (a := x) (A := 1000) (B := 21000000 * (B + 1)) (C := 1000 ^ 2 * (21000000 * (B + 1))) (by norm_num)
    (by linarith) (x.rot.box_length.mono b1) (x.trans.box_length.mono b2) le_rfl (by norm_num; linarith)).1

theorem FPath.join_eq (h : Extends K F) (hB : 0 ≤ B) (hΩ : 10 ^ 16 * (B + 1) ≤ F.Ω) {n k : ℕ} (hn : n ≤ 1000) (hk : k ≤ 1000)
    {x y : Pose} (hp : FPath B n x.up) (hq : FPath B k y.up) : K.comp (K.inv y.up) x.up = (F.comp (F.inv y) x).up := by
  have ei := hq.inv_eq h hB hΩ hk
  obtain ⟨y', ey, ⟨z, hz, yz⟩, y2⟩ := hq.inv_finite h hB hΩ hk
  rw [ei] at ey
  obtain rfl := Pose.up_inj ey
  rw [ei]
  obtain ⟨x', ex, x1, x2⟩ := hp
  obtain rfl := Pose.up_inj ex
  obtain ⟨b1, b2⟩ := FPath.bounds hB hn x1 x2
  have y1 : (F.inv y).rot.Box 1000 := by
    rw [yz]
    exact z.inverse.box_length.mono (by rw [Quat.length_inverse]; linarith [(hz.bounds hk).2])
  norm_num at hΩ
  exact (h.comp (A := 1000) (B := 21000000 * (B + 1)) (C := 1000 ^ 2 * (21000000 * (B + 1))) (by norm_num) (by linarith)
    y1 (x.rot.box_length.mono b1) y2 (x.trans.box_length.mono b2) le_rfl (by norm_num; linarith)).1

theorem Extends.interp_eq (h : Extends K F) (hM : K.lib.Accurate) (hA : K.lib.AcosAll) (hB : 0 ≤ B) (hΩ : 100 * (B + 1) ≤ F.Ω)
    {a b : Pose} (ha : FStored B a.up) (hb : FStored B b.up) {num den : Int} (h0 : 0 ≤ num) (h1 : num ≤ den) (h2 : 0 < den)
    (h3 : den ≤ 10 ^ 19) : K.interp a.up b.up num den = (F.interpolate K.lib a b num den).up := by
  obtain ⟨a', ea, a1, a2⟩ := ha
  obtain rfl := Pose.up_inj ea
  obtain ⟨b', eb, b1, b2⟩ := hb
  obtain rfl := Pose.up_inj eb
  have ht := Rounding.ratio_near h.fine h0 h1 h2 h3
  have r2 : (0 : ℝ) < den := by exact_mod_cast h2
  have r0 : (0 : ℝ) ≤ (num : ℝ) / den := div_nonneg (by exact_mod_cast h0) r2.le
  have r1 : (num : ℝ) / den ≤ 1 := (div_le_one r2).2 (by exact_mod_cast h1)
  have er := h.ratio h0 h1 h2 h3
  unfold Machine.interp Rounding.interpolate
  rw [er]
  dsimp only
  generalize F.rnd (F.toSec num / F.toSec den) = t' at *
  generalize (num : ℝ) / den = t at *
  obtain ⟨t1, t2⟩ := abs_le.1 ht
  have s := h.slerp hM hA a1 b1 r0 r1 ht
  have v := h.interpolate3 hB hΩ a2 b2 (t := t') (by rw [abs_le]; norm_num at *; constructor <;> linarith)
  show (K.slerp a.rot.up b.rot.up (.fin t'), K.interpolate3 a.trans.up b.trans.up (.fin t')) = _
  rw [s.1, v.1]
  rfl

theorem Extends.mulMsg_eq (h : Extends K F) (hM : K.lib.Accurate) (hB : 0 ≤ B) (hΩ : 10 ^ 16 * (B + 1) ≤ F.Ω) {x y : Pose}
    (ha : FSound B x.up) (hb : FSound B y.up) : K.mulMsg x.up y.up = (F.mulMsg K.lib.sqrt x y).up := by
  obtain ⟨x', ex, x1, x2⟩ := ha
  obtain rfl := Pose.up_inj ex
  obtain ⟨y', ey, y1, y2⟩ := hb
  obtain rfl := Pose.up_inj ey
  have ee := Rounding.coarse_e h.fine
  have box : ∀ {q : Quat ℝ}, q.Sound → (F.basis q).Box (11 / 10) := fun {q} hq =>
    (Rounding.basis_sound h.fine hq).box (Rounding.entries (Mat3.ofQuat_isRotation _ (Quat.length_pos (lt_of_lt_of_le (by norm_num) hq.1))))
      (by rw [ee]; norm_num)
  obtain ⟨hm, hu⟩ := Rounding.product_sound h.fine x1 y1
  refine Prod.ext ?_ ?_
  · show K.getRotation (K.matMul (K.basis x.rot.up) (K.basis y.rot.up)) = (F.getRotation K.lib.sqrt (F.matMul (F.basis x.rot) (F.basis y.rot))).up
    rw [h.basis x1, h.basis y1, h.matMul (box x1) (box y1), h.getRotation hM hu hm]
  · show K.apply ⟨K.basis x.rot.up, x.trans.up⟩ y.trans.up = (F.apply ⟨F.basis x.rot, x.trans⟩ y.trans).up
    rw [h.basis x1]
    exact h.apply (t := ⟨F.basis x.rot, x.trans⟩) (T := 10 ^ 15 * (B + 1)) (by norm_num; linarith) (by norm_num at *; linarith) (box x1) x2 y2

end

/-! ### Pairs -/

/-- Both computations at once. The checks of `setTransform` are those of the second. -/
@[reducible] def pairRigid {X Y : Type} (R : Rigid X) (S : Rigid Y) : Rigid (X × Y) where
  one := (R.one, S.one)
  comp a b := (R.comp a.1 b.1, S.comp a.2 b.2)
  inv a := (R.inv a.1, S.inv a.2)
  interp a b n d := (R.interp a.1 b.1 n d, S.interp a.2 b.2 n d)
  mulMsg a b := (R.mulMsg a.1 b.1, S.mulMsg a.2 b.2)
  hasNaN a := S.hasNaN a.2
  normOK a := S.normOK a.2

theorem pair_fst {X Y : Type} (R : Rigid X) (S : Rigid Y) : @RigidHom _ _ Prod.fst (pairRigid R S) R :=
  @RigidHom.mk _ _ _ (pairRigid R S) R rfl (fun _ _ => rfl) (fun _ => rfl) (fun _ _ _ _ => rfl) (fun _ _ => rfl)

theorem pair_snd {X Y : Type} (R : Rigid X) (S : Rigid Y) : @RigidHom _ _ Prod.snd (pairRigid R S) S :=
  @RigidHom.mk _ _ _ (pairRigid R S) S rfl (fun _ _ => rfl) (fun _ => rfl) (fun _ _ _ _ => rfl) (fun _ _ => rfl)

theorem Op.mapX_mapX {X Y Z : Type} (f : X → Y) (g : Y → Z) (ops : List (Op X)) :
    (ops.map (Op.mapX f)).map (Op.mapX g) = ops.map (Op.mapX (fun x => g (f x))) := by
  rw [List.map_map]
  refine List.map_congr_left fun o _ => ?_
  cases o <;> rfl

theorem Op.mapX_id {X : Type} (ops : List (Op X)) : ops.map (Op.mapX (fun x => x)) = ops := by
  conv => rhs; rw [← List.map_id ops]
  refine List.map_congr_left fun o _ => ?_
  cases o <;> rfl

/-! ### Lookups -/

section
variable {K : Machine} {F : Rounding} {B : ℝ}

/-- A pair of the same transform, twice. -/
def Twin (P : FPose → Prop) : Pose × FPose → Prop
  | (x, p) => p = x.up ∧ P p

/-- Both machines at once. -/
@[reducible] noncomputable def twinRigid (K : Machine) (F : Rounding) : Rigid (Pose × FPose) := pairRigid (F.rigid5 K.lib.sqrt) K.rigid

theorem twin_lookup (h : Extends K F) (hB : 0 ≤ B) (hΩ : 10 ^ 16 * (B + 1) ≤ F.Ω) {D : Duration} {b : Buf (Pose × FPose)}
    (hw : WF D b) (hE : @EdgesIn _ (twinRigid K F) (Twin (FEdge B)) b) {target source : Name} {t : Time} {m : Msg (Pose × FPose)}
    (hm : @Buf.lookupTransform _ (twinRigid K F) b target source t = .ok m) : Twin (FSound B) m.xf := by
  refine @lookup_family _ (twinRigid K F) (Twin (FEdge B)) (fun n => Twin (FPath B n)) (Twin (FSound B)) ⟨rfl, FPath.zero B⟩ ?_ ?_ ?_ ?_
    D b hw hE target source t m hm
  · rintro n ⟨x, p⟩ ⟨e, p'⟩ hn ⟨rfl, h1⟩ ⟨rfl, h2⟩
    exact ⟨h1.comp_eq h hB hΩ hn h2, h1.step h hB hΩ hn h2⟩
  · rintro n ⟨x, p⟩ hn ⟨rfl, h1⟩
    exact ⟨rfl, h1.sound hB hn⟩
  · rintro n ⟨x, p⟩ hn ⟨rfl, h1⟩
    exact ⟨h1.inv_eq h hB hΩ hn, h1.inv_sound h hB hΩ hn⟩
  · rintro n ⟨x, p⟩ k ⟨y, q⟩ hn hk ⟨rfl, h1⟩ ⟨rfl, h2⟩
    exact ⟨h1.join_eq h hB hΩ hn hk h2, FPath.join h hB hΩ hn hk h1 h2⟩

theorem twin_edges (h : Extends K F) (hi : F.interp = F.interpolate K.lib) (hM : K.lib.Accurate) (hA : K.lib.AcosAll) (hB : 0 ≤ B)
    (hΩ : 100 * (B + 1) ≤ F.Ω) {D : Duration} {b : Buf (Pose × FPose)} (hw : WF D b) (hS : StoredIn (Twin (FStored B)) b)
    (hT : StampsIn (fun t => t ≤ TIME_MAX) b) : @EdgesIn _ (twinRigid K F) (Twin (FEdge (9 * (B + 1)))) b := by
  refine @edges_of _ (twinRigid K F) _ _ ?_ ?_ D b hw hS hT
  · rintro ⟨x, p⟩ ⟨rfl, h1⟩
    exact ⟨rfl, h1.edge hB⟩
  · rintro ⟨x, p⟩ ⟨y, q⟩ num den ⟨rfl, h1⟩ ⟨rfl, h2⟩ k0 k1 k2 k3
    refine ⟨?_, h.interp hM hA hB hΩ h1 h2 k0 k1 k2 k3⟩
    show K.interp x.up y.up num den = (F.interp x y num den).up
    rw [hi]
    exact h.interp_eq hM hA hB hΩ h1 h2 k0 k1 k2 k3

end

end Tf2
