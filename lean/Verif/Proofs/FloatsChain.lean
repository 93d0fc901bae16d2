import Verif.Proofs.Floats
import Verif.Props.Closed

/-!
# Paths of finite transforms
-/
namespace Tf2

/-- Almost of length one. -/
def Quat.Firm (q : Quat ℝ) : Prop := 994 / 1000 ≤ q.length ∧ q.length ≤ 1006 / 1000

/-- The rotation of a path of `n` edges. -/
def Quat.Grew (n : ℕ) (q : Quat ℝ) : Prop := q.length + 1 ≤ 2 * (10062 / 10000) ^ n ∧ (9939 / 10000) ^ n ≤ q.length

/-- An edge: finite, almost a unit rotation, translation of length at most `B`. -/
def FEdge (B : ℝ) (p : FPose) : Prop := ∃ e : Pose, p = e.up ∧ e.rot.Firm ∧ e.trans.length ≤ B

/-- A path of `n` edges. -/
def FPath (B : ℝ) (n : ℕ) (p : FPose) : Prop := ∃ x : Pose, p = x.up ∧ x.rot.Grew n ∧
  x.trans.length ≤ 100 * (B + 1) * ((10123 / 10000) ^ n - 1)

theorem Quat.Grew.zero : Quat.identity.Grew 0 := by
  have : Quat.identity.length = 1 := by simp [Quat.identity, Quat.length, Quat.length2, Quat.dot]
  unfold Quat.Grew
  rw [this]; norm_num

theorem FPath.zero (B : ℝ) : FPath B 0 Machine.one := by
  refine ⟨Pose.one, rfl, Quat.Grew.zero, ?_⟩
  have : (Pose.one).trans.length = 0 := by simp [Pose.one, Vec3.zero, Vec3.length, Vec3.length2, Vec3.dot]
  rw [this]; norm_num

theorem growth_rot {n : ℕ} (hn : n ≤ 1000) : (10062 / 10000 : ℝ) ^ n ≤ 490 :=
  (pow_le_pow_right₀ (by norm_num) hn).trans (by rw [show 1000 = 200 * 5 from rfl, pow_mul]; norm_num)

theorem growth_low {n : ℕ} (hn : n ≤ 1000) : (2 / 1000 : ℝ) ≤ (9939 / 10000) ^ n :=
  le_trans (by rw [show 1000 = 200 * 5 from rfl, pow_mul]; norm_num) (pow_le_pow_of_le_one (by norm_num) (by norm_num) hn)

theorem growth_trans {n : ℕ} (hn : n ≤ 1000) : (10123 / 10000 : ℝ) ^ n ≤ 210000 :=
  (pow_le_pow_right₀ (by norm_num) hn).trans (by rw [show 1000 = 200 * 5 from rfl, pow_mul]; norm_num)

theorem Quat.Grew.bounds {n : ℕ} (hn : n ≤ 1000) {q : Quat ℝ} (h : q.Grew n) : 2 / 1000 ≤ q.length ∧ q.length ≤ 979 := by
  have g1 := growth_rot hn
  have g2 := growth_low hn
  obtain ⟨h1, h2⟩ := h
  exact ⟨g2.trans h2, by linarith⟩

theorem FPath.bounds {B : ℝ} (hB : 0 ≤ B) {n : ℕ} (hn : n ≤ 1000) {x : Pose} (h1 : x.rot.Grew n)
    (h2 : x.trans.length ≤ 100 * (B + 1) * ((10123 / 10000) ^ n - 1)) : x.rot.length ≤ 1000 ∧ x.trans.length ≤ 21000000 * (B + 1) := by
  have g1 := h1.bounds hn
  have g2 := growth_trans hn
  refine ⟨by linarith, h2.trans ?_⟩
  have := mul_le_mul_of_nonneg_left g2 (by positivity : 0 ≤ 100 * (B + 1))
  linarith

variable {K : Machine} {F : Rounding} {B : ℝ}

/-- Not too short and not too long: the rotation of an answer. -/
def Quat.Sound (q : Quat ℝ) : Prop := 1 / 10 ^ 6 ≤ q.length ∧ q.length ≤ 10 ^ 6

theorem mul_lengths (hF : Fine F) {e x : Quat ℝ} (h : e.length * x.length ≤ 10 ^ 7) :
    (F.mul e x).length ≤ (1 + 1 / 10 ^ 8) * (e.length * x.length) + 1 / 10 ^ 9 ∧
    (1 - 1 / 10 ^ 8) * (e.length * x.length) - 1 / 10 ^ 9 ≤ (F.mul e x).length := by
  have u0 := F.u_nonneg
  have n0 := F.η_nonneg
  have hu : F.u ≤ 1 / 10 ^ 9 := hF.u.trans (by norm_num)
  have hη : F.η ≤ 1 / 10 ^ 12 := hF.η.trans (by norm_num)
  have hΩ := hF.Ω
  norm_num at hu hη hΩ
  have hq0 : 0 ≤ e.length * x.length := mul_nonneg e.length_nonneg' x.length_nonneg'
  have r := Rounding.mul_err (F := F) (by linarith) e x (by norm_num at *; linarith)
  have l := Quat.length_le_apart (F.mul e x) (e.mul x)
  have l' := Quat.length_le_apart (e.mul x) (F.mul e x)
  rw [Quat.apart_comm] at l'
  rw [Quat.length_mul] at l l'
  have m : 10 * F.u * (e.length * x.length) ≤ 10 * (1 / 1000000000) * (e.length * x.length) :=
    mul_le_mul_of_nonneg_right (by linarith) hq0
  norm_num at *
  constructor <;> linarith

theorem Quat.Grew.step (hF : Fine F) {n : ℕ} (hn : n + 1 ≤ 1000) {e x : Quat ℝ} (he : e.Firm) (hx : x.Grew n) :
    (F.mul e x).Grew (n + 1) := by
  obtain ⟨b1, b2⟩ := hx.bounds (by omega)
  obtain ⟨e1, e2⟩ := he
  obtain ⟨x1, x2⟩ := hx
  have hq : e.length * x.length ≤ 1006 / 1000 * x.length := mul_le_mul_of_nonneg_right e2 x.length_nonneg'
  have hq' : 994 / 1000 * x.length ≤ e.length * x.length := mul_le_mul_of_nonneg_right e1 x.length_nonneg'
  obtain ⟨l1, l2⟩ := mul_lengths hF (e := e) (x := x) (by norm_num at *; linarith)
  constructor
  · have ep : (2 : ℝ) * (10062 / 10000) ^ (n + 1) = 10062 / 10000 * (2 * (10062 / 10000) ^ n) := by rw [pow_succ]; ring
    rw [ep]
    norm_num at *
    linarith
  · rw [pow_succ]
    norm_num at *
    linarith

theorem FPath.step (h : Extends K F) (hB : 0 ≤ B) (hΩ : 10 ^ 16 * (B + 1) ≤ F.Ω) {n : ℕ} (hn : n + 1 ≤ 1000) {p e : FPose}
    (hp : FPath B n p) (he : FEdge B e) : FPath B (n + 1) (K.comp e p) := by
  obtain ⟨x, rfl, x1, x2⟩ := hp
  obtain ⟨e, rfl, e1, e2⟩ := he
  obtain ⟨b1, b2⟩ := FPath.bounds hB (by omega) x1 x2
  have st := Quat.Grew.step h.fine hn e1 x1
  replace e1 := e1.2
  have u0 := F.u_nonneg
  have n0 := F.η_nonneg
  have hu : F.u ≤ 1 / 10 ^ 9 := h.fine.u.trans (by norm_num)
  have hη : F.η ≤ 1 / 10 ^ 9 := h.fine.η.trans (by norm_num)
  norm_num at hu hη hΩ
  have q0 := e.rot.length_nonneg'
  have t0 := e.trans.length_nonneg'
  have xt0 := x.trans.length_nonneg'
  refine ⟨F.comp e x, ?_, st, ?_⟩
  · exact (h.comp (A := 1000) (B := 21000000 * (B + 1)) (C := 1000 ^ 2 * (21000000 * (B + 1))) (W := B) (by norm_num) (by linarith)
      (e.rot.box_length.mono (by linarith)) (x.rot.box_length.mono b1) (e.trans.box_length.mono e2) (x.trans.box_length.mono b2) le_rfl
      (by norm_num; linarith)).1
  · have r := Rounding.comp_trans (F := F) (by linarith) (by linarith) e x e x (by linarith) (by linarith)
    rw [Quat.apart_self, Vec3.apart_self, Vec3.apart_self] at r
    have l := Vec3.length_le_apart (F.comp e x).trans (Pose.comp e x).trans
    have el : (Pose.comp e x).trans.length ≤ e.rot.length ^ 2 * x.trans.length + e.trans.length := by
      refine (Vec3.length_add_le (e.rot.rotate x.trans) e.trans).trans ?_
      rw [Quat.length_rotate, ← Quat.length_sq]
    have sq : e.rot.length ^ 2 * x.trans.length ≤ 1012036 / 1000000 * x.trans.length :=
      mul_le_mul_of_nonneg_right ((pow_le_pow_left₀ q0 e1 2).trans (by norm_num)) xt0
    have m1 : 24 * F.u * x.trans.length ≤ 24 * (1 / 1000000000) * x.trans.length := mul_le_mul_of_nonneg_right (by linarith) xt0
    have m2 : 2 * F.u * e.trans.length ≤ 2 * (1 / 1000000000) * e.trans.length := mul_le_mul_of_nonneg_right (by linarith) t0
    have ep : 100 * (B + 1) * ((10123 / 10000) ^ (n + 1) - 1) =
        10123 / 10000 * (100 * (B + 1) * ((10123 / 10000) ^ n - 1)) + 123 / 100 * (B + 1) := by rw [pow_succ]; ring
    rw [ep]
    linarith

theorem Quat.Grew.sound {n : ℕ} (hn : n ≤ 1000) {q : Quat ℝ} (h : q.Grew n) : q.Sound := by
  obtain ⟨h1, h2⟩ := h.bounds hn
  constructor <;> norm_num at * <;> linarith

theorem Quat.Sound.inverse {q : Quat ℝ} (h : q.Sound) : q.inverse.Sound := by
  unfold Quat.Sound at *
  rw [Quat.length_inverse]
  exact h

theorem Quat.Grew.join (hF : Fine F) {n k : ℕ} (hn : n ≤ 1000) (hk : k ≤ 1000) {x y : Quat ℝ} (hx : x.Grew n) (hy : y.Grew k) :
    (F.mul y.inverse x).Sound := by
  obtain ⟨x1, x2⟩ := hx.bounds hn
  obtain ⟨y1, y2⟩ := hy.bounds hk
  have b1 : y.inverse.length * x.length ≤ 979 * 979 := by
    rw [Quat.length_inverse]; exact mul_le_mul y2 x2 x.length_nonneg' (by norm_num)
  have b2 : 2 / 1000 * (2 / 1000) ≤ y.inverse.length * x.length := by
    rw [Quat.length_inverse]; exact mul_le_mul y1 x1 (by norm_num) y.length_nonneg'
  obtain ⟨l1, l2⟩ := mul_lengths hF (e := y.inverse) (x := x) (by norm_num at *; linarith)
  constructor <;> norm_num at * <;> linarith

/-- A finite transform of an answer. -/
def FSound (B : ℝ) (p : FPose) : Prop := ∃ y : Pose, p = y.up ∧ y.rot.Sound ∧ y.trans.Box (10 ^ 15 * (B + 1))

theorem FPath.sound (hB : 0 ≤ B) {n : ℕ} (hn : n ≤ 1000) {p : FPose} (hp : FPath B n p) : FSound B p := by
  obtain ⟨x, rfl, x1, x2⟩ := hp
  obtain ⟨b1, b2⟩ := FPath.bounds hB hn x1 x2
  exact ⟨x, rfl, x1.sound hn, x.trans.box_length.mono (by norm_num; linarith)⟩

theorem FPath.inv_finite (h : Extends K F) (hB : 0 ≤ B) (hΩ : 10 ^ 16 * (B + 1) ≤ F.Ω) {n : ℕ} (hn : n ≤ 1000) {p : FPose}
    (hp : FPath B n p) : ∃ y : Pose, K.inv p = y.up ∧ (∃ x : Quat ℝ, x.Grew n ∧ y.rot = x.inverse) ∧
      y.trans.Box (315000000000000 * (B + 1)) := by
  obtain ⟨x, rfl, x1, x2⟩ := hp
  obtain ⟨b1, b2⟩ := FPath.bounds hB hn x1 x2
  norm_num at hΩ
  obtain ⟨e, r1, r2⟩ := h.inv (a := x) (A := 1000) (B := 21000000 * (B + 1)) (C := 1000 ^ 2 * (21000000 * (B + 1))) (by norm_num)
    (by linarith) (x.rot.box_length.mono b1) (x.trans.box_length.mono b2) le_rfl (by norm_num; linarith)
  exact ⟨_, e, ⟨x.rot, x1, rfl⟩, r2.mono (by norm_num; linarith)⟩

theorem FPath.inv_sound (h : Extends K F) (hB : 0 ≤ B) (hΩ : 10 ^ 16 * (B + 1) ≤ F.Ω) {n : ℕ} (hn : n ≤ 1000) {p : FPose}
    (hp : FPath B n p) : FSound B (K.inv p) := by
  obtain ⟨y, e, ⟨x, hx, ey⟩, b⟩ := hp.inv_finite h hB hΩ hn
  exact ⟨y, e, by rw [ey]; exact (hx.sound hn).inverse, b.mono (by norm_num; linarith)⟩

theorem Pose.up_finite (p : Pose) : p.up.Finite :=
  ⟨⟨⟨_, rfl⟩, ⟨_, rfl⟩, ⟨_, rfl⟩, ⟨_, rfl⟩⟩, ⟨_, rfl⟩, ⟨_, rfl⟩, ⟨_, rfl⟩⟩

theorem FPath.join (h : Extends K F) (hB : 0 ≤ B) (hΩ : 10 ^ 16 * (B + 1) ≤ F.Ω) {n k : ℕ} (hn : n ≤ 1000) (hk : k ≤ 1000)
    {p q : FPose} (hp : FPath B n p) (hq : FPath B k q) : FSound B (K.comp (K.inv q) p) := by
  obtain ⟨y, ey, ⟨z, hz, yz⟩, y2⟩ := hq.inv_finite h hB hΩ hk
  obtain ⟨x, rfl, x1, x2⟩ := hp
  obtain ⟨b1, b2⟩ := FPath.bounds hB hn x1 x2
  have y1 : y.rot.Box 1000 := by
    rw [yz]
    exact z.inverse.box_length.mono (by rw [Quat.length_inverse]; linarith [(hz.bounds hk).2])
  norm_num at hΩ
  obtain ⟨c1, c2⟩ := h.comp (A := 1000) (B := 21000000 * (B + 1)) (C := 1000 ^ 2 * (21000000 * (B + 1))) (by norm_num) (by linarith)
    y1 (x.rot.box_length.mono b1) y2 (x.trans.box_length.mono b2) le_rfl (by norm_num; linarith)
  rw [ey, c1]
  refine ⟨_, rfl, ?_, c2.mono (by norm_num; linarith)⟩
  show (F.mul y.rot x.rot).Sound
  rw [yz]
  exact Quat.Grew.join h.fine hn hk x1 hz

/-! ### Lookups -/

/-- What holds of all transforms on all paths of up to 1000 edges holds of the answers of lookups, if it survives the inversion
of the target side and the last composition. -/
theorem lookup_family {X : Type} [Rigid X] {E : X → Prop} {P : ℕ → X → Prop} {G : X → Prop} (z : P 0 Rigid.one)
    (st : ∀ {n p e}, n + 1 ≤ 1000 → P n p → E e → P (n + 1) (Rigid.comp e p)) (g0 : ∀ {n p}, n ≤ 1000 → P n p → G p)
    (g1 : ∀ {n p}, n ≤ 1000 → P n p → G (Rigid.inv p))
    (g2 : ∀ {n p k q}, n ≤ 1000 → k ≤ 1000 → P n p → P k q → G (Rigid.comp (Rigid.inv q) p))
    {D : Duration} {b : Buf X} (hw : WF D b) (hE : EdgesIn E b) {target source : Name} {t : Time} {m : Msg X}
    (hm : b.lookupTransform target source t = .ok m) : G m.xf := by
  have chain : ∀ {t : Time} {a c : Nat} {x : X} {n : ℕ}, Chain b t a c x n → n ≤ 1000 → P n x := by
    intro t a c x n hc
    induction hc with
    | refl => intro _; exact z
    | snoc _ h2 ih => intro hn; exact st hn (ih (by omega)) (h2.inU hE)
  by_cases hne : target = source
  · subst hne
    simp only [Buf.lookupTransform, if_true, Res.ok.injEq] at hm
    subst hm
    exact g0 (Nat.zero_le _) z
  · obtain ⟨g, s, hg, hs, lg, ls⟩ := lookup_ok_frames hne hm
    have hgs : s ≠ g := fun e => hne (hw.inj hg.2 (e ▸ hs.2))
    rw [lookup_eq hg hs lg ls hne] at hm
    have key : ∀ t' a ch, b.walkAt transformAccum TAcc.init t' g s = .done a ch → G a.result := by
      intro t' a ch hd
      have hsp := walkAt_spec (t := t') hw (tgt := g) hs.1 TAcc.init rfl rfl
      rw [hd] at hsp
      obtain ⟨_, h2⟩ := hsp
      rcases h2 with ⟨n, hn, hc⟩ | ⟨n, y, hn, hc, e⟩ | ⟨c, x, y, n, k, hn, hk, hx, hy, _, e⟩
      · exact g0 hn (chain hc hn)
      · rw [e]; exact g1 hn (chain hc hn)
      · rw [e]; exact g2 hn hk (chain hx hn) (chain hy hk)
    unfold Buf.walk at hm
    rw [if_neg hgs] at hm
    have fin : ∀ t', lookupOfWalk target source (b.walkAt transformAccum TAcc.init t' g s) = .ok m → G m.xf := by
      intro t' h
      cases hd : b.walkAt transformAccum TAcc.init t' g s with
      | ub => rw [hd] at h; cases h
      | err c => rw [hd] at h; cases h
      | done a ch =>
        rw [hd] at h
        simp only [lookupOfWalk, Res.ok.injEq] at h
        subst h
        exact key t' a ch hd
    by_cases ht : t = 0
    · rw [if_pos ht] at hm
      cases hl : b.latestCommonTime g s with
      | ub => rw [hl] at hm; cases hm
      | err c => rw [hl] at hm; cases hm
      | ok t' => rw [hl] at hm; exact fin t' hm
    · rw [if_neg ht] at hm
      exact fin t hm

/-- A lookup in a buffer of such transforms gives a finite one. -/
theorem lookup_sound (h : Extends K F) (hB : 0 ≤ B) (hΩ : 10 ^ 16 * (B + 1) ≤ F.Ω) {D : Duration} {b : Buf FPose}
    (hw : WF D b) (hE : @EdgesIn FPose K.rigid (FEdge B) b) {target source : Name} {t : Time} {m : Msg FPose}
    (hm : K.lookup b target source t = .ok m) : FSound B m.xf :=
  @lookup_family FPose K.rigid (FEdge B) (FPath B) (FSound B) (FPath.zero B) (fun hn hp he => hp.step h hB hΩ hn he)
    (fun hn hp => hp.sound hB hn) (fun hn hp => hp.inv_sound h hB hΩ hn)
    (fun hn hk hp hq => FPath.join h hB hΩ hn hk hp hq) D b hw hE target source t m hm

theorem lookup_finite (h : Extends K F) (hB : 0 ≤ B) (hΩ : 10 ^ 16 * (B + 1) ≤ F.Ω) {D : Duration} {b : Buf FPose}
    (hw : WF D b) (hE : @EdgesIn FPose K.rigid (FEdge B) b) {target source : Name} {t : Time} {m : Msg FPose}
    (hm : K.lookup b target source t = .ok m) : m.xf.Finite := by
  obtain ⟨y, e, _⟩ := lookup_sound h hB hΩ hw hE hm
  rw [e]; exact Pose.up_finite _

/-- The rotation alone, whatever the translations are. -/
theorem lookup_rotation (h : Extends K F) {D : Duration} {b : Buf FPose} (hw : WF D b)
    (hE : @EdgesIn FPose K.rigid (fun p => ∃ q : Quat ℝ, p.1 = q.up ∧ q.Firm) b) {target source : Name} {t : Time}
    {m : Msg FPose} (hm : K.lookup b target source t = .ok m) : ∃ q : Quat ℝ, m.xf.1 = q.up ∧ q.Sound := by
  have hΩ := h.fine.Ω
  norm_num at hΩ
  have prod : ∀ {e x : Quat ℝ}, e.length ≤ 1000 → x.length ≤ 1000 → K.mulQ e.up x.up = (F.mul e x).up := fun {e x} he hx =>
    (h.mulQ (C := 10 ^ 7) (by norm_num) (e.box_length.mono he) (x.box_length.mono hx) (by norm_num) (by norm_num; linarith)).1
  let P : ℕ → FPose → Prop := fun n p => ∃ x : Quat ℝ, p.1 = x.up ∧ x.Grew n
  refine @lookup_family FPose K.rigid (fun p => ∃ q : Quat ℝ, p.1 = q.up ∧ q.Firm) P
    (fun p => ∃ q : Quat ℝ, p.1 = q.up ∧ q.Sound) ?_ ?_ ?_ ?_ ?_ D b hw hE target source t m hm
  · exact ⟨Quat.identity, rfl, Quat.Grew.zero⟩
  · rintro n p e hn ⟨x, ex, x1⟩ ⟨q, eq, q1⟩
    have b1 := (x1.bounds (by omega)).2
    refine ⟨F.mul q x, ?_, Quat.Grew.step h.fine hn q1 x1⟩
    show K.mulQ e.1 p.1 = _
    rw [ex, eq, prod (by linarith [q1.2]) (by linarith)]
  · rintro n p hn ⟨x, ex, x1⟩
    exact ⟨x, ex, x1.sound hn⟩
  · rintro n p hn ⟨x, ex, x1⟩
    refine ⟨x.inverse, ?_, (x1.sound hn).inverse⟩
    show Machine.inverse p.1 = _
    rw [ex]; rfl
  · rintro n p k q hn hk ⟨x, ex, x1⟩ ⟨y, ey, y1⟩
    refine ⟨F.mul y.inverse x, ?_, Quat.Grew.join h.fine hn hk x1 y1⟩
    show K.mulQ (Machine.inverse q.1) p.1 = _
    rw [ex, ey]
    exact prod (e := y.inverse) (by rw [Quat.length_inverse]; linarith [(y1.bounds hk).2]) (by linarith [(x1.bounds hn).2])

end Tf2
