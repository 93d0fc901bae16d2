import Verif.Spec.Floats
import Verif.Proofs.Rounded
import Verif.Proofs.RoundedInterp

/-!
# Operations on finite numbers stay finite
-/
namespace Tf2

/-- Embedding. -/
def Quat.up (q : Quat ℝ) : Quat Fl := ⟨.fin q.x, .fin q.y, .fin q.z, .fin q.w⟩

def Vec3.up (v : Vec3 ℝ) : Vec3 Fl := ⟨.fin v.x, .fin v.y, .fin v.z⟩

def Pose.up (p : Pose) : FPose := (p.rot.up, p.trans.up)

/-- Bounds on the components. -/
def Quat.Box (A : ℝ) (q : Quat ℝ) : Prop := |q.x| ≤ A ∧ |q.y| ≤ A ∧ |q.z| ≤ A ∧ |q.w| ≤ A

def Vec3.Box (A : ℝ) (v : Vec3 ℝ) : Prop := |v.x| ≤ A ∧ |v.y| ≤ A ∧ |v.z| ≤ A

theorem Quat.box_length (q : Quat ℝ) : q.Box q.length := Quat.abs_le_length q

theorem Quat.Box.mono {A B : ℝ} (h : A ≤ B) {q : Quat ℝ} (hq : q.Box A) : q.Box B :=
  ⟨hq.1.trans h, hq.2.1.trans h, hq.2.2.1.trans h, hq.2.2.2.trans h⟩

theorem Vec3.Box.mono {A B : ℝ} (h : A ≤ B) {q : Vec3 ℝ} (hq : q.Box A) : q.Box B :=
  ⟨hq.1.trans h, hq.2.1.trans h, hq.2.2.trans h⟩

theorem Vec3.box_length (v : Vec3 ℝ) : v.Box v.length := by
  have nx := mul_self_nonneg v.x
  have ny := mul_self_nonneg v.y
  have nz := mul_self_nonneg v.z
  refine ⟨?_, ?_, ?_⟩ <;>
  · refine Real.abs_le_sqrt ?_
    simp only [Vec3.length2, Vec3.dot]; linarith

theorem Quat.Box.inverse {A : ℝ} {q : Quat ℝ} (hq : q.Box A) : q.inverse.Box A :=
  ⟨by show |-q.x| ≤ A; rw [abs_neg]; exact hq.1, by show |-q.y| ≤ A; rw [abs_neg]; exact hq.2.1,
    by show |-q.z| ≤ A; rw [abs_neg]; exact hq.2.2.1, hq.2.2.2⟩

theorem Vec3.Box.neg {A : ℝ} {q : Vec3 ℝ} (hq : q.Box A) : q.neg.Box A :=
  ⟨by show |-q.x| ≤ A; rw [abs_neg]; exact hq.1, by show |-q.y| ≤ A; rw [abs_neg]; exact hq.2.1,
    by show |-q.z| ≤ A; rw [abs_neg]; exact hq.2.2⟩

/-- The machine computes `F` as long as nothing overflows. -/
structure Extends (K : Machine) (F : Rounding) : Prop where
  fine : Fine F
  fl : ∀ x, |x| ≤ F.Ω → K.fl x = .fin (F.rnd x)

namespace Extends

variable {K : Machine} {F : Rounding} (h : Extends K F)
include h

theorem rnd_le {x C : ℝ} (h1 : 1 ≤ C) (hx : |x| ≤ C) (hC : C ≤ F.Ω) : |F.rnd x| ≤ 102 / 100 * C := by
  have e := F.err x (hx.trans hC)
  have hu := h.fine.u
  have hη := h.fine.η
  have h2 : F.u * |x| ≤ 12 / 10 ^ 17 * C := mul_le_mul hu hx (abs_nonneg _) (by norm_num)
  have h3 := abs_sub_abs_le_abs_sub (F.rnd x) x
  norm_num at *
  linarith

theorem add {x y C : ℝ} (h1 : 1 ≤ C) (hx : |x + y| ≤ C) (hC : C ≤ F.Ω) :
    K.add (.fin x) (.fin y) = .fin (F.rnd (x + y)) ∧ |F.rnd (x + y)| ≤ 102 / 100 * C :=
  ⟨h.fl _ (hx.trans hC), h.rnd_le h1 hx hC⟩

theorem sub {x y C : ℝ} (h1 : 1 ≤ C) (hx : |x - y| ≤ C) (hC : C ≤ F.Ω) :
    K.sub (.fin x) (.fin y) = .fin (F.rnd (x - y)) ∧ |F.rnd (x - y)| ≤ 102 / 100 * C := by
  rw [sub_eq_add_neg] at *
  exact ⟨h.fl _ (hx.trans hC), h.rnd_le h1 hx hC⟩

theorem mul {x y C : ℝ} (h1 : 1 ≤ C) (hx : |x * y| ≤ C) (hC : C ≤ F.Ω) :
    K.mul (.fin x) (.fin y) = .fin (F.rnd (x * y)) ∧ |F.rnd (x * y)| ≤ 102 / 100 * C :=
  ⟨h.fl _ (hx.trans hC), h.rnd_le h1 hx hC⟩

omit h in
theorem abs_add {x y A B : ℝ} (hx : |x| ≤ A) (hy : |y| ≤ B) : |x + y| ≤ A + B := (abs_add_le x y).trans (add_le_add hx hy)

omit h in
theorem abs_sub' {x y A B : ℝ} (hx : |x| ≤ A) (hy : |y| ≤ B) : |x - y| ≤ A + B := (abs_sub x y).trans (add_le_add hx hy)

theorem sum4 {p q r s C : ℝ} (h1 : 1 ≤ C) (hp : |p| ≤ C) (hq : |q| ≤ C) (hr : |r| ≤ C) (hs : |s| ≤ C) (hC : 5 * C ≤ F.Ω) :
    K.sum4 (.fin p) (.fin q) (.fin r) (.fin s) = .fin (F.sum4 p q r s) ∧ |F.sum4 p q r s| ≤ 42 / 10 * C := by
  obtain ⟨e1, b1⟩ := h.add (C := 2 * C) (by linarith) ((abs_add hp hq).trans (by linarith)) (by linarith)
  obtain ⟨e2, b2⟩ := h.add (C := 304 / 100 * C) (by linarith) ((abs_add b1 hr).trans (by linarith)) (by linarith)
  obtain ⟨e3, b3⟩ := h.add (C := 4115 / 1000 * C) (by linarith) ((abs_add b2 hs).trans (by linarith)) (by linarith)
  unfold Machine.sum4 Rounding.sum4
  rw [e1, e2, e3]
  exact ⟨rfl, b3.trans (by linarith)⟩

/-- `p + q + r` of three -/
theorem sum3 {p q r C : ℝ} (h1 : 1 ≤ C) (hp : |p| ≤ C) (hq : |q| ≤ C) (hr : |r| ≤ C) (hC : 5 * C ≤ F.Ω) :
    K.sub (K.add (.fin p) (.fin q)) (.fin r) = .fin (F.rnd (F.rnd (p + q) - r)) ∧ |F.rnd (F.rnd (p + q) - r)| ≤ 32 / 10 * C := by
  obtain ⟨e1, b1⟩ := h.add (C := 2 * C) (by linarith) ((abs_add hp hq).trans (by linarith)) (by linarith)
  obtain ⟨e2, b2⟩ := h.sub (C := 304 / 100 * C) (by linarith) ((abs_sub' b1 hr).trans (by linarith)) (by linarith)
  rw [e1, e2]
  exact ⟨rfl, b2.trans (by linarith)⟩

theorem sum3' {p q r C : ℝ} (h1 : 1 ≤ C) (hp : |p| ≤ C) (hq : |q| ≤ C) (hr : |r| ≤ C) (hC : 5 * C ≤ F.Ω) :
    K.sub (K.sub (.fin p) (.fin q)) (.fin r) = .fin (F.rnd (F.rnd (p - q) - r)) ∧ |F.rnd (F.rnd (p - q) - r)| ≤ 32 / 10 * C := by
  obtain ⟨e1, b1⟩ := h.sub (C := 2 * C) (by linarith) ((abs_sub' hp hq).trans (by linarith)) (by linarith)
  obtain ⟨e2, b2⟩ := h.sub (C := 304 / 100 * C) (by linarith) ((abs_sub' b1 hr).trans (by linarith)) (by linarith)
  rw [e1, e2]
  exact ⟨rfl, b2.trans (by linarith)⟩

/-- A product of bounded numbers. -/
theorem prod {x y A B C : ℝ} (h1 : 1 ≤ C) (hx : |x| ≤ A) (hy : |y| ≤ B) (hAB : A * B ≤ C) (hC : C ≤ F.Ω) :
    K.mul (.fin x) (.fin y) = .fin (F.rnd (x * y)) ∧ |F.rnd (x * y)| ≤ 102 / 100 * C := by
  refine h.mul h1 ?_ hC
  rw [abs_mul]
  exact (mul_le_mul hx hy (abs_nonneg _) ((abs_nonneg _).trans hx)).trans hAB

theorem mulQ {a b : Quat ℝ} {A B C : ℝ} (h1 : 1 ≤ C) (ha : a.Box A) (hb : b.Box B) (hAB : A * B ≤ C) (hC : 6 * C ≤ F.Ω) :
    K.mulQ a.up b.up = (F.mul a b).up ∧ (F.mul a b).Box (43 / 10 * C) := by
  obtain ⟨ax, ay, az, aw⟩ := ha
  obtain ⟨bx, by_, bz, bw⟩ := hb
  have P : ∀ {x y : ℝ}, |x| ≤ A → |y| ≤ B → K.mul (.fin x) (.fin y) = .fin (F.rnd (x * y)) ∧ |F.rnd (x * y)| ≤ 102 / 100 * C :=
    fun hx hy => h.prod h1 hx hy hAB (by linarith)
  have S : ∀ {p q r s : ℝ}, |p| ≤ 102 / 100 * C → |q| ≤ 102 / 100 * C → |r| ≤ 102 / 100 * C → |s| ≤ 102 / 100 * C →
      K.add (K.add (K.add (.fin p) (.fin q)) (.fin r)) (.fin (-s)) = .fin (F.sum4 p q r (-s)) ∧
      |F.sum4 p q r (-s)| ≤ 42 / 10 * (102 / 100 * C) :=
    fun hp hq hr hs => h.sum4 (by linarith) hp hq hr (by rwa [abs_neg]) (by linarith)
  have x := S (P aw bx).2 (P ax bw).2 (P ay bz).2 (P az by_).2
  have y := S (P aw by_).2 (P ay bw).2 (P az bx).2 (P ax bz).2
  have z := S (P aw bz).2 (P az bw).2 (P ax by_).2 (P ay bx).2
  have w := S (P aw bw).2 (by rw [abs_neg]; exact (P ax bx).2) (by rw [abs_neg]; exact (P ay by_).2) (P az bz).2
  refine ⟨?_, x.2.trans (by linarith), y.2.trans (by linarith), z.2.trans (by linarith), w.2.trans (by linarith)⟩
  unfold Machine.mulQ Quat.up Machine.sub
  dsimp only
  rw [(P aw bx).1, (P ax bw).1, (P ay bz).1, (P az by_).1, (P aw by_).1, (P ay bw).1, (P az bx).1, (P ax bz).1,
    (P aw bz).1, (P az bw).1, (P ax by_).1, (P ay bx).1, (P aw bw).1, (P ax bx).1, (P ay by_).1, (P az bz).1]
  unfold Fl.neg
  dsimp only
  rw [x.1, y.1, z.1, w.1]
  rfl

theorem mulVec {a : Quat ℝ} {v : Vec3 ℝ} {A B C : ℝ} (h1 : 1 ≤ C) (ha : a.Box A) (hb : v.Box B) (hAB : A * B ≤ C) (hC : 6 * C ≤ F.Ω) :
    K.mulVec a.up v.up = (F.mulVec a v).up ∧ (F.mulVec a v).Box (33 / 10 * C) := by
  obtain ⟨ax, ay, az, aw⟩ := ha
  obtain ⟨bx, by_, bz⟩ := hb
  have P : ∀ {x y : ℝ}, |x| ≤ A → |y| ≤ B → K.mul (.fin x) (.fin y) = .fin (F.rnd (x * y)) ∧ |F.rnd (x * y)| ≤ 102 / 100 * C :=
    fun hx hy => h.prod h1 hx hy hAB (by linarith)
  have S : ∀ {p q r : ℝ}, |p| ≤ 102 / 100 * C → |q| ≤ 102 / 100 * C → |r| ≤ 102 / 100 * C → _ :=
    fun hp hq hr => h.sum3 (C := 102 / 100 * C) (by linarith) hp hq hr (by linarith)
  have x := S (P aw bx).2 (P ay bz).2 (P az by_).2
  have y := S (P aw by_).2 (P az bx).2 (P ax bz).2
  have z := S (P aw bz).2 (P ax by_).2 (P ay bx).2
  have nx : |-a.x| ≤ A := by rwa [abs_neg]
  have w := h.sum3' (C := 102 / 100 * C) (by linarith) (P nx bx).2 (P ay by_).2 (P az bz).2 (by linarith)
  refine ⟨?_, x.2.trans (by linarith), y.2.trans (by linarith), z.2.trans (by linarith), w.2.trans (by linarith)⟩
  unfold Machine.mulVec Quat.up Vec3.up Fl.neg
  dsimp only
  rw [(P aw bx).1, (P ay bz).1, (P az by_).1, (P aw by_).1, (P az bx).1, (P ax bz).1,
    (P aw bz).1, (P ax by_).1, (P ay bx).1, (P nx bx).1, (P ay by_).1, (P az bz).1, x.1, y.1, z.1, w.1]
  rfl

theorem rotate {q : Quat ℝ} {v : Vec3 ℝ} {A B C : ℝ} (hA : 1 ≤ A) (h1 : 1 ≤ B) (hq : q.Box A) (hv : v.Box B) (hAB : A ^ 2 * B ≤ C)
    (hC : 20 * C ≤ F.Ω) :
    K.rotate q.up v.up = (F.rotate q v).up ∧ (F.rotate q v).Box (15 * C) := by
  have hAB1 : 1 ≤ A * B := by nlinarith
  have hle : A * B ≤ C := le_trans (by nlinarith) hAB
  obtain ⟨e1, b1⟩ := h.mulVec hAB1 hq hv le_rfl (by linarith)
  obtain ⟨e2, b2⟩ := h.mulQ (a := F.mulVec q v) (b := q.inverse) (C := 33 / 10 * C) (by linarith) b1 hq.inverse (by nlinarith) (by linarith)
  refine ⟨?_, b2.1.trans (by linarith), b2.2.1.trans (by linarith), b2.2.2.1.trans (by linarith)⟩
  have e3 : Machine.inverse q.up = q.inverse.up := rfl
  unfold Machine.rotate
  rw [e1, e3, e2]
  rfl

theorem comp {a b : Pose} {A B C W : ℝ} (hA : 1 ≤ A) (h1 : 1 ≤ B) (ha : a.rot.Box A) (hbr : b.rot.Box A) (hat : a.trans.Box W)
    (hbt : b.trans.Box B) (hAB : A ^ 2 * B ≤ C) (hC : 20 * C + 2 * W ≤ F.Ω) : K.comp a.up b.up = (F.comp a b).up ∧
      (F.comp a b).trans.Box (16 * C + 2 * W) := by
  have hW : 0 ≤ W := (abs_nonneg _).trans hat.1
  have hAA : 1 ≤ A * A := by nlinarith
  have hle : A * A ≤ C := le_trans (by nlinarith) hAB
  obtain ⟨e1, b1⟩ := h.mulQ hAA ha hbr le_rfl (by linarith)
  obtain ⟨e2, b2⟩ := h.rotate hA h1 ha hbt hAB (by linarith)
  have S : ∀ {p q : ℝ}, |p| ≤ 15 * C → |q| ≤ W → K.add (.fin p) (.fin q) = .fin (F.rnd (p + q)) ∧ |F.rnd (p + q)| ≤ 16 * C + 2 * W :=
    fun hp hq => by
      obtain ⟨s1, s2⟩ := h.add (C := 15 * C + W) (by linarith) (abs_add hp hq) (by linarith)
      exact ⟨s1, s2.trans (by linarith)⟩
  refine ⟨?_, (S b2.1 hat.1).2, (S b2.2.1 hat.2.1).2, (S b2.2.2 hat.2.2).2⟩
  unfold Machine.comp Pose.up
  dsimp only
  rw [e1, e2]
  refine Prod.ext rfl ?_
  unfold Machine.addVec Vec3.up
  dsimp only
  rw [(S b2.1 hat.1).1, (S b2.2.1 hat.2.1).1, (S b2.2.2 hat.2.2).1]
  rfl

theorem inv {a : Pose} {A B C : ℝ} (hA : 1 ≤ A) (h1 : 1 ≤ B) (ha : a.rot.Box A) (hat : a.trans.Box B)
    (hAB : A ^ 2 * B ≤ C) (hC : 20 * C ≤ F.Ω) :
    K.inv a.up = (F.inv a).up ∧ (F.inv a).rot.Box A ∧ (F.inv a).trans.Box (15 * C) := by
  obtain ⟨e2, b2⟩ := h.rotate hA h1 ha.inverse hat.neg hAB (by linarith)
  refine ⟨?_, ha.inverse, b2⟩
  unfold Machine.inv
  exact Prod.ext rfl e2

end Extends

end Tf2
