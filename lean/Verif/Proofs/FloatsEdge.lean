import Verif.Proofs.FloatsChain
import Verif.Proofs.FloatsInterp
import Verif.Props.RoundedInterp

/-!
# Stored transforms and interpolated ones are finite
-/
namespace Tf2

theorem Vec3.Box.length {A : ℝ} (hA : 0 ≤ A) {v : Vec3 ℝ} (h : v.Box A) : v.length ≤ 2 * A := by
  have sq : ∀ {x : ℝ}, |x| ≤ A → x * x ≤ A * A := fun {x} hx => by
    rw [← abs_mul_abs_self x]; exact mul_self_le_mul_self (abs_nonneg _) hx
  refine Real.sqrt_le_iff.2 ⟨by linarith, ?_⟩
  have h1 := sq h.1
  have h2 := sq h.2.1
  have h3 := sq h.2.2
  have := mul_self_nonneg A
  simp only [Vec3.length2, Vec3.dot]
  nlinarith

namespace Extends

variable {K : Machine} {F : Rounding}

theorem toSec (h : Extends K F) {n : Int} (h0 : 0 ≤ n) (h1 : n ≤ 10 ^ 19) : K.toSec n = .fin (F.toSec n) := by
  have hS0 : (0 : Int) ≤ n / 1000000000 := Int.ediv_nonneg h0 (by norm_num)
  have hS1 : n / 1000000000 ≤ 10 ^ 19 := (Int.ediv_le_self _ h0).trans h1
  have hN0 : (0 : Int) ≤ n % 1000000000 := Int.emod_nonneg _ (by norm_num)
  have hN1 : n % 1000000000 ≤ 1000000000 := (Int.emod_lt_of_pos _ (by norm_num)).le
  unfold Machine.toSec Rounding.toSec
  generalize n / 1000000000 = S at *
  generalize n % 1000000000 = N at *
  have r0 : (0 : ℝ) ≤ S := by exact_mod_cast hS0
  have r1 : (S : ℝ) ≤ 10 ^ 19 := by exact_mod_cast hS1
  have r2 : (0 : ℝ) ≤ N := by exact_mod_cast hN0
  have r3 : (N : ℝ) ≤ 10 ^ 9 := by norm_num; exact_mod_cast hN1
  have hΩ := h.omega
  have bS : |(S : ℝ)| ≤ 10 ^ 19 := by rw [abs_of_nonneg r0]; exact r1
  have bN : |(N : ℝ)| ≤ 10 ^ 9 := by rw [abs_of_nonneg r2]; exact r3
  generalize (S : ℝ) = S at *
  generalize (N : ℝ) = N at *
  have c : |(1e-9 : ℝ)| ≤ 1 := by rw [abs_of_pos (by norm_num)]; norm_num
  have e1 : K.fl 1e-9 = .fin (F.rnd 1e-9) := h.fl _ (c.trans (by norm_num at *; linarith))
  have b1 := h.rnd_le le_rfl c (by norm_num at *; linarith)
  obtain ⟨e2, b2⟩ := h.prod (C := 102 / 100 * 1 * 10 ^ 9) (by norm_num) b1 bN le_rfl (by norm_num at *; linarith)
  obtain ⟨e3, _⟩ := h.add (x := S) (C := 10 ^ 19 + 102 / 100 * (102 / 100 * 1 * 10 ^ 9)) (by norm_num) (abs_add bS b2)
    (by norm_num at *; linarith)
  rw [e1, e2, e3]

theorem ratio (h : Extends K F) {num den : Int} (h0 : 0 ≤ num) (h1 : num ≤ den) (h2 : 0 < den) (h3 : den ≤ 10 ^ 19) :
    K.div (K.toSec num) (K.toSec den) = .fin (F.rnd (F.toSec num / F.toSec den)) := by
  rw [h.toSec h0 (h1.trans h3), h.toSec h2.le h3]
  have a := Rounding.toSec_near h.fine h0 (h1.trans h3)
  have b := Rounding.toSec_near h.fine h2.le h3
  have r0 : (0 : ℝ) ≤ num := by exact_mod_cast h0
  have r1 : (num : ℝ) ≤ den := by exact_mod_cast h1
  have r2 : (1 : ℝ) ≤ den := by exact_mod_cast h2
  generalize (num : ℝ) = x at *
  generalize (den : ℝ) = y at *
  generalize F.toSec num = p at *
  generalize F.toSec den = q at *
  obtain ⟨a1, a2⟩ := abs_le.1 a
  obtain ⟨b1, b2⟩ := abs_le.1 b
  have q0 : 0 < q := by norm_num at *; linarith
  have hΩ := h.omega
  show (if q = 0 then _ else K.fl (p / q)) = _
  rw [if_neg q0.ne']
  refine h.fl _ (le_trans ?_ (le_trans (by norm_num : (2 : ℝ) ≤ 10 ^ 20) hΩ))
  rw [abs_div, abs_of_pos q0, div_le_iff₀ q0, abs_le]
  norm_num at *
  constructor <;> linarith

theorem interpolate3 (h : Extends K F) {B : ℝ} (hB : 0 ≤ B) (hΩ : 100 * (B + 1) ≤ F.Ω) {v w : Vec3 ℝ} (hv : v.Box B) (hw : w.Box B)
    {t : ℝ} (ht : |t| ≤ 11 / 10) :
    K.interpolate3 v.up w.up (.fin t) = (F.interpolate3 v w t).up ∧ (F.interpolate3 v w t).Box (43 / 10 * (B + 1)) := by
  have hs : |1 - t| ≤ 21 / 10 := (abs_sub' (by norm_num : |(1 : ℝ)| ≤ 1) ht).trans (by norm_num)
  obtain ⟨es, bs⟩ := h.sub (C := 21 / 10) (by norm_num) hs (by linarith)
  have key : ∀ {x y : ℝ}, |x| ≤ B → |y| ≤ B → K.add (K.mul (.fin (F.rnd (1 - t))) (.fin x)) (K.mul (.fin t) (.fin y)) =
      .fin (F.rnd (F.rnd (F.rnd (1 - t) * x) + F.rnd (t * y))) ∧
      |F.rnd (F.rnd (F.rnd (1 - t) * x) + F.rnd (t * y))| ≤ 43 / 10 * (B + 1) := by
    intro x y hx hy
    obtain ⟨e1, b1⟩ := h.prod (C := 2142 / 1000 * (B + 1)) (by linarith) bs hx (by linarith) (by linarith)
    obtain ⟨e2, b2⟩ := h.prod (C := 11 / 10 * (B + 1)) (by linarith) ht hy (by linarith) (by linarith)
    obtain ⟨e3, b3⟩ := h.add (C := 34 / 10 * (B + 1)) (by linarith) ((abs_add b1 b2).trans (by linarith)) (by linarith)
    rw [e1, e2, e3]
    exact ⟨rfl, b3.trans (by linarith)⟩
  obtain ⟨vx, vy, vz⟩ := hv
  obtain ⟨wx, wy, wz⟩ := hw
  refine ⟨?_, (key vx wx).2, (key vy wy).2, (key vz wz).2⟩
  unfold Machine.interpolate3 Rounding.interpolate3 Vec3.up
  simp only [es, (key vx wx).1, (key vy wy).1, (key vz wz).1]

/-- A stored transform. -/
def _root_.Tf2.FStored (B : ℝ) (p : FPose) : Prop := ∃ e : Pose, p = e.up ∧ e.rot.Loose ∧ e.trans.Box B

theorem _root_.Tf2.FStored.edge {B : ℝ} (hB : 0 ≤ B) {p : FPose} (h : FStored B p) : FEdge (9 * (B + 1)) p := by
  obtain ⟨e, rfl, h1, h2⟩ := h
  exact ⟨e, rfl, h1.firm, (h2.length hB).trans (by linarith)⟩

theorem interp (h : Extends K F) (hM : K.lib.Accurate) (hA : K.lib.AcosAll) {B : ℝ} (hB : 0 ≤ B) (hΩ : 100 * (B + 1) ≤ F.Ω)
    {a b : FPose} (ha : FStored B a) (hb : FStored B b) {num den : Int} (h0 : 0 ≤ num) (h1 : num ≤ den) (h2 : 0 < den)
    (h3 : den ≤ 10 ^ 19) : FEdge (9 * (B + 1)) (K.interp a b num den) := by
  obtain ⟨a, rfl, a1, a2⟩ := ha
  obtain ⟨b, rfl, b1, b2⟩ := hb
  have ht := Rounding.ratio_near h.fine h0 h1 h2 h3
  have r2 : (0 : ℝ) < den := by exact_mod_cast h2
  have r0 : (0 : ℝ) ≤ (num : ℝ) / den := div_nonneg (by exact_mod_cast h0) r2.le
  have r1 : (num : ℝ) / den ≤ 1 := (div_le_one r2).2 (by exact_mod_cast h1)
  have er := h.ratio h0 h1 h2 h3
  unfold Machine.interp
  rw [er]
  generalize F.rnd (F.toSec num / F.toSec den) = t' at *
  generalize (num : ℝ) / den = t at *
  obtain ⟨t1, t2⟩ := abs_le.1 ht
  have s := h.slerp hM hA a1 b1 r0 r1 ht
  have v := h.interpolate3 hB hΩ a2 b2 (t := t') (by rw [abs_le]; norm_num at *; constructor <;> linarith)
  refine ⟨⟨F.slerp K.lib a.rot b.rot t', F.interpolate3 a.trans b.trans t'⟩, ?_, s.2, (v.2.length (by linarith)).trans (by linarith)⟩
  show (K.slerp a.rot.up b.rot.up (.fin t'), K.interpolate3 a.trans.up b.trans.up (.fin t')) = _
  rw [s.1, v.1]
  rfl

end Extends

/-- The answers of the caches: what holds of everything stored and of interpolations holds of them. -/
theorem edges_of {X : Type} [Rigid X] {S E : X → Prop} (hSE : ∀ {p}, S p → E p)
    (hI : ∀ {a b} {num den : Int}, S a → S b → 0 ≤ num → num ≤ den → 0 < den → den ≤ 10 ^ 19 → E (Rigid.interp a b num den))
    {D : Duration} {b : Buf X} (hw : WF D b) (hS : StoredIn S b) (hT : StampsIn (fun t => t ≤ TIME_MAX) b) : EdgesIn E b := by
  intro f c hc t s hs
  have h1 := hS f c hc
  have h2 := hw.caches f c hc
  cases c with
  | dyn D' st =>
    have h3 := hT f D' st hc
    have hs' : Tf2.dynGetData st t = .ok s := hs
    unfold Tf2.dynGetData at hs'
    rcases findClosest_cases h2.2.1.sorted t with ⟨_, e⟩ | ⟨f, r, e0, _, e⟩ | ⟨_, s', hs'', _, e⟩ |
      ⟨_, o, n, hadj, k1, k2, e⟩ | ⟨_, _, e⟩ <;> rw [e] at hs'
    · cases hs'
    · injection hs' with hs'; subst hs'; exact hSE (h1 f (by simp [e0]))
    · injection hs' with hs'; subst hs'; exact hSE (h1 _ hs'')
    · simp only at hs'
      split at hs'
      · injection hs' with hs'
        have hlt := hadj.2.2.1
        have hmax := h3 _ hadj.2.1
        unfold TIME_MAX at hmax
        have : n.stamp ≠ o.stamp := by omega
        rw [← hs']
        simp only [interpolate, this, if_false]
        exact hI (h1 _ hadj.1) (h1 _ hadj.2.1) (by omega) (by omega) (by omega) (by norm_num; omega)
      · injection hs' with hs'; subst hs'; exact hSE (h1 _ hadj.1)
    · cases hs'
  | stat o =>
    cases o with
    | none => exact absurd h2 (by simp [CacheOK])
    | some s' =>
      have hs' : Cache.getData (.stat (some s')) t = .ok s := hs
      simp only [Cache.getData, GetRes.ok.injEq] at hs'
      subst hs'
      exact hSE (h1 s' rfl)

theorem edges_finite {K : Machine} {F : Rounding} (h : Extends K F) (hM : K.lib.Accurate) (hA : K.lib.AcosAll) {B : ℝ} (hB : 0 ≤ B)
    (hΩ : 100 * (B + 1) ≤ F.Ω) {D : Duration} {b : Buf FPose} (hw : WF D b) (hS : StoredIn (FStored B) b)
    (hT : StampsIn (fun t => t ≤ TIME_MAX) b) : @EdgesIn FPose K.rigid (FEdge (9 * (B + 1))) b :=
  @edges_of FPose K.rigid _ _ (fun h => h.edge hB) (fun ha hb h0 h1 h2 h3 => h.interp hM hA hB hΩ ha hb h0 h1 h2 h3) D b hw hS hT

theorem edges_rotation {K : Machine} {F : Rounding} (h : Extends K F) (hM : K.lib.Accurate) (hA : K.lib.AcosAll)
    {D : Duration} {b : Buf FPose} (hw : WF D b) (hS : StoredIn (fun p => ∃ q : Quat ℝ, p.1 = q.up ∧ q.Loose) b)
    (hT : StampsIn (fun t => t ≤ TIME_MAX) b) :
    @EdgesIn FPose K.rigid (fun p => ∃ q : Quat ℝ, p.1 = q.up ∧ q.Firm) b := by
  refine @edges_of FPose K.rigid _ _ ?_ ?_ D b hw hS hT
  · rintro p ⟨q, e, hq⟩; exact ⟨q, e, hq.firm⟩
  · rintro a b num den ⟨x, ea, hx⟩ ⟨y, eb, hy⟩ h0 h1 h2 h3
    have ht := Rounding.ratio_near h.fine h0 h1 h2 h3
    have r2 : (0 : ℝ) < den := by exact_mod_cast h2
    have r0 : (0 : ℝ) ≤ (num : ℝ) / den := div_nonneg (by exact_mod_cast h0) r2.le
    have r1 : (num : ℝ) / den ≤ 1 := (div_le_one r2).2 (by exact_mod_cast h1)
    have s := h.slerp hM hA hx hy r0 r1 ht
    refine ⟨_, ?_, s.2⟩
    show K.slerp a.1 b.1 (K.div (K.toSec num) (K.toSec den)) = _
    rw [h.ratio h0 h1 h2 h3, ea, eb, s.1]

/-! ### What is accepted -/

theorem StoredIn.run_valid {X : Type} [Rigid X] {U : X → Prop} {D : Duration} (ops : List (Op X)) :
    ∀ {b : Buf X}, WF D b → StoredIn U b → (∀ m a s, Op.set m a s ∈ ops → ValidMsg m → U m.xf) → StoredIn U (b.run ops) := by
  induction ops with
  | nil => intro b _ h _; exact h
  | cons o r ih =>
    intro b hw h ho
    refine ih (hw.step o) ?_ (fun m a s hm => ho m a s (List.mem_cons_of_mem _ hm))
    cases o with
    | clear => exact h.step hw .clear (fun m a s e => by cases e)
    | set m a s =>
      cases hv : Buf.msgValid (Buf.stripMsg m) with
      | false => simp only [Buf.step]; rw [Buf.setTransform_invalid hv]; exact h
      | true =>
        refine h.step hw _ (fun m' a' s' e => ?_)
        injection e with e1 e2 e3
        subst e1
        exact ho m a s (List.mem_cons_self ..) ((msgValid_iff m).1 hv)

namespace Fl

/-- A number of at least `c`, or the positive infinity. -/
def AtLeast (c : ℝ) (v : Fl) : Prop := v = .inf false ∨ ∃ y, v = .fin y ∧ c ≤ y

end Fl

/-- Beyond `Ω` the results are large, of the right sign. -/
structure Beyond (K : Machine) (F : Rounding) : Prop extends Extends K F where
  high : ∀ x, F.Ω < x → (K.fl x).AtLeast F.Ω
  low : ∀ x, x < -F.Ω → (K.fl x).neg.AtLeast F.Ω

namespace Beyond

variable {K : Machine} {F : Rounding} (h : Beyond K F)
include h

theorem fl_atLeast {x c : ℝ} (hx : c ≤ x) (h0 : |c| ≤ 1000) : (K.fl x).AtLeast (c - 2) := by
  obtain ⟨c1, c2⟩ := abs_le.1 h0
  have hΩ := h.omega
  by_cases hbig : F.Ω < x
  · rcases h.high x hbig with e | ⟨y, e, hy⟩
    · exact .inl e
    · exact .inr ⟨y, e, by norm_num at *; linarith⟩
  · push Not at hbig
    have hb : |x| ≤ F.Ω := abs_le.2 ⟨by norm_num at *; linarith, hbig⟩
    refine .inr ⟨_, h.fl x hb, ?_⟩
    have e := F.err x hb
    have hu := h.fine.u
    have hη := h.fine.η
    have u0 := F.u_nonneg
    obtain ⟨e1, e2⟩ := abs_le.1 e
    have hm : F.u * |x| ≤ 12 / 10 ^ 17 * |x| := mul_le_mul_of_nonneg_right hu (abs_nonneg _)
    by_cases hp : 0 ≤ x
    · rw [abs_of_nonneg hp] at *
      norm_num at *; linarith
    · push Not at hp
      rw [abs_of_neg hp] at *
      norm_num at *; linarith

theorem add_atLeast {a b : Fl} {c d : ℝ} (ha : a.AtLeast c) (hb : b.AtLeast d) (h0 : |c + d| ≤ 1000) :
    (K.add a b).AtLeast (c + d - 2) := by
  rcases ha with rfl | ⟨x, rfl, hx⟩ <;> rcases hb with rfl | ⟨y, rfl, hy⟩
  · exact .inl rfl
  · exact .inl rfl
  · exact .inl rfl
  · exact h.fl_atLeast (add_le_add hx hy) h0

theorem sq_atLeast {v : Fl} (hv : v.isNaN = false) : (K.mul v v).AtLeast (-2) := by
  cases v with
  | fin x =>
    have := h.fl_atLeast (x := x * x) (c := 0) (mul_self_nonneg x) (by norm_num)
    rwa [zero_sub] at this
  | inf s => left; cases s <;> rfl
  | nan => cases hv

theorem sq_big {v : Fl} (hv : v.isNaN = false) (hb : ∀ x, v = .fin x → 10 < |x|) : (K.mul v v).AtLeast 98 := by
  cases v with
  | fin x =>
    have h1 := hb x rfl
    have := h.fl_atLeast (x := x * x) (c := 100) (by rw [← abs_mul_abs_self x]; nlinarith) (by norm_num)
    exact (by norm_num : (100 : ℝ) - 2 = 98) ▸ this
  | inf s => left; cases s <;> rfl
  | nan => cases hv

theorem sum_atLeast {a b c d : Fl} {p q r s : ℝ} (ha : a.AtLeast p) (hb : b.AtLeast q) (hc : c.AtLeast r) (hd : d.AtLeast s)
    (hp : |p| ≤ 100) (hq : |q| ≤ 100) (hr : |r| ≤ 100) (hs : |s| ≤ 100) : (K.sum4 a b c d).AtLeast (p + q + r + s - 6) := by
  obtain ⟨p1, p2⟩ := abs_le.1 hp
  obtain ⟨q1, q2⟩ := abs_le.1 hq
  obtain ⟨r1, r2⟩ := abs_le.1 hr
  obtain ⟨s1, s2⟩ := abs_le.1 hs
  have h1 := h.add_atLeast ha hb (abs_le.2 ⟨by linarith, by linarith⟩)
  have h2 := h.add_atLeast h1 hc (abs_le.2 ⟨by linarith, by linarith⟩)
  have h3 := h.add_atLeast h2 hd (abs_le.2 ⟨by linarith, by linarith⟩)
  have e : p + q - 2 + r - 2 + s - 2 = p + q + r + s - 6 := by ring
  rw [e] at h3
  exact h3

theorem tolerance : ∃ δ, K.fl (10e-3) = .fin δ ∧ |δ - 1 / 100| ≤ 1 / 10 ^ 12 := by
  have hΩ := h.omega
  have c : |(10e-3 : ℝ)| ≤ 1 := by rw [abs_of_pos (by norm_num)]; norm_num
  have hc : |(10e-3 : ℝ)| ≤ F.Ω := c.trans (by norm_num at *; linarith)
  refine ⟨F.rnd (10e-3), h.fl _ hc, ?_⟩
  have e := Rounding.err_le h.fine c (by norm_num)
  have : (10e-3 : ℝ) = 1 / 100 := by norm_num
  rw [this] at *
  norm_num at *
  linarith

/-- A quaternion with a large component is not accepted. -/
theorem large_rejected {v : Fl} (hv : v.AtLeast 70) : (K.sub v (.fin 1)).abs.lt (K.fl (10e-3)) = false := by
  obtain ⟨δ, e, hδ⟩ := h.tolerance
  obtain ⟨d1, d2⟩ := abs_le.1 hδ
  have h1 := h.add_atLeast (b := .fin (-1)) (d := -1) hv (.inr ⟨_, rfl, le_rfl⟩) (by norm_num [abs_of_pos])
  rw [e]
  have h2 : (K.sub v (.fin 1)).AtLeast (70 + -1 - 2) := h1
  rcases h2 with e | ⟨y, e, hy⟩
  · rw [e]; rfl
  · rw [e]
    show decide (|y| < δ) = false
    rw [decide_eq_false_iff_not, abs_of_nonneg (by linarith)]
    norm_num at *
    linarith

theorem loose_of_small {q : Quat ℝ} (hq : q.Box 10) (hn : (K.sub (K.sum4 (K.mul (.fin q.w) (.fin q.w)) (K.mul (.fin q.x) (.fin q.x))
      (K.mul (.fin q.y) (.fin q.y)) (K.mul (.fin q.z) (.fin q.z))) (.fin 1)).abs.lt (K.fl (10e-3)) = true) : q.Loose := by
  obtain ⟨qx, qy, qz, qw⟩ := hq
  have hΩ := h.omega
  have hu := h.fine.u
  have hη := h.fine.η
  have u0 := F.u_nonneg
  have P : ∀ {x : ℝ}, |x| ≤ 10 → K.mul (.fin x) (.fin x) = .fin (F.rnd (x * x)) ∧ |F.rnd (x * x)| ≤ 102 / 100 * 100 :=
    fun hx => h.prod (by norm_num) hx hx (by norm_num) (by norm_num at *; linarith)
  have S := h.sum4 (C := 102) (by norm_num) ((P qw).2.trans (by norm_num)) ((P qx).2.trans (by norm_num)) ((P qy).2.trans (by norm_num))
    ((P qz).2.trans (by norm_num)) (by norm_num at *; linarith)
  obtain ⟨δ, eδ, hδ⟩ := h.tolerance
  obtain ⟨d1, d2⟩ := abs_le.1 hδ
  rw [(P qw).1, (P qx).1, (P qy).1, (P qz).1, S.1, eδ] at hn
  have sq : ∀ {x : ℝ}, |x| ≤ 10 → x * x ≤ 100 := fun {x} hx => by rw [← abs_mul_abs_self x]; nlinarith [abs_nonneg x]
  have nw := mul_self_nonneg q.w
  have nx := mul_self_nonneg q.x
  have ny := mul_self_nonneg q.y
  have nz := mul_self_nonneg q.z
  have E : ∀ {x : ℝ}, |x| ≤ 10 → |F.rnd (x * x) - x * x| ≤ F.u * |x * x| + F.η := fun {x} hx =>
    F.err _ (by rw [abs_of_nonneg (mul_self_nonneg x)]; have := sq hx; norm_num at *; linarith)
  have hs := Rounding.sum4_err (F := F) (by norm_num at *; linarith) (E qw) (E qx) (E qy) (E qz)
    (by rw [abs_of_nonneg nw, abs_of_nonneg nx, abs_of_nonneg ny, abs_of_nonneg nz]; have := sq qw; have := sq qx; have := sq qy; have := sq qz; norm_num at *; linarith)
  have el : q.length2 = q.w * q.w + q.x * q.x + q.y * q.y + q.z * q.z := by simp only [Quat.length2, Quat.dot]; ring
  rw [abs_of_nonneg nw, abs_of_nonneg nx, abs_of_nonneg ny, abs_of_nonneg nz, ← el] at hs
  have l400 : q.length2 ≤ 400 := by rw [el]; linarith [sq qw, sq qx, sq qy, sq qz]
  have bs := S.2
  generalize F.sum4 (F.rnd (q.w * q.w)) (F.rnd (q.x * q.x)) (F.rnd (q.y * q.y)) (F.rnd (q.z * q.z)) = s at *
  have m1 : F.u * q.length2 ≤ 12 / 10 ^ 17 * 400 := mul_le_mul hu l400 (Quat.length2_nonneg' _) (by norm_num)
  have m2 : |s - q.length2| ≤ 1 / 10 ^ 10 := by norm_num at *; linarith
  have b1 : |s - 1| ≤ 1000 := (Extends.abs_sub' bs (by norm_num : |(1 : ℝ)| ≤ 1)).trans (by norm_num)
  obtain ⟨e1, _⟩ := h.sub (x := s) (y := 1) (C := 1000) (by norm_num) b1 (by norm_num at *; linarith)
  rw [e1] at hn
  have hn' : |F.rnd (s - 1)| < δ := of_decide_eq_true hn
  have er := Rounding.err_le h.fine b1 (by norm_num)
  generalize F.rnd (s - 1) = r at *
  obtain ⟨r1, r2⟩ := abs_lt.1 hn'
  obtain ⟨r3, r4⟩ := abs_le.1 er
  obtain ⟨m3, m4⟩ := abs_le.1 m2
  show |q.length2 - 1| ≤ 101 / 10000
  rw [abs_le]
  norm_num at *
  constructor <;> linarith

/-- An accepted rotation is a unit quaternion. -/
theorem accepted {p : FPose} (hn : Machine.hasNaN p = false) (ho : K.normOK p = true) : ∃ q : Quat ℝ, p.1 = q.up ∧ q.Loose := by
  obtain ⟨⟨x, y, z, w⟩, ⟨vx, vy, vz⟩⟩ := p
  simp only [Machine.hasNaN, Bool.or_eq_false_iff] at hn
  obtain ⟨⟨⟨⟨⟨⟨_, _⟩, _⟩, nx⟩, ny⟩, nz⟩, nw⟩ := hn
  unfold Machine.normOK at ho
  dsimp only at ho
  have big : ∀ {a b c d : ℝ}, (K.mul w w).AtLeast a → (K.mul x x).AtLeast b → (K.mul y y).AtLeast c → (K.mul z z).AtLeast d →
      |a| ≤ 100 → |b| ≤ 100 → |c| ≤ 100 → |d| ≤ 100 → a + b + c + d = 92 → False := by
    intro a b c d ha hb hc hd pa pb pc pd e
    have := h.sum_atLeast ha hb hc hd pa pb pc pd
    rw [e] at this
    have h70 : (K.sum4 (K.mul w w) (K.mul x x) (K.mul y y) (K.mul z z)).AtLeast 70 := by
      rcases this with e | ⟨y, e, hy⟩
      · exact .inl e
      · exact .inr ⟨y, e, by linarith⟩
    rw [h.large_rejected h70] at ho
    cases ho
  have small : ∀ {v : Fl}, (∀ x, v = .fin x → 10 < |x|) ∨ ∃ x, v = .fin x ∧ |x| ≤ 10 := by
    intro v
    cases v with
    | fin x =>
      by_cases hx : |x| ≤ 10
      · exact .inr ⟨x, rfl, hx⟩
      · exact .inl fun y e => by injection e with e; subst e; exact not_le.1 hx
    | inf s => exact .inl fun y e => by cases e
    | nan => exact .inl fun y e => by cases e
  have c98 : |(98 : ℝ)| ≤ 100 := by norm_num [abs_of_pos]
  have c2 : |(-2 : ℝ)| ≤ 100 := by norm_num [abs_of_pos]
  rcases small (v := x) with bx | ⟨x, rfl, bx⟩
  · exact (big (h.sq_atLeast nw) (h.sq_big nx bx) (h.sq_atLeast ny) (h.sq_atLeast nz) c2 c98 c2 c2 (by norm_num)).elim
  rcases small (v := y) with by_ | ⟨y, rfl, by_⟩
  · exact (big (h.sq_atLeast nw) (h.sq_atLeast nx) (h.sq_big ny by_) (h.sq_atLeast nz) c2 c2 c98 c2 (by norm_num)).elim
  rcases small (v := z) with bz | ⟨z, rfl, bz⟩
  · exact (big (h.sq_atLeast nw) (h.sq_atLeast nx) (h.sq_atLeast ny) (h.sq_big nz bz) c2 c2 c2 c98 (by norm_num)).elim
  rcases small (v := w) with bw | ⟨w, rfl, bw⟩
  · exact (big (h.sq_big nw bw) (h.sq_atLeast nx) (h.sq_atLeast ny) (h.sq_atLeast nz) c98 c2 c2 c2 (by norm_num)).elim
  exact ⟨⟨x, y, z, w⟩, rfl, h.loose_of_small (q := ⟨x, y, z, w⟩) ⟨bx, by_, bz, bw⟩ ho⟩

/-- A good rotation passes the check. -/
theorem passes {p : FPose} {q : Quat ℝ} (hp : p.1 = q.up) (hq : |q.length2 - 1| ≤ 99 / 10000) : K.normOK p = true := by
  obtain ⟨l1, l2⟩ := abs_le.1 hq
  have el : q.length2 = q.w * q.w + q.x * q.x + q.y * q.y + q.z * q.z := by simp only [Quat.length2, Quat.dot]; ring
  have nw := mul_self_nonneg q.w
  have nx := mul_self_nonneg q.x
  have ny := mul_self_nonneg q.y
  have nz := mul_self_nonneg q.z
  have hΩ := h.omega
  have hu := h.fine.u
  have hη := h.fine.η
  have u0 := F.u_nonneg
  have small : ∀ {x : ℝ}, x * x ≤ 2 → |x| ≤ 2 := fun {x} hx => by
    by_contra hc
    have := abs_mul_abs_self x
    nlinarith
  have P : ∀ {x : ℝ}, x * x ≤ 2 → K.mul (.fin x) (.fin x) = .fin (F.rnd (x * x)) ∧ |F.rnd (x * x)| ≤ 102 / 100 * 4 :=
    fun hx => h.prod (by norm_num) (small hx) (small hx) (by norm_num) (by norm_num at *; linarith)
  have pw := P (x := q.w) (by linarith)
  have px := P (x := q.x) (by linarith)
  have py := P (x := q.y) (by linarith)
  have pz := P (x := q.z) (by linarith)
  have S := h.sum4 (C := 102 / 100 * 4) (by norm_num) pw.2 px.2 py.2 pz.2 (by norm_num at *; linarith)
  obtain ⟨δ, eδ, hδ⟩ := h.tolerance
  obtain ⟨d1, d2⟩ := abs_le.1 hδ
  have E : ∀ {x : ℝ}, x * x ≤ 2 → |F.rnd (x * x) - x * x| ≤ F.u * |x * x| + F.η := fun {x} hx =>
    F.err _ (by rw [abs_of_nonneg (mul_self_nonneg x)]; norm_num at *; linarith)
  have hs := Rounding.sum4_err (F := F) (by norm_num at *; linarith) (E (x := q.w) (by linarith)) (E (x := q.x) (by linarith))
    (E (x := q.y) (by linarith)) (E (x := q.z) (by linarith))
    (by rw [abs_of_nonneg nw, abs_of_nonneg nx, abs_of_nonneg ny, abs_of_nonneg nz]; norm_num at *; linarith)
  rw [abs_of_nonneg nw, abs_of_nonneg nx, abs_of_nonneg ny, abs_of_nonneg nz, ← el] at hs
  have bs := S.2
  unfold Machine.normOK
  rw [hp]
  show (K.sub (K.sum4 (K.mul (.fin q.w) (.fin q.w)) (K.mul (.fin q.x) (.fin q.x)) (K.mul (.fin q.y) (.fin q.y))
    (K.mul (.fin q.z) (.fin q.z))) (.fin 1)).abs.lt (K.fl (10e-3)) = true
  rw [pw.1, px.1, py.1, pz.1, S.1, eδ]
  generalize F.sum4 (F.rnd (q.w * q.w)) (F.rnd (q.x * q.x)) (F.rnd (q.y * q.y)) (F.rnd (q.z * q.z)) = s at *
  have m1 : F.u * q.length2 ≤ 12 / 10 ^ 17 * 2 := mul_le_mul hu (by linarith) (Quat.length2_nonneg' _) (by norm_num)
  have m2 : |s - q.length2| ≤ 1 / 10 ^ 10 := by norm_num at *; linarith
  have b1 : |s - 1| ≤ 1000 := (Extends.abs_sub' bs (by norm_num : |(1 : ℝ)| ≤ 1)).trans (by norm_num)
  obtain ⟨e1, _⟩ := h.sub (x := s) (y := 1) (C := 1000) (by norm_num) b1 (by norm_num at *; linarith)
  rw [e1]
  show decide (|F.rnd (s - 1)| < δ) = true
  rw [decide_eq_true_eq]
  have er := Rounding.err_le h.fine b1 (by norm_num)
  generalize F.rnd (s - 1) = r at *
  obtain ⟨r3, r4⟩ := abs_le.1 er
  obtain ⟨m3, m4⟩ := abs_le.1 m2
  rw [abs_lt]
  norm_num at *
  constructor <;> linarith

end Beyond

/-! ### IEEE machines -/

/-- The value of a finite result. -/
def Fl.val : Fl → ℝ
  | .fin x => x
  | _ => 0

theorem Machine.IEEE.nearest {K : Machine} (h : K.IEEE) : NearestDouble (fun x => (K.fl x).val) := by
  intro x hx
  obtain ⟨y, e, h1, h2⟩ := h.near x hx
  dsimp only
  rw [e]
  exact ⟨h1, h2⟩

/-- The arithmetic without overflow. -/
noncomputable def Machine.IEEE.rounding {K : Machine} (h : K.IEEE) : Rounding := machine _ h.nearest Pose.interp

theorem Machine.IEEE.beyond {K : Machine} (h : K.IEEE) : Beyond K h.rounding where
  fine := machine_fine h.nearest Pose.interp
  fl x hx := by
    obtain ⟨y, e, _⟩ := h.near x hx
    show K.fl x = .fin (K.fl x).val
    rw [e]; rfl
  high x hx := h.high x hx
  low x hx := by
    rcases h.low x hx with e | ⟨y, e, hy⟩
    · rw [e]; exact .inl rfl
    · rw [e]; exact .inr ⟨-y, rfl, le_neg.2 hy⟩

theorem Machine.IEEE.acosAll {K : Machine} (h : K.IEEE) : K.lib.AcosAll := by
  intro x h0 h1
  by_cases hx : 0 ≤ x
  · exact h.lib.acos x hx h1
  · exact h.acos x h0 (le_of_lt (not_le.1 hx))

end Tf2
