import Verif.Proofs.Rounded
import Verif.Proofs.LookupOk

/-!
# The same lookup in both arithmetics
-/
namespace Tf2

/-- Answers of one cache in both arithmetics. -/
def GetNear (L dq dt : ℝ) : GetRes Pose → GetRes Pose → Prop
  | .fail, .fail => True
  | .ub, .ub => True
  | .ok s, .ok s' => s.parent = s'.parent ∧ EdgeNear L dq dt s.xf s'.xf
  | _, _ => False

section
variable {F : Rounding} {L dq dt : ℝ} {b : Buf Pose} {t : Time}

/-- One `gather` in both arithmetics. -/
inductive Gathers (F : Rounding) (L dq dt : ℝ) (b : Buf Pose) (t : Time) (frame : Nat) (c : Cache Pose) (a a' : TAcc Pose) : Prop
  | ub (h : (@transformAccum Pose F.rigid).gather c t a = (.ub, a)) (h' : transformAccum.gather c t a' = (.ub, a'))
  | fail (h : (@transformAccum Pose F.rigid).gather c t a = (.id 0, a)) (h' : transformAccum.gather c t a' = (.id 0, a'))
  | root (s s' : Sample Pose) (h : (@transformAccum Pose F.rigid).gather c t a = (.id 0, { a with st := some s }))
      (h' : transformAccum.gather c t a' = (.id 0, { a' with st := some s' }))
  | edge (p : Nat) (s s' : Sample Pose)
      (h : (@transformAccum Pose F.rigid).gather c t a = (.id (p + 1), { a with st := some s }))
      (h' : transformAccum.gather c t a' = (.id (p + 1), { a' with st := some s' }))
      (hp : ParentAt b t frame (p + 1) s'.xf) (he : EdgeNear L dq dt s.xf s'.xf)

theorem gathers {frame : Nat} {c : Cache Pose} (hc : b.getFrame frame = some c)
    (hg : GetNear L dq dt (@Cache.getData Pose F.rigid c t) (c.getData t)) (a a' : TAcc Pose) :
    Gathers F L dq dt b t frame c a a' := by
  cases h : @Cache.getData Pose F.rigid c t with
  | fail =>
    cases h' : c.getData t with
    | fail => exact .fail (by simp only [transformAccum, h]) (by simp only [transformAccum, h'])
    | ub => rw [h, h'] at hg; exact hg.elim
    | ok s => rw [h, h'] at hg; exact hg.elim
  | ub =>
    cases h' : c.getData t with
    | fail => rw [h, h'] at hg; exact hg.elim
    | ub => exact .ub (by simp only [transformAccum, h]) (by simp only [transformAccum, h'])
    | ok s => rw [h, h'] at hg; exact hg.elim
  | ok s =>
    cases h' : c.getData t with
    | fail => rw [h, h'] at hg; exact hg.elim
    | ub => rw [h, h'] at hg; exact hg.elim
    | ok s' =>
      rw [h, h'] at hg
      obtain ⟨hp, he⟩ := hg
      cases hq : s'.parent with
      | zero => exact .root s s' (by simp only [transformAccum, h, hp, hq]) (by simp only [transformAccum, h', hq])
      | succ p =>
        exact .edge p s s' (by simp only [transformAccum, h, hp, hq]) (by simp only [transformAccum, h', hq])
          ⟨Nat.succ_ne_zero p, c, s', hc, h', hq, rfl⟩ he

/-- Exits of the first loop. -/
def Loop1Near (F : Rounding) (L dq dt : ℝ) (b : Buf Pose) (t : Time) (src tgt : Nat) : Loop1 (TAcc Pose) → Loop1 (TAcc Pose) → Prop
  | .exit top ex a ch, .exit top' ex' a' ch' => top = top' ∧ ex = ex' ∧ ch = ch' ∧ a.targetToTop = Pose.one ∧
      a'.targetToTop = Pose.one ∧
      ∃ n ≤ 1000, Near F L dq dt n a.sourceToTop a'.sourceToTop ∧ Chain b t src top a'.sourceToTop n
  | .early a ch, .early a' ch' => ch = ch' ∧ a.time = t ∧ a'.time = t ∧
      ∃ n ≤ 1000, Near F L dq dt n a.result a'.result ∧ Chain b t src tgt a'.result n
  | .tooDeep, .tooDeep => True
  | .ub, .ub => True
  | _, _ => False

theorem walkSource_near (T : Tame F L dq dt)
    (hE : ∀ f c, b.getFrame f = some c → GetNear L dq dt (@Cache.getData Pose F.rigid c t) (c.getData t)) {src tgt : Nat} (k : Nat) :
    ∀ (frame : Nat) (a a' : TAcc Pose) (chain : List Nat) (n : Nat), n + k ≤ 1000 →
      Near F L dq dt n a.sourceToTop a'.sourceToTop → Chain b t src frame a'.sourceToTop n →
      a.targetToTop = Pose.one → a'.targetToTop = Pose.one →
      Loop1Near F L dq dt b t src tgt (b.walkSource (@transformAccum Pose F.rigid) t tgt k frame a chain)
        (b.walkSource transformAccum t tgt k frame a' chain) := by
  induction k with
  | zero =>
    intro frame a a' chain n hn hx hch ha ha'
    by_cases h0 : frame = 0
    · subst h0
      rw [walkSource_zero, walkSource_zero]
      exact ⟨rfl, rfl, rfl, ha, ha', n, by omega, hx, hch⟩
    · cases hc : b.getFrame frame with
      | none =>
        rw [walkSource_none h0 hc, walkSource_none h0 hc]
        exact ⟨rfl, rfl, rfl, ha, ha', n, by omega, hx, hch⟩
      | some c =>
        cases gathers hc (hE frame c hc) a a' with
        | ub h h' => rw [walkSource_ub h0 hc h, walkSource_ub h0 hc h']; trivial
        | fail h h' =>
          rw [walkSource_fail h0 hc h, walkSource_fail h0 hc h']
          exact ⟨rfl, rfl, rfl, ha, ha', n, by omega, hx, hch⟩
        | root s s' h h' =>
          rw [walkSource_fail h0 hc h, walkSource_fail h0 hc h']
          exact ⟨rfl, rfl, rfl, ha, ha', n, by omega, hx, hch⟩
        | edge p s s' h h' hp he =>
          by_cases ht : frame = tgt
          · rw [walkSource_early h0 hc h ht, walkSource_early h0 hc h' ht]
            exact ⟨rfl, rfl, rfl, n, by omega, hx, ht ▸ hch⟩
          · rw [walkSource_deep h0 hc h ht, walkSource_deep h0 hc h' ht]; trivial
  | succ k ih =>
    intro frame a a' chain n hn hx hch ha ha'
    by_cases h0 : frame = 0
    · subst h0
      rw [walkSource_zero, walkSource_zero]
      exact ⟨rfl, rfl, rfl, ha, ha', n, by omega, hx, hch⟩
    · cases hc : b.getFrame frame with
      | none =>
        rw [walkSource_none h0 hc, walkSource_none h0 hc]
        exact ⟨rfl, rfl, rfl, ha, ha', n, by omega, hx, hch⟩
      | some c =>
        cases gathers hc (hE frame c hc) a a' with
        | ub h h' => rw [walkSource_ub h0 hc h, walkSource_ub h0 hc h']; trivial
        | fail h h' =>
          rw [walkSource_fail h0 hc h, walkSource_fail h0 hc h']
          exact ⟨rfl, rfl, rfl, ha, ha', n, by omega, hx, hch⟩
        | root s s' h h' =>
          rw [walkSource_fail h0 hc h, walkSource_fail h0 hc h']
          exact ⟨rfl, rfl, rfl, ha, ha', n, by omega, hx, hch⟩
        | edge p s s' h h' hp he =>
          by_cases ht : frame = tgt
          · rw [walkSource_early h0 hc h ht, walkSource_early h0 hc h' ht]
            exact ⟨rfl, rfl, rfl, n, by omega, hx, ht ▸ hch⟩
          · rw [walkSource_step h0 hc h ht, walkSource_step h0 hc h' ht]
            exact ih _ _ _ _ (n + 1) (by omega) (hx.step T (by omega) he) (hch.snoc hp) ha ha'

/-- Exits of the second loop. -/
def Loop2Near (F : Rounding) (L dq dt : ℝ) (b : Buf Pose) (t : Time) (src tgt : Nat) (x x' : Pose) :
    Loop2 (TAcc Pose) → Loop2 (TAcc Pose) → Prop
  | .exit fr a ch, .exit fr' a' ch' => fr = fr' ∧ ch = ch' ∧ a.sourceToTop = x ∧ a'.sourceToTop = x' ∧
      ∃ n ≤ 1000, Near F L dq dt n a.targetToTop a'.targetToTop ∧ Chain b t tgt fr a'.targetToTop n
  | .early a ch, .early a' ch' => ch = ch' ∧ a.time = t ∧ a'.time = t ∧
      ∃ y y', ∃ n ≤ 1000, a.result = F.inv y ∧ a'.result = Pose.inv y' ∧ Near F L dq dt n y y' ∧ Chain b t tgt src y' n
  | .extrap, .extrap => True
  | .tooDeep, .tooDeep => True
  | .ub, .ub => True
  | _, _ => False

theorem walkTarget_near (T : Tame F L dq dt)
    (hE : ∀ f c, b.getFrame f = some c → GetNear L dq dt (@Cache.getData Pose F.rigid c t) (c.getData t)) {src tgt top : Nat}
    {x x' : Pose} (k : Nat) :
    ∀ (frame : Nat) (a a' : TAcc Pose) (chain : List Nat) (n : Nat), n + k ≤ 1000 →
      Near F L dq dt n a.targetToTop a'.targetToTop → Chain b t tgt frame a'.targetToTop n →
      a.sourceToTop = x → a'.sourceToTop = x' →
      Loop2Near F L dq dt b t src tgt x x' (b.walkTarget (@transformAccum Pose F.rigid) t src top k frame a chain)
        (b.walkTarget transformAccum t src top k frame a' chain) := by
  induction k with
  | zero =>
    intro frame a a' chain n hn hx hch ha ha'
    by_cases h0 : frame = top
    · subst h0
      rw [walkTarget_top, walkTarget_top]
      exact ⟨rfl, rfl, ha, ha', n, by omega, hx, hch⟩
    · cases hc : b.getFrame frame with
      | none =>
        rw [walkTarget_none h0 hc, walkTarget_none h0 hc]
        exact ⟨rfl, rfl, ha, ha', n, by omega, hx, hch⟩
      | some c =>
        cases gathers hc (hE frame c hc) a a' with
        | ub h h' => rw [walkTarget_ub h0 hc h, walkTarget_ub h0 hc h']; trivial
        | fail h h' => rw [walkTarget_fail h0 hc h, walkTarget_fail h0 hc h']; trivial
        | root s s' h h' => rw [walkTarget_fail h0 hc h, walkTarget_fail h0 hc h']; trivial
        | edge p s s' h h' hp he =>
          by_cases ht : frame = src
          · rw [walkTarget_early h0 hc h ht, walkTarget_early h0 hc h' ht]
            exact ⟨rfl, rfl, rfl, _, _, n, by omega, rfl, rfl, hx, ht ▸ hch⟩
          · rw [walkTarget_deep h0 hc h ht, walkTarget_deep h0 hc h' ht]; trivial
  | succ k ih =>
    intro frame a a' chain n hn hx hch ha ha'
    by_cases h0 : frame = top
    · subst h0
      rw [walkTarget_top, walkTarget_top]
      exact ⟨rfl, rfl, ha, ha', n, by omega, hx, hch⟩
    · cases hc : b.getFrame frame with
      | none =>
        rw [walkTarget_none h0 hc, walkTarget_none h0 hc]
        exact ⟨rfl, rfl, ha, ha', n, by omega, hx, hch⟩
      | some c =>
        cases gathers hc (hE frame c hc) a a' with
        | ub h h' => rw [walkTarget_ub h0 hc h, walkTarget_ub h0 hc h']; trivial
        | fail h h' => rw [walkTarget_fail h0 hc h, walkTarget_fail h0 hc h']; trivial
        | root s s' h h' => rw [walkTarget_fail h0 hc h, walkTarget_fail h0 hc h']; trivial
        | edge p s s' h h' hp he =>
          by_cases ht : frame = src
          · rw [walkTarget_early h0 hc h ht, walkTarget_early h0 hc h' ht]
            exact ⟨rfl, rfl, rfl, _, _, n, by omega, rfl, rfl, hx, ht ▸ hch⟩
          · rw [walkTarget_step h0 hc h ht, walkTarget_step h0 hc h' ht]
            exact ih _ _ _ _ (n + 1) (by omega) (hx.step T (by omega) he) (hch.snoc hp) ha ha'

/-- How far two transforms may be apart after `N` steps. -/
def Off (F : Rounding) (L dq dt : ℝ) (N : ℕ) (x x' : Pose) : Prop :=
  x.rot.apart x'.rot ≤ 2 * (N + 1) * (10 * F.u + dq + 16 * F.η) ∧
  x.trans.apart x'.trans ≤ 4 * (N + 1) ^ 2 * (10 * F.u + dq + 16 * F.η) * L + 2 * (N + 1) * (dt + 40 * F.η)

/-- Results of the walk. -/
def WalkNear (F : Rounding) (L dq dt : ℝ) (b : Buf Pose) (t : Time) (src tgt : Nat) : WalkRes (TAcc Pose) → WalkRes (TAcc Pose) → Prop
  | .done a ch, .done a' ch' => ch = ch' ∧ a.time = t ∧ a'.time = t ∧
      ∃ r x y n k, n ≤ 1000 ∧ k ≤ 1000 ∧ Chain b t src r x n ∧ Chain b t tgt r y k ∧ Off F L dq dt (n + k) a.result a'.result ∧
        Sized L (n + k) a'.result
  | .err c, .err c' => c = c'
  | .ub, .ub => True
  | _, _ => False

theorem walkAt_near (T : Tame F L dq dt)
    (hE : ∀ f c, b.getFrame f = some c → GetNear L dq dt (@Cache.getData Pose F.rigid c t) (c.getData t)) (src tgt : Nat) :
    WalkNear F L dq dt b t src tgt (b.walkAt (@transformAccum Pose F.rigid) (@TAcc.init Pose F.rigid) t tgt src)
      (b.walkAt transformAccum TAcc.init t tgt src) := by
  have h1 := walkSource_near (src := src) (tgt := tgt) T hE maxGraphDepth src (@TAcc.init Pose F.rigid) TAcc.init [] 0 (by decide)
    (Near.zero F L dq dt) .refl rfl rfl
  unfold Buf.walkAt
  generalize b.walkSource (@transformAccum Pose F.rigid) t tgt maxGraphDepth src (@TAcc.init Pose F.rigid) [] = r1 at *
  generalize b.walkSource transformAccum t tgt maxGraphDepth src TAcc.init [] = r1' at *
  cases r1 with
  | ub =>
    cases r1' with
    | ub => exact trivial
    | _ => exact h1.elim
  | tooDeep =>
    cases r1' with
    | tooDeep => exact rfl
    | _ => exact h1.elim
  | early a ch =>
    cases r1' with
    | early a' ch' =>
      obtain ⟨h2, h3, h4, n, hn, h5, h6⟩ := h1
      obtain ⟨o1, o2⟩ := h5.self T (by omega)
      exact ⟨h2, h3, h4, tgt, _, _, n, 0, hn, by omega, h6, .refl, ⟨o1, o2⟩, h5.sized T (by omega)⟩
    | _ => exact h1.elim
  | exit top ex a ch =>
    cases r1' with
    | exit top' ex' a' ch' =>
      obtain ⟨rfl, rfl, rfl, ha, ha', n, hn, h5, h6⟩ := h1
      have h2 := walkTarget_near (src := src) (tgt := tgt) (top := top) T hE maxGraphDepth tgt a a' [] 0 (by decide)
        (by rw [ha, ha']; exact Near.zero F L dq dt) (by rw [ha']; exact .refl) rfl rfl
      simp only
      generalize b.walkTarget (@transformAccum Pose F.rigid) t src top maxGraphDepth tgt a [] = r2 at *
      generalize b.walkTarget transformAccum t src top maxGraphDepth tgt a' [] = r2' at *
      cases r2 with
      | ub =>
        cases r2' with
        | ub => exact trivial
        | _ => exact h2.elim
      | tooDeep =>
        cases r2' with
        | tooDeep => exact rfl
        | _ => exact h2.elim
      | extrap =>
        cases r2' with
        | extrap => exact rfl
        | _ => exact h2.elim
      | early a2 rev =>
        cases r2' with
        | early a2' rev' =>
          obtain ⟨rfl, h3, h4, y, y', k, hk, e, e', h7, h8⟩ := h2
          obtain ⟨o1, o2⟩ := h7.inv T (by omega)
          refine ⟨rfl, h3, h4, src, _, _, 0, k, by omega, hk, .refl, h8, ⟨?_, ?_⟩, ?_⟩
          · rw [e, e', Nat.zero_add]; exact o1
          · rw [e, e', Nat.zero_add]; exact o2
          · rw [e', Nat.zero_add]; exact h7.sized_inv T (by omega)
        | _ => exact h2.elim
      | exit fr a2 rev =>
        cases r2' with
        | exit fr' a2' rev' =>
          obtain ⟨rfl, rfl, e, e', k, hk, h7, h8⟩ := h2
          simp only
          by_cases hft : fr = top
          · subst hft
            rw [if_pos rfl, if_pos rfl]
            cases hpc : pruneChain ch (rev ++ [fr]) with
            | none => exact trivial
            | some l =>
              obtain ⟨o1, o2⟩ := Near.join T (by omega) (by omega) h5 h7
              refine ⟨rfl, rfl, rfl, fr, _, _, n, k, hn, hk, h6, h8, ⟨?_, ?_⟩, ?_⟩
              · show (F.comp (F.inv a2.targetToTop) a2.sourceToTop).rot.apart
                  (Pose.comp (Pose.inv a2'.targetToTop) a2'.sourceToTop).rot ≤ _
                rw [e, e']; push_cast; exact o1
              · show (F.comp (F.inv a2.targetToTop) a2.sourceToTop).trans.apart
                  (Pose.comp (Pose.inv a2'.targetToTop) a2'.sourceToTop).trans ≤ _
                rw [e, e']; push_cast; exact o2
              · show Sized L (n + k) (Pose.comp (Pose.inv a2'.targetToTop) a2'.sourceToTop)
                rw [e']; exact h5.sized_join T (by omega) (by omega) h7
          · rw [if_neg hft, if_neg hft]
            cases ex <;> exact rfl
        | _ => exact h2.elim
    | _ => exact h1.elim

end

end Tf2
