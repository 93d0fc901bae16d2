import Verif.Proofs.ErrorText
import Verif.Spec.Toy

/-!
# C81: error texts
-/
namespace Tf2

variable {X : Type}

section
variable [Rigid X] {D : Duration} {b : Buf X}

/-! ### The answer does not depend on the text -/

/-- The part after the names are known. -/
theorem canNoLockT_out (R : Render) (hr : Reachable D b) {target source : Name} {g s : Nat}
    (hg : IsFrame b target g) (hs : IsFrame b source s) (t : Time) (e : Option Name) :
    (∃ v w, b.canTransformNoLockT R g s t e = .ok v w ∧ b.canTransformNoLock g s t = .ok v ∧
      (v = true → w = e) ∧ (e = none → w = none) ∧
      (v = false → g ≠ s ∧ ∀ old, e = some old → ∃ w' x, w = some w' ∧
        (Fits R → ExplainsAny R b t target source old x w'))) ∨
    (e ≠ none ∧ b.canTransformNoLockT R g s t e = .throw .runtime e ∧
      ∃ t', AboutTime b g s t t' ∧ (FarOn b t' g ∨ FarOn b t' s)) := by
  unfold Buf.canTransformNoLockT Buf.canTransformNoLock
  have h0 : ¬ (g = 0 ∨ s = 0) := fun h => h.elim hg.1 hs.1
  rw [if_neg h0]
  by_cases hne : g = s
  · rw [if_pos hne, if_pos hne]
    exact Or.inl ⟨true, e, rfl, rfl, fun _ => rfl, id, fun h => by cases h⟩
  · rw [if_neg hne, if_neg hne]
    have h := walkT_out (t := t) R hr (f := canAccum) canAccum_parent hg hs (Ne.symm hne) () e
    generalize b.walkT R canAccum () t g s e = r at h
    generalize b.walk canAccum () t g s = q at h
    cases h with
    | done => exact Or.inl ⟨true, e, rfl, rfl, fun _ => rfl, id, fun h => by cases h⟩
    | quiet h =>
      exact Or.inl ⟨false, none, rfl, rfl, fun h => (by cases h), fun _ => rfl, fun _ => ⟨hne, fun old h' => by
        rw [h] at h'; cases h'⟩⟩
    | @said c old w h1 h2 =>
      refine Or.inl ⟨false, some w, rfl, rfl, fun h => (by cases h), fun h => (by rw [h] at h1; cases h1),
        fun _ => ⟨hne, fun old' h' => ⟨w, Buf.codeExc c, rfl, fun hR => ?_⟩⟩⟩
      rw [h1] at h'; cases h'
      exact h2 hR
    | threw h1 h2 h3 => exact Or.inr ⟨h1, rfl, _, h2, h3⟩

/-- **C81 (answer).** For all strings, times and contents of the string: `canTransform` with an
`error_msg` either returns what it returns without (then `true` leaves the string as it was), or
throws `std::runtime_error`; it throws only if, on the way up from one of the two frames, data is stored
2³¹ s or more away from the time asked for. -/
theorem C81_answer (R : Render) (hr : Reachable D b) (target source : Name) (t : Time) (old : Name) :
    (∃ v w, b.canTransformT R target source t (some old) = .ok v (some w) ∧
      b.canTransform target source t = .ok v ∧ (v = true → w = old)) ∨
    (b.canTransformT R target source t (some old) = .throw .runtime (some old) ∧
      ∃ g s t', IsFrame b target g ∧ IsFrame b source s ∧ AboutTime b g s t t' ∧
        (FarOn b t' g ∨ FarOn b t' s)) := by
  unfold Buf.canTransformT Buf.canTransform
  split
  · exact Or.inl ⟨true, old, rfl, rfl, fun _ => rfl⟩
  split
  · exact Or.inl ⟨false, old, rfl, rfl, fun h => by cases h⟩
  split
  · exact Or.inl ⟨false, old, rfl, rfl, fun h => by cases h⟩
  simp only
  split
  · exact Or.inl ⟨false, _, rfl, rfl, fun h => by cases h⟩
  · rename_i h0
    have hg : IsFrame b target _ := isFrame_of_lookup (fun h => h0 (Or.inl h))
    have hs : IsFrame b source _ := isFrame_of_lookup (fun h => h0 (Or.inr h))
    rcases canNoLockT_out R hr hg hs t (some old) with ⟨v, w, h1, h2, h3, _, h5⟩ | ⟨_, h2, t', h3, h4⟩
    · cases v with
      | true => rw [h3 rfl] at h1; exact Or.inl ⟨true, old, h1, h2, fun _ => rfl⟩
      | false =>
        obtain ⟨_, h5⟩ := h5 rfl
        obtain ⟨w', _, hw', _⟩ := h5 old rfl
        subst hw'
        exact Or.inl ⟨false, w', h1, h2, fun h => by cases h⟩
    · exact Or.inr ⟨h2, _, _, t', hg, hs, h3, h4⟩

/-- **C81 (no string).** Without an `error_msg` the answer is the one of C13, and nothing is thrown. -/
theorem C81_null (R : Render) (hr : Reachable D b) (target source : Name) (t : Time) :
    ∃ v, b.canTransformT R target source t none = .ok v none ∧ b.canTransform target source t = .ok v := by
  unfold Buf.canTransformT Buf.canTransform
  split
  · exact ⟨true, rfl, rfl⟩
  split
  · exact ⟨false, rfl, rfl⟩
  split
  · exact ⟨false, rfl, rfl⟩
  simp only
  split
  · exact ⟨false, rfl, rfl⟩
  · rename_i h0
    have hg : IsFrame b target _ := isFrame_of_lookup (fun h => h0 (Or.inl h))
    have hs : IsFrame b source _ := isFrame_of_lookup (fun h => h0 (Or.inr h))
    rcases canNoLockT_out R hr hg hs t none with ⟨v, w, h1, h2, _, h3, _⟩ | ⟨h1, _⟩
    · rw [h3 rfl] at h1; exact ⟨v, h1, h2⟩
    · exact absurd rfl h1

/-- **C81 (answer, fixed frame).** The same for the five-argument `canTransform`. -/
theorem C81_answer_fixed (R : Render) (hr : Reachable D b) (target : Name) (ttime : Time) (source : Name)
    (stime : Time) (fixed : Name) (old : Name) :
    (∃ v w, b.canTransform5T R target ttime source stime fixed (some old) = .ok v (some w) ∧
      b.canTransform5 target ttime source stime fixed = .ok v ∧ (v = true → w = old)) ∨
    (b.canTransform5T R target ttime source stime fixed (some old) = .throw .runtime (some old) ∧
      ∃ g f s t', IsFrame b target g ∧ IsFrame b fixed f ∧ IsFrame b source s ∧
        ((AboutTime b g f ttime t' ∧ (FarOn b t' g ∨ FarOn b t' f)) ∨
         (AboutTime b f s stime t' ∧ (FarOn b t' f ∨ FarOn b t' s)))) := by
  unfold Buf.canTransform5T Buf.canTransform5
  split
  · exact Or.inl ⟨false, old, rfl, rfl, fun h => by cases h⟩
  split
  · exact Or.inl ⟨false, old, rfl, rfl, fun h => by cases h⟩
  split
  · exact Or.inl ⟨false, old, rfl, rfl, fun h => by cases h⟩
  simp only
  split
  · exact Or.inl ⟨false, _, rfl, rfl, fun h => by cases h⟩
  · rename_i h0
    have hg : IsFrame b target _ := isFrame_of_lookup (fun h => h0 (Or.inl h))
    have hs : IsFrame b source _ := isFrame_of_lookup (fun h => h0 (Or.inr (Or.inl h)))
    have hf : IsFrame b fixed _ := isFrame_of_lookup (fun h => h0 (Or.inr (Or.inr h)))
    rcases canNoLockT_out R hr hg hf ttime (some old) with ⟨v, w, h1, h2, h3, _, h5⟩ | ⟨_, h2, t', h3, h4⟩
    · cases v with
      | true =>
        rw [h3 rfl] at h1
        rw [h1, h2]
        simp only
        rcases canNoLockT_out R hr hf hs stime (some old) with ⟨v, w, k1, k2, k3, _, k5⟩ | ⟨_, k2, t', k3, k4⟩
        · cases v with
          | true => rw [k3 rfl] at k1; exact Or.inl ⟨true, old, k1, k2, fun _ => rfl⟩
          | false =>
            obtain ⟨_, k5⟩ := k5 rfl
            obtain ⟨w', _, hw', _⟩ := k5 old rfl
            subst hw'
            exact Or.inl ⟨false, w', k1, k2, fun h => by cases h⟩
        · exact Or.inr ⟨k2, _, _, _, t', hg, hf, hs, Or.inr ⟨k3, k4⟩⟩
      | false =>
        obtain ⟨_, h5⟩ := h5 rfl
        obtain ⟨w', _, hw', _⟩ := h5 old rfl
        subst hw'
        rw [h1, h2]
        exact Or.inl ⟨false, w', rfl, rfl, fun h => by cases h⟩
    · rw [h2]
      exact Or.inr ⟨rfl, _, _, _, t', hg, hf, hs, Or.inl ⟨h3, h4⟩⟩

/-! ### The text is true -/

/-- **C81 (reason).** Two known frames, legal different names: when `canTransform` returns `false`, the
string holds a true sentence about this request, naming the two frames: they are in two trees, or a
chain is longer than the limit (with the listing of all frames), or data of a frame on the way is
missing at this time (with the stamp that was nearest) — or no reason at all before ", when looking
up" if that frame's data was cleared or its parent is "NO_PARENT". -/
theorem C81_reason {R : Render} (hR : Fits R) (hr : Reachable D b) {target source : Name} {g s : Nat}
    (hg : IsFrame b target g) (hs : IsFrame b source s) (lg : LegalName target) (ls : LegalName source)
    (hne : target ≠ source) {t : Time} {old : Name} {w : Option Name}
    (h : b.canTransformT R target source t (some old) = .ok false w) :
    ∃ x v, w = some v ∧ ExplainsAny R b t target source old x v := by
  unfold Buf.canTransformT at h
  rw [if_neg hne, warn_legal lg, warn_legal ls] at h
  simp only [lookupFrameNumber_isFrame hg, lookupFrameNumber_isFrame hs, Bool.false_eq_true, if_false] at h
  rw [if_neg (fun h => h.elim hg.1 hs.1)] at h
  rcases canNoLockT_out R hr hg hs t (some old) with ⟨v, w', h1, _, _, _, h5⟩ | ⟨_, h2, _⟩
  · rw [h1] at h
    cases h
    obtain ⟨_, h5⟩ := h5 rfl
    obtain ⟨v, x, h6, h7⟩ := h5 old rfl
    exact ⟨x, v, h6, h7 hR⟩
  · rw [h2] at h; cases h

/-- **C81 (reason, fixed frame).** The text of the five-argument `canTransform` explains the leg that
failed: target and fixed frame at the target time (asked first), or fixed frame and source at the
source time. -/
theorem C81_reason_fixed {R : Render} (hR : Fits R) (hr : Reachable D b) {target source fixed : Name}
    {g s f : Nat} (hg : IsFrame b target g) (hs : IsFrame b source s) (hf : IsFrame b fixed f)
    (lg : LegalName target) (ls : LegalName source) (lf : LegalName fixed) {ttime stime : Time} {old : Name}
    {w : Option Name} (h : b.canTransform5T R target ttime source stime fixed (some old) = .ok false w) :
    ∃ x v, w = some v ∧
      ((b.canTransform target fixed ttime = .ok false ∧ ExplainsAny R b ttime target fixed old x v) ∨
       (b.canTransform target fixed ttime = .ok true ∧ b.canTransform fixed source stime = .ok false ∧
        ExplainsAny R b stime fixed source old x v)) := by
  have plain : ∀ {n m : Name} {i j : Nat} (t : Time) (v : Bool), IsFrame b n i → IsFrame b m j → LegalName n →
      LegalName m → b.canTransformNoLock i j t = .ok v → b.canTransform n m t = .ok v := by
    intro n m i j t v hi hj ln lm hv
    unfold Buf.canTransform
    by_cases e : n = m
    · subst e
      have : i = j := by have h1 := hi.2; rw [hj.2] at h1; injection h1 with h1; exact h1.symm
      subst this
      unfold Buf.canTransformNoLock at hv
      rw [if_neg (fun h => h.elim hi.1 hi.1), if_pos rfl] at hv
      rw [if_pos rfl]; exact hv
    · rw [if_neg e, warn_legal ln, warn_legal lm]
      simp only [lookupFrameNumber_isFrame hi, lookupFrameNumber_isFrame hj, Bool.false_eq_true, if_false]
      rw [if_neg (fun h => h.elim hi.1 hj.1)]
      exact hv
  unfold Buf.canTransform5T at h
  rw [warn_legal lg, warn_legal ls, warn_legal lf] at h
  simp only [lookupFrameNumber_isFrame hg, lookupFrameNumber_isFrame hs, lookupFrameNumber_isFrame hf,
    Bool.false_eq_true, if_false] at h
  rw [if_neg (fun h => h.elim hg.1 (fun h => h.elim hs.1 hf.1))] at h
  rcases canNoLockT_out R hr hg hf ttime (some old) with ⟨v, w', h1, h2, h3, _, h5⟩ | ⟨_, h2, _⟩
  · rw [h1] at h
    cases v with
    | false =>
      cases h
      obtain ⟨_, h5⟩ := h5 rfl
      obtain ⟨v, x, h6, h7⟩ := h5 old rfl
      exact ⟨x, v, h6, Or.inl ⟨plain _ _ hg hf lg lf h2, h7 hR⟩⟩
    | true =>
      rw [h3 rfl] at h
      simp only at h
      rcases canNoLockT_out R hr hf hs stime (some old) with ⟨v, w', k1, k2, _, _, k5⟩ | ⟨_, k2, _⟩
      · rw [k1] at h
        cases h
        obtain ⟨_, k5⟩ := k5 rfl
        obtain ⟨v, x, h6, h7⟩ := k5 old rfl
        exact ⟨x, v, h6, Or.inr ⟨plain _ _ hg hf lg lf h2, plain _ _ hf hs lf ls k2, h7 hR⟩⟩
      · rw [k2] at h; cases h
  · rw [h2] at h; cases h

/-- **C81 (unknown frames).** For legal different names of which one or both are not known, the
sentences about the unknown ones are *appended* to the string. -/
theorem C81_unknown (R : Render) {target source : Name} (lg : LegalName target) (ls : LegalName source)
    (hne : target ≠ source) (t : Time) (old : Name) :
    ((¬ ∃ g, IsFrame b target g) → (∃ s, IsFrame b source s) →
      b.canTransformT R target source t (some old) =
        .ok false (some (old ++ "canTransform: target_frame ".toList ++ target ++ " does not exist.".toList))) ∧
    ((∃ g, IsFrame b target g) → (¬ ∃ s, IsFrame b source s) →
      b.canTransformT R target source t (some old) =
        .ok false (some (old ++ "canTransform: source_frame ".toList ++ source ++ " does not exist.".toList))) ∧
    ((¬ ∃ g, IsFrame b target g) → (¬ ∃ s, IsFrame b source s) →
      b.canTransformT R target source t (some old) =
        .ok false (some (old ++ "canTransform: target_frame ".toList ++ target ++ " does not exist.".toList ++
          " ".toList ++ "canTransform: source_frame ".toList ++ source ++ " does not exist.".toList))) := by
  have zero : ∀ {n : Name}, (¬ ∃ i, IsFrame b n i) → b.lookupFrameNumber n = 0 := by
    intro n h
    by_cases h0 : b.lookupFrameNumber n = 0
    · exact h0
    · exact absurd ⟨_, isFrame_of_lookup h0⟩ h
  have start : b.canTransformT R target source t (some old) =
      (if b.lookupFrameNumber target = 0 ∨ b.lookupFrameNumber source = 0 then
        .ok false (some (old ++ Buf.unknownText target source (b.lookupFrameNumber target)
          (b.lookupFrameNumber source)))
       else b.canTransformNoLockT R (b.lookupFrameNumber target) (b.lookupFrameNumber source) t (some old)) := by
    unfold Buf.canTransformT
    rw [if_neg hne, warn_legal lg, warn_legal ls, if_neg Bool.false_ne_true, if_neg Bool.false_ne_true]
    rfl
  rw [start]
  refine ⟨fun h1 h2 => ?_, fun h1 h2 => ?_, fun h1 h2 => ?_⟩
  · obtain ⟨s, hs⟩ := h2
    rw [if_pos (Or.inl (zero h1)), Buf.unknownText, zero h1, lookupFrameNumber_isFrame hs, if_pos rfl, if_neg hs.1]
    simp only [List.append_assoc, List.append_nil]
  · obtain ⟨g, hg⟩ := h1
    rw [if_pos (Or.inr (zero h2)), Buf.unknownText, zero h2, lookupFrameNumber_isFrame hg, if_neg hg.1, if_pos rfl,
      if_neg hg.1]
    simp only [List.append_assoc, List.nil_append]
  · rw [if_pos (Or.inr (zero h2)), Buf.unknownText, zero h1, zero h2]
    simp only [if_true]
    simp only [List.append_assoc]

/-- **C81 (unknown frames, fixed frame).** For legal names of which at least one is not known, the
five-argument `canTransform` appends one sentence per unknown frame, separated by spaces (the third
lacks a space before "does"). -/
theorem C81_unknown_fixed (R : Render) {target source fixed : Name} (lg : LegalName target)
    (ls : LegalName source) (lf : LegalName fixed) (ttime stime : Time) (old : Name) {l1 l2 l3 : List Name}
    (h1 : (∃ g, IsFrame b target g) ∧ l1 = [] ∨ (¬ ∃ g, IsFrame b target g) ∧
      l1 = ["canTransform: target_frame ".toList ++ target ++ " does not exist.".toList])
    (h2 : (∃ s, IsFrame b source s) ∧ l2 = [] ∨ (¬ ∃ s, IsFrame b source s) ∧
      l2 = ["canTransform: source_frame ".toList ++ source ++ " does not exist.".toList])
    (h3 : (∃ f, IsFrame b fixed f) ∧ l3 = [] ∨ (¬ ∃ f, IsFrame b fixed f) ∧
      l3 = ["fixed_frame: ".toList ++ fixed ++ "does not exist.".toList])
    (hne : l1 ++ l2 ++ l3 ≠ []) :
    b.canTransform5T R target ttime source stime fixed (some old) =
      .ok false (some (old ++ [' '].intercalate (l1 ++ l2 ++ l3))) := by
  have zero : ∀ {n : Name}, (¬ ∃ i, IsFrame b n i) → b.lookupFrameNumber n = 0 := by
    intro n h
    by_cases h0 : b.lookupFrameNumber n = 0
    · exact h0
    · exact absurd ⟨_, isFrame_of_lookup h0⟩ h
  have nz : ∀ {n : Name}, (∃ i, IsFrame b n i) → b.lookupFrameNumber n ≠ 0 := by
    rintro n ⟨i, hi⟩
    rw [lookupFrameNumber_isFrame hi]; exact hi.1
  unfold Buf.canTransform5T Buf.unknownText
  rw [warn_legal lg, warn_legal ls, warn_legal lf, if_neg Bool.false_ne_true, if_neg Bool.false_ne_true,
    if_neg Bool.false_ne_true]
  dsimp only
  generalize "canTransform: target_frame ".toList ++ target ++ " does not exist.".toList = x at *
  generalize "canTransform: source_frame ".toList = y at *
  generalize "fixed_frame: ".toList = z at *
  generalize " does not exist.".toList = u at *
  generalize "does not exist.".toList = v at *
  have sp : " ".toList = [' '] := rfl
  rw [sp]
  rcases h1 with ⟨h1, rfl⟩ | ⟨h1, rfl⟩ <;> rcases h2 with ⟨h2, rfl⟩ | ⟨h2, rfl⟩ <;>
    rcases h3 with ⟨h3, rfl⟩ | ⟨h3, rfl⟩ <;>
    first
    | exact absurd rfl hne
    | (simp [zero, nz, h1, h2, h3, List.intercalate])

/-- **C81 (finding: illegal names).** For an empty name or one that starts with a slash,
`canTransform` returns `false` and writes nothing to the string. -/
theorem C81_illegal_finding (R : Render) {target source : Name} (hne : target ≠ source)
    (h : ¬ LegalName target ∨ ¬ LegalName source) (t : Time) (old : Name) :
    b.canTransformT R target source t (some old) = .ok false (some old) := by
  unfold Buf.canTransformT
  rw [if_neg hne]
  by_cases lg : LegalName target
  · rw [warn_legal lg]
    rcases h with h | h
    · exact absurd lg h
    · rw [warn_illegal h]; rfl
  · rw [warn_illegal lg]; rfl

/-! ### The text of exceptions -/

/-- **C81 (exceptions).** For two known frames with legal different names, `lookupTransform` returns the
transform of the other theorems; or throws the exception of the other theorems, with exactly the text
`canTransform` writes into an empty string, which explains a failure of that kind; or throws
`std::runtime_error`, only if data is stored 2³¹ s or more away from the time asked for. -/
theorem C81_lookup (R : Render) (hr : Reachable D b) {target source : Name} {g s : Nat}
    (hg : IsFrame b target g) (hs : IsFrame b source s) (lg : LegalName target) (ls : LegalName source)
    (hne : target ≠ source) (t : Time) :
    (∃ m, b.lookupTransformT R target source t = .ok m ∧ b.lookupTransform target source t = .ok m ∧
      b.canTransformT R target source t (some []) = .ok true (some [])) ∨
    (∃ x w, b.lookupTransformT R target source t = .throw x w ∧ b.lookupTransform target source t = .throw x ∧
      b.canTransformT R target source t (some []) = .ok false (some w) ∧
      (Fits R → ExplainsAny R b t target source [] x w)) ∨
    (b.lookupTransformT R target source t = .throw .runtime R.range ∧
      b.canTransformT R target source t (some []) = .throw .runtime (some []) ∧
      ∃ t', AboutTime b g s t t' ∧ (FarOn b t' g ∨ FarOn b t' s)) := by
  have hw := hr.wf
  have hid : s ≠ g := fun h => hne (hw.inj hg.2 (h ▸ hs.2))
  have val : ∀ {n : Name} {i : Nat} (fn : Name), IsFrame b n i → LegalName n →
      b.validateFrameIdT fn n = .ok i := by
    intro n i fn hi hl
    have hv := validate_legal hi hl
    unfold Buf.validateFrameIdT
    unfold Buf.validateFrameId at hv
    split
    · rename_i h; rw [if_pos h] at hv; cases hv
    · rename_i h
      rw [if_neg h] at hv
      split
      · rename_i h; rw [if_pos h] at hv; cases hv
      · rename_i h
        rw [if_neg h] at hv
        rw [lookupFrameNumber_isFrame hi] at hv ⊢
        cases i with
        | zero => cases hv
        | succ i => rfl
  have e1 : b.lookupTransformT R target source t =
      (match b.walkT R transformAccum TAcc.init t g s (some []) with
        | .ub => .ub
        | .throw x _ => .throw x R.range
        | .err c e => .throw (Buf.codeExc c) (e.getD [])
        | .done a _ _ => .ok { parent := target, child := source, stamp := a.time, xf := a.result }) := by
    unfold Buf.lookupTransformT
    rw [if_neg hne, val _ hg lg]
    dsimp only
    rw [val _ hs ls]
    rfl
  have e2 : b.canTransformT R target source t (some []) =
      (match b.walkT R canAccum () t g s (some []) with
        | .done _ _ e => .ok true e
        | .err _ e => .ok false e
        | .throw x e => .throw x e
        | .ub => .ub) := by
    unfold Buf.canTransformT
    rw [if_neg hne, warn_legal lg, warn_legal ls]
    simp only [lookupFrameNumber_isFrame hg, lookupFrameNumber_isFrame hs, Bool.false_eq_true, if_false]
    rw [if_neg (fun h => h.elim hg.1 hs.1)]
    unfold Buf.canTransformNoLockT
    rw [if_neg (Ne.symm hid)]
    rfl
  rw [e1, e2, lookup_eq hg hs lg ls hne]
  have h := walkT_out (t := t) R hr (f := transformAccum) transformAccum_parent hg hs hid TAcc.init (some [])
  have ha := walkT_alike (f := transformAccum) (f' := canAccum) transformAccum_parent canAccum_parent R b t g s
    (TAcc.init : TAcc X) () (some [])
  generalize b.walkT R transformAccum TAcc.init t g s (some []) = r at h ha
  generalize b.walkT R canAccum () t g s (some []) = r' at ha
  generalize b.walk transformAccum TAcc.init t g s = q at h
  cases h with
  | done => cases ha; exact Or.inl ⟨_, rfl, rfl, rfl⟩
  | quiet h => cases h
  | said h1 h2 =>
    cases ha
    refine Or.inr (Or.inl ⟨_, _, rfl, rfl, rfl, fun hR => ?_⟩)
    cases h1
    exact h2 hR
  | threw h1 h2 h3 => cases ha; exact Or.inr (Or.inr ⟨rfl, rfl, _, h2, h3⟩)

/-- **C81 (exceptions about names).** For two different names that are not both legal names of known
frames, `lookupTransform` throws the exception of the other theorems; the text names the argument and,
unless it is empty, the offending name (names without NUL). -/
theorem C81_lookup_names (R : Render) {target source : Name} (hne : target ≠ source) (t : Time)
    (nt : Char.ofNat 0 ∉ target) (ns : Char.ofNat 0 ∉ source) :
    (target = [] → b.lookupTransformT R target source t = .throw .invalidArgument
      ("Invalid argument passed to lookupTransform argument target_frame in tf2 frame_ids cannot be empty".toList)) ∧
    (target.head? = some '/' → b.lookupTransformT R target source t = .throw .invalidArgument
      ("Invalid argument \"".toList ++ target ++ ("\" passed to lookupTransform argument target_frame in tf2 " ++
        "frame_ids cannot start with a '/' like: ").toList)) ∧
    (LegalName target → (¬ ∃ g, IsFrame b target g) → b.lookupTransformT R target source t = .throw .lookup
      ("\"".toList ++ target ++ "\" passed to lookupTransform argument target_frame does not exist. ".toList)) ∧
    (∀ g, LegalName target → IsFrame b target g →
      (source = [] → b.lookupTransformT R target source t = .throw .invalidArgument
        ("Invalid argument passed to lookupTransform argument source_frame in tf2 frame_ids cannot be empty".toList)) ∧
      (source.head? = some '/' → b.lookupTransformT R target source t = .throw .invalidArgument
        ("Invalid argument \"".toList ++ source ++ ("\" passed to lookupTransform argument source_frame in tf2 " ++
          "frame_ids cannot start with a '/' like: ").toList)) ∧
      (LegalName source → (¬ ∃ s, IsFrame b source s) → b.lookupTransformT R target source t = .throw .lookup
        ("\"".toList ++ source ++ "\" passed to lookupTransform argument source_frame does not exist. ".toList))) := by
  have zero : ∀ {n : Name}, (¬ ∃ i, IsFrame b n i) → b.lookupFrameNumber n = 0 := by
    intro n h
    by_cases h0 : b.lookupFrameNumber n = 0
    · exact h0
    · exact absurd ⟨_, isFrame_of_lookup h0⟩ h
  have empty : ∀ fn, b.validateFrameIdT fn [] = .throw .invalidArgument
      (cstr ("Invalid argument passed to ".toList ++ fn ++ " in tf2 frame_ids cannot be empty".toList)) := by
    intro fn; unfold Buf.validateFrameIdT; rw [if_pos rfl]
  have slash : ∀ fn {n : Name}, n.head? = some '/' → b.validateFrameIdT fn n = .throw .invalidArgument
      (cstr ("Invalid argument \"".toList ++ n ++ "\" passed to ".toList ++ fn ++
        " in tf2 frame_ids cannot start with a '/' like: ".toList)) := by
    intro fn n h
    unfold Buf.validateFrameIdT
    rw [if_neg (by rintro rfl; cases h), if_pos ((startsWithSlash_iff n).2 h)]
  have unknown : ∀ fn {n : Name}, LegalName n → (¬ ∃ i, IsFrame b n i) → b.validateFrameIdT fn n = .throw .lookup
      (cstr ("\"".toList ++ n ++ "\" passed to ".toList ++ fn ++ " does not exist. ".toList)) := by
    intro fn n hl h
    unfold Buf.validateFrameIdT
    rw [if_neg hl.1, if_neg (by rw [startsWithSlash_iff]; exact hl.2), zero h]
  have known : ∀ fn {n : Name} {i : Nat}, LegalName n → IsFrame b n i → b.validateFrameIdT fn n = .ok i := by
    intro fn n i hl hi
    unfold Buf.validateFrameIdT
    rw [if_neg hl.1, if_neg (by rw [startsWithSlash_iff]; exact hl.2), lookupFrameNumber_isFrame hi]
    cases i with
    | zero => exact absurd rfl hi.1
    | succ i => rfl
  have start : ∀ {x w}, b.validateFrameIdT "lookupTransform argument target_frame".toList target = .throw x w →
      b.lookupTransformT R target source t = .throw x w := by
    intro x w h
    unfold Buf.lookupTransformT
    rw [if_neg hne, h]
  have start2 : ∀ {i x w}, b.validateFrameIdT "lookupTransform argument target_frame".toList target = .ok i →
      b.validateFrameIdT "lookupTransform argument source_frame".toList source = .throw x w →
      b.lookupTransformT R target source t = .throw x w := by
    intro i x w h h'
    unfold Buf.lookupTransformT
    rw [if_neg hne, h]
    dsimp only
    rw [h']
  have clean3 : ∀ {a c : Name}, Char.ofNat 0 ∉ a → Char.ofNat 0 ∉ c → ∀ n : Name, Char.ofNat 0 ∉ n →
      cstr (a ++ n ++ c) = a ++ n ++ c := by
    intro a c ha hc n hn
    exact cstr_clean (by simp only [List.mem_append, not_or]; exact ⟨⟨ha, hn⟩, hc⟩)
  have join : ∀ (a n c d e f : Name), c ++ d ++ e = f → a ++ n ++ c ++ d ++ e = a ++ n ++ f := by
    intro a n c d e f h; rw [← h]; simp only [List.append_assoc]
  refine ⟨fun h => ?_, fun h => ?_, fun h h' => ?_, fun g hl hg => ⟨fun h => ?_, fun h => ?_, fun h h' => ?_⟩⟩
  · subst h; rw [start (empty _)]; congr 1
  · rw [start (slash _ h), join _ _ _ _ _ _ (show _ = ("\" passed to lookupTransform argument target_frame in tf2 " ++
        "frame_ids cannot start with a '/' like: ").toList from by decide),
      clean3 (by decide) (by decide) _ nt]
  · rw [start (unknown _ h h'), join _ _ _ _ _ _
        (show _ = "\" passed to lookupTransform argument target_frame does not exist. ".toList from by decide),
      clean3 (by decide) (by decide) _ nt]
  · subst h; rw [start2 (known _ hl hg) (empty _)]; congr 1
  · rw [start2 (known _ hl hg) (slash _ h), join _ _ _ _ _ _
        (show _ = ("\" passed to lookupTransform argument source_frame in tf2 " ++
        "frame_ids cannot start with a '/' like: ").toList from by decide),
      clean3 (by decide) (by decide) _ ns]
  · rw [start2 (known _ hl hg) (unknown _ h h'), join _ _ _ _ _ _
        (show _ = "\" passed to lookupTransform argument source_frame does not exist. ".toList from by decide),
      clean3 (by decide) (by decide) _ ns]

/-- **C81 (exceptions, fixed frame).** For known frames with legal names the five-argument
`lookupTransform` returns the transform of the other theorems, or throws the exception of the other
theorems with a text that explains the failing leg — the leg from source to fixed frame is asked first
here, in `canTransform` it is asked last —, or throws `std::runtime_error`, only if data is stored 2³¹ s or
more away from the time of that leg. -/
theorem C81_lookup_fixed (R : Render) (hr : Reachable D b) {target source fixed : Name} {g s f : Nat}
    (hg : IsFrame b target g) (hs : IsFrame b source s) (hf : IsFrame b fixed f)
    (lg : LegalName target) (ls : LegalName source) (lf : LegalName fixed) (ttime stime : Time) :
    (∃ m, b.lookupTransform5T R target ttime source stime fixed = .ok m ∧
      b.lookupTransform5 target ttime source stime fixed = .ok m) ∨
    (∃ x w, b.lookupTransform5T R target ttime source stime fixed = .throw x w ∧
      b.lookupTransform5 target ttime source stime fixed = .throw x ∧
      ((b.lookupTransform fixed source stime = .throw x ∧ (Fits R → ExplainsAny R b stime fixed source [] x w)) ∨
       (∃ m, b.lookupTransform fixed source stime = .ok m ∧ b.lookupTransform target fixed ttime = .throw x ∧
        (Fits R → ExplainsAny R b ttime target fixed [] x w)))) ∨
    (b.lookupTransform5T R target ttime source stime fixed = .throw .runtime R.range ∧
      ∃ t', (AboutTime b f s stime t' ∧ (FarOn b t' f ∨ FarOn b t' s)) ∨
        (AboutTime b g f ttime t' ∧ (FarOn b t' g ∨ FarOn b t' f))) := by
  have val : ∀ {n : Name} {i : Nat} (fn : Name), IsFrame b n i → LegalName n →
      b.validateFrameIdT fn n = .ok i := by
    intro n i fn hi hl
    unfold Buf.validateFrameIdT
    rw [if_neg hl.1, if_neg (by rw [startsWithSlash_iff]; exact hl.2), lookupFrameNumber_isFrame hi]
    cases i with
    | zero => exact absurd rfl hi.1
    | succ i => rfl
  have leg : ∀ {n m : Name} {i j : Nat} (t : Time), IsFrame b n i → IsFrame b m j → LegalName n → LegalName m →
      (∃ r, b.lookupTransformT R n m t = .ok r ∧ b.lookupTransform n m t = .ok r) ∨
      (∃ x w, b.lookupTransformT R n m t = .throw x w ∧ b.lookupTransform n m t = .throw x ∧
        (Fits R → ExplainsAny R b t n m [] x w)) ∨
      (b.lookupTransformT R n m t = .throw .runtime R.range ∧
        ∃ t', AboutTime b i j t t' ∧ (FarOn b t' i ∨ FarOn b t' j)) := by
    intro n m i j t hi hj ln lm
    by_cases e : n = m
    · left
      unfold Buf.lookupTransformT Buf.lookupTransform
      rw [if_pos e, if_pos e]
      exact ⟨_, rfl, rfl⟩
    · rcases C81_lookup R hr hi hj ln lm e t with ⟨r, h1, h2, _⟩ | ⟨x, w, h1, h2, _, h3⟩ | ⟨h1, _, h2⟩
      · exact Or.inl ⟨r, h1, h2⟩
      · exact Or.inr (Or.inl ⟨x, w, h1, h2, h3⟩)
      · exact Or.inr (Or.inr ⟨h1, h2⟩)
  unfold Buf.lookupTransform5T Buf.lookupTransform5
  rw [val _ hg lg, val _ hs ls, val _ hf lf, validate_legal hg lg, validate_legal hs ls, validate_legal hf lf]
  dsimp only
  rcases leg stime hf hs lf ls with ⟨r, h1, h2⟩ | ⟨x, w, h1, h2, h3⟩ | ⟨h1, t', h2⟩
  · rw [h1, h2]
    dsimp only
    rcases leg ttime hg hf lg lf with ⟨q, k1, k2⟩ | ⟨x, w, k1, k2, k3⟩ | ⟨k1, t', k2⟩
    · rw [k1, k2]; exact Or.inl ⟨_, rfl, rfl⟩
    · rw [k1, k2]; exact Or.inr (Or.inl ⟨x, w, rfl, rfl, Or.inr ⟨r, rfl, rfl, k3⟩⟩)
    · rw [k1]; exact Or.inr (Or.inr ⟨rfl, t', Or.inr k2⟩)
  · rw [h1, h2]; exact Or.inr (Or.inl ⟨x, w, rfl, rfl, Or.inl ⟨rfl, h3⟩⟩)
  · rw [h1]; exact Or.inr (Or.inr ⟨rfl, t', Or.inl h2⟩)

/-! ### Room in the fixed arrays -/

theorem Tells.short {R : Render} (hR : Fits R) {held : List Time} {t : Time} {w : Name}
    (h : Tells R held t w) : w.length ≤ 162 := by
  cases h with
  | @only s _ _ =>
    have := hR.time t; have := hR.time s
    simp only [List.length_append]
    simp
    omega
  | @future s _ _ _ _ =>
    have := hR.time t; have := hR.time s; have := hR.dur ((t : Int) - s)
    simp only [List.length_append]
    simp
    omega
  | @past s _ _ _ _ =>
    have := hR.time t; have := hR.time s; have := hR.dur ((s : Int) - t)
    simp only [List.length_append]
    simp
    omega

/-- **C81 (room).** The text of an `ExtrapolationException` about two names of together at most 784
characters (no NUL) ends with both names in full; whatever the names, it has at most 999 characters (so
longer names are cut). -/
theorem C81_room {R : Render} (hR : Fits R) {target source : Name} {t : Time} {w : Name}
    (h : ExplainsAny R b t target source [] .extrapolation w) :
    w.length ≤ 999 ∧
    (Char.ofNat 0 ∉ target → Char.ofNat 0 ∉ source → target.length + source.length ≤ 784 →
      ∃ r, w = r ++ ", when looking up transform from frame [".toList ++ source ++ "] to frame [".toList ++
        target ++ "]".toList) := by
  have main : ∀ r : Name, r.length ≤ 162 → ((r ++ whenText target source).take 999).length ≤ 999 ∧
      (Char.ofNat 0 ∉ target → Char.ofNat 0 ∉ source → target.length + source.length ≤ 784 →
      ∃ r', (r ++ whenText target source).take 999 =
        r' ++ ", when looking up transform from frame [".toList ++ source ++ "] to frame [".toList ++
          target ++ "]".toList) := by
    intro r hr
    refine ⟨by rw [List.length_take]; omega, fun h1 h2 h3 => ⟨r, ?_⟩⟩
    unfold whenText
    rw [cstr_clean h1, cstr_clean h2]
    rw [List.take_of_length_le]
    · rw [assoc_six]
    · simp only [List.length_append]
      simp
      omega
  have at' : ∀ t, Explains R b t target source [] .extrapolation w → w.length ≤ 999 ∧
      (Char.ofNat 0 ∉ target → Char.ofNat 0 ∉ source → target.length + source.length ≤ 784 →
      ∃ r, w = r ++ ", when looking up transform from frame [".toList ++ source ++ "] to frame [".toList ++
        target ++ "]".toList) := by
    intro t h
    cases h with
    | outside _ _ _ _ ht => exact main _ (ht.short hR)
    | silentSource _ _ _ _ => exact main [] (by simp)
    | silentTarget _ _ _ _ => exact main (cstr []) (by simp [cstr])
  unfold ExplainsAny at h
  split at h
  · cases h with
    | common _ _ _ h => exact at' _ h
  · exact at' _ h

/-! ### tf2_ros -/

/-- **C81 (tf2_ros).** The string given to tf2_ros `Buffer::canTransform` holds, after the call, the
text of the last `BufferCore::canTransform` on an *empty* string, followed by the time taken; so it is
not empty even when the call returns `true`, and what the caller had in it is gone. -/
theorem C81_ros (R : Render) (hr : Reachable D b) (target source : Name) (t : Time) (took timeout old : Name) :
    (∃ v w, b.canTransformT R target source t (some []) = .ok v (some w) ∧
      rosCanTransformT (b.canTransformT R target source t) took timeout (some old) =
        .ok v (some (w ++ ". canTransform returned after ".toList ++ took ++ " timeout was ".toList ++ timeout ++
          ".".toList)) ∧ (v = true → w = [])) ∨
    rosCanTransformT (b.canTransformT R target source t) took timeout (some old) = .throw .runtime (some []) := by
  rcases C81_answer R hr target source t [] with ⟨v, w, h1, _, h3⟩ | ⟨h1, _⟩
  · refine Or.inl ⟨v, w, h1, ?_, h3⟩
    unfold rosCanTransformT
    rw [Option.map_some, h1]
    rfl
  · right
    unfold rosCanTransformT
    rw [Option.map_some, h1]

end

/-! ### Examples and findings -/

theorem decimal_length (n : Nat) : (decimal n).length ≤ 20 := by
  unfold decimal
  have := (List.dropWhile_sublist (p := fun c => decide (c = '0'))
    (l := [18, 17, 16, 15, 14, 13, 12, 11, 10].map (digitAt n))).length_le
  simp only [List.length_append, List.length_map, List.length_cons, List.length_nil] at *
  omega

theorem digitAt_ne (n k : Nat) : digitAt n k ≠ Char.ofNat 0 := by
  unfold digitAt
  have h : n / 10 ^ k % 10 < 10 := Nat.mod_lt _ (by decide)
  generalize n / 10 ^ k % 10 = d at h
  have : ∀ d < 10, Char.ofNat (48 + d) ≠ Char.ofNat 0 := by decide
  exact this d h

theorem decimal_chars (n : Nat) : Char.ofNat 0 ∉ decimal n := by
  have hm : ∀ l : List Nat, Char.ofNat 0 ∉ l.map (digitAt n) := by
    intro l h
    obtain ⟨k, _, hk⟩ := List.mem_map.1 h
    exact digitAt_ne n k hk
  unfold decimal
  simp only [List.mem_append, not_or]
  refine ⟨⟨⟨fun h => hm _ ((List.dropWhile_sublist _).subset h), ?_⟩, by decide⟩, hm _⟩
  intro h
  rw [List.mem_singleton] at h
  exact digitAt_ne n 9 h.symm

theorem decimal_fits : Fits decimalRender :=
  ⟨fun t => decimal_length t, fun d => decimal_length _, fun t => decimal_chars t, fun d => decimal_chars _⟩

set_option maxRecDepth 8000 in
example : exBuf.canTransformT decimalRender ['w'] ['b'] 30 (some ['?']) = .ok false (some
    (("Lookup would require extrapolation 0.000000012s into the future.  Requested time 0.000000030 but the " ++
      "latest data is at time 0.000000018, when looking up transform from frame [b] to frame [w]").toList)) := by
  decide

set_option maxRecDepth 8000 in
example : exBuf.canTransformT decimalRender ['b'] ['y'] 15 (some ['?']) = .ok false (some
    ("Could not find a connection between 'b' and 'y' because they are not part of the same tree.Tf has two " ++
      "or more unconnected trees.").toList) := by decide

set_option maxRecDepth 8000 in
example : exBuf.canTransformT decimalRender ['b'] ['y'] 0 (some ['?']) = .ok false (some
    ("Could not find a connection between 'b' and 'y' because they are not part of the same tree.Tf has two " ++
      "or more unconnected trees.").toList) ∧
    exBuf.canTransformT decimalRender ['b'] ['q'] 15 (some ['?']) =
      .ok false (some "?canTransform: source_frame q does not exist.".toList) ∧
    exBuf.canTransform5T decimalRender ['b'] 15 ['q'] 15 ['u'] (some ['?']) = .ok false (some
      "?canTransform: source_frame q does not exist. fixed_frame: udoes not exist.".toList) ∧
    exBuf.canTransformT decimalRender ['b'] ['/', 'c'] 15 (some ['?']) = .ok false (some ['?']) ∧
    exBuf.canTransformT decimalRender ['b'] ['c'] 15 (some ['?']) = .ok true (some ['?']) := by decide

set_option maxRecDepth 8000 in
/-- With the fixed frame `w` both legs fail here; `lookupTransform` tells of the source's, `canTransform` of the target's. -/
example : exBuf.lookupTransform5T decimalRender ['b'] 30 ['c'] 40 ['w'] = .throw .extrapolation
    (("Lookup would require extrapolation 0.000000020s into the future.  Requested time 0.000000040 but the " ++
      "latest data is at time 0.000000020, when looking up transform from frame [c] to frame [w]").toList) ∧
    exBuf.canTransform5T decimalRender ['b'] 30 ['c'] 40 ['w'] (some []) = .ok false (some
    (("Lookup would require extrapolation 0.000000012s into the future.  Requested time 0.000000030 but the " ++
      "latest data is at time 0.000000018, when looking up transform from frame [w] to frame [b]").toList)) := by
  decide

set_option maxRecDepth 20000 in
/-- The loop of `loopOps`: the text lists the frames. -/
example : loopBuf.canTransformT decimalRender ['a'] ['q'] 10 (some []) = .ok false (some
    ("The tf tree is invalid because it contains a loop.\nFrame q exists with parent p.\nFrame p exists with " ++
     "parent q.\nFrame a exists with parent w.\n\n").toList) := by
  decide

/-- A history with data of `g` long after the data of `s`. -/
def farOps : List (Op Int) :=
  [put ['r'] ['g'] 3000000000000000000 1, put ['r'] ['g'] 3000000000000000010 2, put ['g'] ['s'] 10 3,
   put ['g'] ['s'] 20 4]

def farBuf : Buf Int := (Buf.init 100).run farOps

/-- **C81 (finding: far times).** There is a reachable buffer in which the transform from `s` to its
parent `g` at 15 ns is stored and `canTransform` without a string says so, but `lookupTransform`, and
`canTransform` with a string, throw `std::runtime_error`: only to print a text nobody will read, the
difference to the data of `g` itself (needed by no one) is computed, and it exceeds 2³¹ s.  The models of
lookups without text in the other files leave this throw out. -/
theorem C81_far_finding : ∃ (b : Buf Int), Reachable 100 b ∧
    b.canTransformT decimalRender ['g'] ['s'] 15 none = .ok true none ∧
    b.canTransformT decimalRender ['g'] ['s'] 15 (some []) = .throw .runtime (some []) ∧
    b.lookupTransformT decimalRender ['g'] ['s'] 15 = .throw .runtime decimalRender.range ∧
    b.lookupTransform ['g'] ['s'] 15 = .ok (tmsg ['g'] ['s'] 15 3) :=
  ⟨farBuf, ⟨farOps, rfl⟩, by decide, by decide, by decide, by decide⟩

/-- **C81 (finding: no reason).** After `clear()` the text of a failed lookup starts with a comma: no
reason is given; and `canTransform` presents what the caller had in the string as the reason. -/
theorem C81_silent_finding : ∃ (b : Buf Int), Reachable 100 b ∧
    b.lookupTransformT decimalRender ['w'] ['b'] 15 = .throw .extrapolation
      ", when looking up transform from frame [b] to frame [w]".toList ∧
    b.canTransformT decimalRender ['b'] ['w'] 15 (some "all is well".toList) = .ok false (some
      "all is well, when looking up transform from frame [w] to frame [b]".toList) :=
  ⟨exBuf.step .clear, ⟨exOps ++ [.clear], by unfold exBuf Buf.run; rw [List.foldl_append]; rfl⟩, by decide, by decide⟩

end Tf2
