import Verif.Spec.ErrorText
import Verif.Proofs.WalkAt
import Verif.Proofs.Latest
import Verif.Props.Listing

/-!
# Error texts: the caches and the loops
-/
namespace Tf2

variable {X A : Type}

/-! ### Texts -/

theorem snprintf_fits {n : Nat} {s : Name} (h : s.length < n) : snprintf n s = s := by
  unfold snprintf
  exact List.take_of_length_le (by omega)

theorem cstr_clean {s : Name} (h : Char.ofNat 0 ∉ s) : cstr s = s := by
  unfold cstr
  induction s with
  | nil => rfl
  | cons a r ih =>
    have ha : a ≠ Char.ofNat 0 := fun e => h (e ▸ List.mem_cons_self ..)
    rw [List.takeWhile_cons_of_pos (by simpa using ha), ih (fun hr => h (List.mem_cons_of_mem _ hr))]

theorem Tells.clean {R : Render} (hR : Fits R) {held : List Time} {t : Time} {w : Name}
    (h : Tells R held t w) : cstr w = w := by
  apply cstr_clean
  cases h with
  | only _ _ =>
    simp only [List.mem_append, not_or]
    exact ⟨⟨⟨⟨by decide, hR.timeChars _⟩, by decide⟩, hR.timeChars _⟩, by decide⟩
  | future _ _ _ _ =>
    simp only [List.mem_append, not_or]
    exact ⟨⟨⟨⟨⟨by decide, hR.durChars _⟩, by decide⟩, hR.timeChars _⟩, by decide⟩, hR.timeChars _⟩
  | past _ _ _ _ =>
    simp only [List.mem_append, not_or]
    exact ⟨⟨⟨⟨⟨by decide, hR.durChars _⟩, by decide⟩, hR.timeChars _⟩, by decide⟩, hR.timeChars _⟩

theorem timeDiff_pos {a b : Time} (h : b < a) :
    (timeDiff a b = some ((a : Int) - b)) ∨ (timeDiff a b = none ∧ b + 2147483648000000000 ≤ a) := by
  unfold timeDiff DURATION_MAX
  split
  · exact Or.inl rfl
  · right; refine ⟨rfl, ?_⟩; omega

/-! ### The caches -/

/-- A frame's cache that holds nothing usable and about which no text is written. -/
def Cache.Silent [Rigid X] (c : Cache X) (t : Time) : Prop :=
  (c.stamps = [] ∧ c.getData t = .fail) ∨ ∃ s, c.getData t = .ok s ∧ s.parent = 0

theorem findClosestText_cases (R : Render) {st : List (Sample X)} (h : NewestFirst st) (t : Time)
    (e : Option Name) :
    (findClosestText R st t e = some e ∧ findClosest st t ≠ .zero) ∨
    (findClosestText R st t e = some e ∧ st = [] ∧ findClosest st t = .zero) ∨
    (e = none ∧ findClosestText R st t e = some none ∧ findClosest st t = .zero) ∨
    (∃ old w, e = some old ∧ findClosestText R st t e = some (some w) ∧ findClosest st t = .zero ∧
      (Fits R → Tells R (st.map Sample.stamp) t w)) ∨
    (∃ old s, e = some old ∧ findClosestText R st t e = none ∧ s ∈ st.map Sample.stamp ∧
      FarApart t s) := by
  cases st with
  | nil => exact Or.inr (Or.inl ⟨rfl, rfl, rfl⟩)
  | cons front rest =>
    by_cases ht0 : t = 0
    · left; subst ht0; exact ⟨by simp [findClosestText], by simp [findClosest]⟩
    · cases rest with
      | nil =>
        by_cases hs : front.stamp = t
        · left; exact ⟨by simp [findClosestText, ht0, hs], by simp [findClosest, ht0, hs]⟩
        · have hz : findClosest [front] t = .zero := by simp [findClosest, ht0, hs]
          cases e with
          | none => exact Or.inr (Or.inr (Or.inl ⟨rfl, by simp [findClosestText, ht0, hs, extrapText1], hz⟩))
          | some old =>
            refine Or.inr (Or.inr (Or.inr (Or.inl ⟨old, _, rfl, by
              simp only [findClosestText, ht0, hs, extrapText1, if_false]; rfl, hz, ?_⟩)))
            intro hR
            rw [snprintf_fits]
            · exact .only rfl hs
            · have := hR.time t; have := hR.time front.stamp
              simp only [List.length_append]
              simp
              omega
      | cons second rest' =>
        have hl : ((second :: rest').getLast (List.cons_ne_nil _ _)).stamp ≤ front.stamp :=
          NewestFirst.front_max h (List.mem_cons_of_mem _ (List.getLast_mem _))
        have hmin : ∀ s ∈ front :: second :: rest',
            ((second :: rest').getLast (List.cons_ne_nil _ _)).stamp ≤ s.stamp := by
          intro s hs
          have := getLast_min h (List.cons_ne_nil _ _) hs
          rwa [List.getLast_cons (List.cons_ne_nil _ _)] at this
        have hmem : (second :: rest').getLast (List.cons_ne_nil _ _) ∈ front :: second :: rest' :=
          List.mem_cons_of_mem _ (List.getLast_mem _)
        generalize hb : (second :: rest').getLast (List.cons_ne_nil _ _) = back at hl hmin hmem
        by_cases h1 : t = front.stamp
        · left; exact ⟨by simp [findClosestText, ht0, ← h1], by simp [findClosest, ht0, ← h1]⟩
        · by_cases h2 : t = back.stamp
          · left
            exact ⟨by simp only [findClosestText, ht0, h1, hb, if_false]; rw [if_pos h2],
              by simp only [findClosest, ht0, h1, hb, if_false]; rw [if_pos h2]; simp⟩
          · by_cases h3 : front.stamp < t
            · have hz : findClosest (front :: second :: rest') t = .zero := findClosest_late h h3
              have hq : findClosestText R (front :: second :: rest') t e = extrapText2 R t front.stamp e := by
                simp only [findClosestText, ht0, h1, hb, if_false]; rw [if_neg h2, if_pos h3]
              rw [hq]
              cases e with
              | none => exact Or.inr (Or.inr (Or.inl ⟨rfl, rfl, hz⟩))
              | some old =>
                rcases timeDiff_pos h3 with hd | ⟨hd, hf⟩
                · refine Or.inr (Or.inr (Or.inr (Or.inl ⟨old, _, rfl, by
                    simp only [extrapText2, hd]; rfl, hz, ?_⟩)))
                  intro hR
                  rw [snprintf_fits]
                  · refine .future (by simp) (List.mem_map_of_mem (List.mem_cons_self ..)) ?_ h3
                    intro s' hs'
                    obtain ⟨s, hs, rfl⟩ := List.mem_map.1 hs'
                    exact h.front_max hs
                  · have := hR.time t; have := hR.time front.stamp; have := hR.dur ((t : Int) - front.stamp)
                    simp only [List.length_append]
                    simp
                    omega
                · exact Or.inr (Or.inr (Or.inr (Or.inr ⟨old, front.stamp, rfl, by
                    simp only [extrapText2, hd], List.mem_map_of_mem (List.mem_cons_self ..), Or.inl hf⟩)))
            · by_cases h4 : t < back.stamp
              · have hz : findClosest (front :: second :: rest') t = .zero :=
                  findClosest_early h ht0 (fun s hs => Nat.lt_of_lt_of_le h4 (hmin s hs))
                have hq : findClosestText R (front :: second :: rest') t e = extrapText3 R t back.stamp e := by
                  simp only [findClosestText, ht0, h1, hb, if_false]
                  rw [if_neg h2, if_neg h3, if_pos h4]
                rw [hq]
                cases e with
                | none => exact Or.inr (Or.inr (Or.inl ⟨rfl, rfl, hz⟩))
                | some old =>
                  rcases timeDiff_pos h4 with hd | ⟨hd, hf⟩
                  · refine Or.inr (Or.inr (Or.inr (Or.inl ⟨old, _, rfl, by
                      simp only [extrapText3, hd]; rfl, hz, ?_⟩)))
                    intro hR
                    rw [snprintf_fits]
                    · refine .past (by simp) (List.mem_map_of_mem hmem) ?_ h4
                      intro s' hs'
                      obtain ⟨s, hs, rfl⟩ := List.mem_map.1 hs'
                      exact hmin s hs
                    · have := hR.time t; have := hR.time back.stamp; have := hR.dur ((back.stamp : Int) - t)
                      simp only [List.length_append]
                      simp
                      omega
                  · exact Or.inr (Or.inr (Or.inr (Or.inr ⟨old, back.stamp, rfl, by
                      simp only [extrapText3, hd], List.mem_map_of_mem hmem, Or.inr hf⟩)))
              · left
                refine ⟨by simp only [findClosestText, ht0, h1, hb, if_false]
                           rw [if_neg h2, if_neg h3, if_neg h4], ?_⟩
                rcases findClosest_cases h t with ⟨e1, _⟩ | ⟨_, _, _, _, e1⟩ | ⟨_, s, _, _, e1⟩ |
                  ⟨_, o, n, _, _, _, e1⟩ | ⟨_, e2, _⟩
                · cases e1
                · rw [e1]; simp
                · rw [e1]; simp
                · rw [e1]; simp
                · rcases e2 with e2 | e2
                  · have := e2 _ hmem; omega
                  · have := e2 _ (List.mem_cons_self ..); omega

/-- What reading a cache that has no parent for `t` does to the string. -/
def Ended [Rigid X] (R : Render) (c : Cache X) (t : Time) (e e' : Option Name) : Prop :=
  (e' = e ∧ c.Silent t) ∨ (e = none ∧ e' = none) ∨
    ∃ old w, e = some old ∧ e' = some w ∧ (Fits R → Tells R c.stamps t w)

section
variable [Rigid X] {b : Buf X} {t : Time} {D : Duration}

/-- One step of either loop at a frame with a cache. -/
theorem textStep (R : Render) (hw : WF D b) {f : Nat} {c : Cache X} (hc : b.getFrame f = some c)
    (e : Option Name) :
    (c.text R t e = some e ∧ ∃ p x, c.getParent t = .id (p + 1) ∧ ParentAt b t f (p + 1) x) ∨
    (∃ e', c.text R t e = some e' ∧ c.getParent t = .id 0 ∧ (¬ ∃ p x, ParentAt b t f p x) ∧
      Ended R c t e e') ∨
    (∃ old s, e = some old ∧ c.text R t e = none ∧ s ∈ c.stamps ∧ FarApart t s) := by
  have hok := hw.caches f c hc
  have hg := gather_cases (t := t) hw hc TAcc.init
  have hgs := gather_same c t (TAcc.init : TAcc X) ()
  have hpar : c.getParent t = (transformAccum.gather c t (TAcc.init : TAcc X)).1 := hgs.symm
  have hdata := Cache.getParent_eq c t
  -- text unchanged
  have hsame : c.text R t e = some e → (c.getData t ≠ .fail ∨ c.stamps = []) →
      (c.text R t e = some e ∧ ∃ p x, c.getParent t = .id (p + 1) ∧ ParentAt b t f (p + 1) x) ∨
      (∃ e', c.text R t e = some e' ∧ c.getParent t = .id 0 ∧ (¬ ∃ p x, ParentAt b t f p x) ∧
      Ended R c t e e') := by
    intro h1 h2
    rcases hg with ⟨a', g1, _, _, g2⟩ | ⟨p, s, g1, g2⟩
    · right
      rw [g1] at hpar
      refine ⟨e, h1, hpar, g2, Or.inl ⟨rfl, ?_⟩⟩
      cases hd : c.getData t with
      | fail =>
        left
        rcases h2 with h2 | h2
        · exact absurd hd h2
        · exact ⟨h2, hd⟩
      | ub => exact absurd hd (hok.getData_ne_ub t)
      | ok s =>
        right
        refine ⟨s, hd, ?_⟩
        rw [hd, hpar] at hdata
        simp only [ParRes.id.injEq] at hdata
        exact hdata.symm
    · left
      rw [g1] at hpar
      exact ⟨h1, p, _, hpar, g2⟩
  have hfail : ∀ e', c.text R t e = some e' → c.getData t = .fail → Ended R c t e e' →
      (∃ e', c.text R t e = some e' ∧ c.getParent t = .id 0 ∧ (¬ ∃ p x, ParentAt b t f p x) ∧
      Ended R c t e e') := by
    intro e' h1 h2 h3
    rcases hg with ⟨a', g1, _, _, g2⟩ | ⟨p, s, g1, g2⟩
    · rw [g1] at hpar
      exact ⟨e', h1, hpar, g2, h3⟩
    · rw [g1] at hpar
      rw [h2, hpar] at hdata
      cases hdata
  cases c with
  | stat o =>
    cases o with
    | none => exact absurd hok (by simp [CacheOK])
    | some s =>
      rcases hsame rfl (Or.inl (by simp [Cache.getData])) with h | h
      · exact Or.inl h
      · exact Or.inr (Or.inl h)
  | dyn D' st =>
    have hz : findClosest st t = .zero → (Cache.dyn D' st).getData t = .fail := by
      intro h; simp only [Cache.getData, dynGetData, h]
    rcases findClosestText_cases R hok.2.1.sorted t e with ⟨h1, h2⟩ | ⟨h1, h2, _⟩ | ⟨h1, h2, h3⟩ |
      ⟨old, w, h1, h2, h3, h4⟩ | ⟨old, s, h1, h2, h3, h4⟩
    · have : (Cache.dyn D' st).getData t ≠ .fail := by
        simp only [Cache.getData, dynGetData]
        cases hfc : findClosest st t with
        | zero => exact absurd hfc h2
        | one a => simp
        | two a b => simp only; split <;> simp
        | ub => simp
      rcases hsame h1 (Or.inl this) with h | h
      · exact Or.inl h
      · exact Or.inr (Or.inl h)
    · rcases hsame h1 (Or.inr (by simp [Cache.stamps, h2])) with h | h
      · exact Or.inl h
      · exact Or.inr (Or.inl h)
    · exact Or.inr (Or.inl (hfail none h2 (hz h3) (Or.inr (Or.inl ⟨h1, rfl⟩))))
    · exact Or.inr (Or.inl (hfail _ h2 (hz h3) (Or.inr (Or.inr ⟨old, w, h1, rfl, h4⟩))))
    · exact Or.inr (Or.inr ⟨old, s, h1, h2, h3, h4⟩)


/-! ### The loops -/

/-- The first loop with text against the first loop without. -/
inductive Out1 (R : Render) (b : Buf X) (t : Time) (src bound : Nat) (loc : Option Name) :
    Loop1T A → Loop1 A → Prop where
  | root {top : Nat} {a : A} {ch : List Nat} {x : X} {n : Nat} : Chain b t src top x n →
      b.getFrame top = none → Out1 R b t src bound loc (.exit top false a ch loc) (.exit top false a ch)
  | stop {top : Nat} {a : A} {ch : List Nat} {x : X} {n : Nat} {c : Cache X} {loc' : Option Name} :
      Chain b t src top x n → b.getFrame top = some c → (¬ ∃ p e, ParentAt b t top p e) →
      Ended R c t loc loc' → Out1 R b t src bound loc (.exit top true a ch loc') (.exit top true a ch)
  | early {a : A} {ch : List Nat} : Out1 R b t src bound loc (.early a ch) (.early a ch)
  | deep {c : Nat} {x : X} : Chain b t src c x (bound + 1) → Out1 R b t src bound loc .tooDeep .tooDeep
  | threw {r : Loop1 A} : loc ≠ none → FarOn b t src → Out1 R b t src bound loc .threw r

theorem gather_eq {f : Accum X A} (hf : ∀ c t a, (f.gather c t a).1 = c.getParent t) {c : Cache X}
    {a : A} {p : Nat} (h : c.getParent t = .id p) : ∃ a', f.gather c t a = (.id p, a') :=
  ⟨(f.gather c t a).2, by rw [← h, ← hf c t a]⟩

theorem walkSourceT_out (R : Render) (hw : WF D b) {f : Accum X A}
    (hf : ∀ c t a, (f.gather c t a).1 = c.getParent t) {src tgt : Nat} (k : Nat) :
    ∀ (frame : Nat) (a : A) (chain : List Nat) (loc : Option Name) (x : X) (n : Nat),
      Chain b t src frame x n → frame ≠ 0 →
      Out1 R b t src (n + k) loc (b.walkSourceT R f t tgt k frame a chain loc)
        (b.walkSource f t tgt k frame a chain) := by
  induction k with
  | zero =>
    intro frame a chain loc x n hch h0
    cases hc : b.getFrame frame with
    | none =>
      rw [walkSource_none h0 hc]; unfold Buf.walkSourceT
      simp only [h0, hc, if_false]
      exact .root hch hc
    | some c =>
      rcases textStep (t := t) R hw hc loc with ⟨h1, p, y, h2, h3⟩ | ⟨e', h1, h2, h3, h4⟩ | ⟨old, s, h1, h2, h3, h4⟩
      · obtain ⟨a', hg⟩ := gather_eq hf (a := a) h2
        by_cases ht : frame = tgt
        · rw [walkSource_early h0 hc hg ht]; unfold Buf.walkSourceT
          simp only [h0, hc, if_false, h1, hg]
          rw [if_pos ht]
          exact .early
        · rw [walkSource_deep h0 hc hg ht]; unfold Buf.walkSourceT
          simp only [h0, hc, if_false, h1, hg, ht]
          exact .deep (.snoc hch h3)
      · obtain ⟨a', hg⟩ := gather_eq hf (a := a) h2
        rw [walkSource_fail h0 hc hg]; unfold Buf.walkSourceT
        simp only [h0, hc, if_false, h1, hg]
        exact .stop hch hc h3 h4
      · unfold Buf.walkSourceT
        simp only [h0, hc, if_false, h2]
        exact .threw (by rw [h1]; simp) ⟨frame, x, n, c, s, hch, hc, h3, h4⟩
  | succ k ih =>
    intro frame a chain loc x n hch h0
    cases hc : b.getFrame frame with
    | none =>
      rw [walkSource_none h0 hc]; unfold Buf.walkSourceT
      simp only [h0, hc, if_false]
      exact .root hch hc
    | some c =>
      rcases textStep (t := t) R hw hc loc with ⟨h1, p, y, h2, h3⟩ | ⟨e', h1, h2, h3, h4⟩ | ⟨old, s, h1, h2, h3, h4⟩
      · obtain ⟨a', hg⟩ := gather_eq hf (a := a) h2
        by_cases ht : frame = tgt
        · rw [walkSource_early h0 hc hg ht]; unfold Buf.walkSourceT
          simp only [h0, hc, if_false, h1, hg]
          rw [if_pos ht]
          exact .early
        · rw [walkSource_step h0 hc hg ht]; unfold Buf.walkSourceT
          simp only [h0, hc, if_false, h1, hg, ht]
          have := ih (p + 1) (f.accum true a') (chain ++ [frame]) loc _ _ (.snoc hch h3) (by omega)
          rwa [show n + 1 + k = n + (k + 1) by omega] at this
      · obtain ⟨a', hg⟩ := gather_eq hf (a := a) h2
        rw [walkSource_fail h0 hc hg]; unfold Buf.walkSourceT
        simp only [h0, hc, if_false, h1, hg]
        exact .stop hch hc h3 h4
      · unfold Buf.walkSourceT
        simp only [h0, hc, if_false, h2]
        exact .threw (by rw [h1]; simp) ⟨frame, x, n, c, s, hch, hc, h3, h4⟩

/-- The second loop with text against the second loop without. -/
inductive Out2 (R : Render) (b : Buf X) (t : Time) (tgt bound top : Nat) (e : Option Name) :
    Loop2T A → Loop2 A → Prop where
  | top {a : A} {rev : List Nat} : Out2 R b t tgt bound top e (.exit top a rev e) (.exit top a rev)
  | root {fr : Nat} {a : A} {rev : List Nat} {x : X} {n : Nat} : Chain b t tgt fr x n → fr ≠ top →
      b.getFrame fr = none → Out2 R b t tgt bound top e (.exit fr a rev e) (.exit fr a rev)
  | stop {fr : Nat} {x : X} {n : Nat} {c : Cache X} {e' : Option Name} :
      Chain b t tgt fr x n → b.getFrame fr = some c → (¬ ∃ p e, ParentAt b t fr p e) →
      Ended R c t e e' → Out2 R b t tgt bound top e (.extrap e') .extrap
  | early {a : A} {rev : List Nat} : Out2 R b t tgt bound top e (.early a rev e) (.early a rev)
  | deep {c : Nat} {x : X} : Chain b t tgt c x (bound + 1) →
      Out2 R b t tgt bound top e (.tooDeep e) .tooDeep
  | threw {r : Loop2 A} : e ≠ none → FarOn b t tgt → Out2 R b t tgt bound top e (.threw e) r

theorem walkTargetT_out (R : Render) (hw : WF D b) {f : Accum X A}
    (hf : ∀ c t a, (f.gather c t a).1 = c.getParent t) {src tgt top : Nat} (k : Nat) :
    ∀ (frame : Nat) (a : A) (rev : List Nat) (e : Option Name) (x : X) (n : Nat),
      Chain b t tgt frame x n →
      Out2 R b t tgt (n + k) top e (b.walkTargetT R f t src top k frame a rev e)
        (b.walkTarget f t src top k frame a rev) := by
  induction k with
  | zero =>
    intro frame a rev e x n hch
    by_cases h0 : frame = top
    · subst h0; rw [walkTarget_top]; unfold Buf.walkTargetT; simp only [if_true]; exact .top
    cases hc : b.getFrame frame with
    | none =>
      rw [walkTarget_none h0 hc]; unfold Buf.walkTargetT
      simp only [h0, hc, if_false]
      exact .root hch h0 hc
    | some c =>
      rcases textStep (t := t) R hw hc e with ⟨h1, p, y, h2, h3⟩ | ⟨e', h1, h2, h3, h4⟩ | ⟨old, s, h1, h2, h3, h4⟩
      · obtain ⟨a', hg⟩ := gather_eq hf (a := a) h2
        by_cases ht : frame = src
        · rw [walkTarget_early h0 hc hg ht]; unfold Buf.walkTargetT
          simp only [h0, hc, if_false, h1, hg]
          rw [if_pos ht]
          exact .early
        · rw [walkTarget_deep h0 hc hg ht]; unfold Buf.walkTargetT
          simp only [h0, hc, if_false, h1, hg, ht]
          exact .deep (.snoc hch h3)
      · obtain ⟨a', hg⟩ := gather_eq hf (a := a) h2
        rw [walkTarget_fail h0 hc hg]; unfold Buf.walkTargetT
        simp only [h0, hc, if_false, h1, hg]
        exact .stop hch hc h3 h4
      · unfold Buf.walkTargetT
        simp only [h0, hc, if_false, h2]
        exact .threw (by rw [h1]; simp) ⟨frame, x, n, c, s, hch, hc, h3, h4⟩
  | succ k ih =>
    intro frame a rev e x n hch
    by_cases h0 : frame = top
    · subst h0; rw [walkTarget_top]; unfold Buf.walkTargetT; simp only [if_true]; exact .top
    cases hc : b.getFrame frame with
    | none =>
      rw [walkTarget_none h0 hc]; unfold Buf.walkTargetT
      simp only [h0, hc, if_false]
      exact .root hch h0 hc
    | some c =>
      rcases textStep (t := t) R hw hc e with ⟨h1, p, y, h2, h3⟩ | ⟨e', h1, h2, h3, h4⟩ | ⟨old, s, h1, h2, h3, h4⟩
      · obtain ⟨a', hg⟩ := gather_eq hf (a := a) h2
        by_cases ht : frame = src
        · rw [walkTarget_early h0 hc hg ht]; unfold Buf.walkTargetT
          simp only [h0, hc, if_false, h1, hg]
          rw [if_pos ht]
          exact .early
        · rw [walkTarget_step h0 hc hg ht]; unfold Buf.walkTargetT
          simp only [h0, hc, if_false, h1, hg, ht]
          have := ih (p + 1) (f.accum false a') (rev ++ [frame]) e _ _ (.snoc hch h3)
          rwa [show n + 1 + k = n + (k + 1) by omega] at this
      · obtain ⟨a', hg⟩ := gather_eq hf (a := a) h2
        rw [walkTarget_fail h0 hc hg]; unfold Buf.walkTargetT
        simp only [h0, hc, if_false, h1, hg]
        exact .stop hch hc h3 h4
      · unfold Buf.walkTargetT
        simp only [h0, hc, if_false, h2]
        exact .threw (by rw [h1]; simp) ⟨frame, x, n, c, s, hch, hc, h3, h4⟩


/-! ### The walk -/

theorem lookupFrameString_isFrame (hw : WF D b) {n : Name} {i : Nat} (h : IsFrame b n i) :
    b.lookupFrameString i = .ok n := by
  have := (hw.ids n i).1 h.2
  simp only [Buf.lookupFrameString, this]

theorem apart_split :
    "' because they are not part of the same tree.Tf has two or more unconnected trees.".toList =
      "' because they are not part of the same tree.".toList ++ "Tf has two or more unconnected trees.".toList :=
  by decide

theorem assoc_six (a b c d e f : Name) : a ++ b ++ c ++ d ++ e ++ f = a ++ (b ++ c ++ d ++ e ++ f) := by
  simp only [List.append_assoc]

theorem connectivityText_eq (hw : WF D b) {target source : Name} {g s : Nat} (hg : IsFrame b target g)
    (hs : IsFrame b source s) : b.connectivityText s g = .ok (apartText target source) := by
  unfold Buf.connectivityText apartText
  rw [lookupFrameString_isFrame hw hg, lookupFrameString_isFrame hw hs, apart_split]
  dsimp only
  rw [List.append_assoc (_ ++ source)]

theorem loopText_eq (hr : Reachable D b) : ∃ L, b.allFrames = .ok L ∧ b.loopText = .ok (deepText L) := by
  obtain ⟨L, h, _⟩ := C36_all_frames hr
  refine ⟨L, h, ?_⟩
  unfold Buf.loopText deepText
  rw [h]
  unfold Buf.listingText
  dsimp only

theorem whenLookingUp_eq (hw : WF D b) {target source : Name} {g s : Nat} (hg : IsFrame b target g)
    (hs : IsFrame b source s) (reason : Name) :
    b.whenLookingUp reason s g = .ok ((cstr reason ++ whenText target source).take 999) := by
  unfold Buf.whenLookingUp whenText snprintf
  rw [lookupFrameString_isFrame hw hg, lookupFrameString_isFrame hw hs]
  dsimp only
  rw [assoc_six]

/-- A walk with text against the walk without. -/
inductive WalkOut (R : Render) (b : Buf X) (t : Time) (target source : Name) (g s : Nat) (e : Option Name) :
    WalkT A → WalkRes A → Prop where
  | done {a : A} {ch : List Nat} : WalkOut R b t target source g s e (.done a ch e) (.done a ch)
  | quiet {c : Code} : e = none → WalkOut R b t target source g s e (.err c none) (.err c)
  | said {c : Code} {old w : Name} : e = some old →
      (Fits R → Explains R b t target source old (Buf.codeExc c) w) →
      WalkOut R b t target source g s e (.err c (some w)) (.err c)
  | threw {r : WalkRes A} : e ≠ none → FarOn b t g ∨ FarOn b t s →
      WalkOut R b t target source g s e (.throw .runtime e) r

theorem WalkOut.saying {R : Render} {target source : Name} {g s : Nat} {e : Option Name} {c : Code}
    {w : Name → Res Name}
    (h : ∀ old, e = some old → ∃ v, w old = .ok v ∧
      (Fits R → Explains R b t target source old (Buf.codeExc c) v)) :
    WalkOut (A := A) R b t target source g s e (.say c w e) (.err c) := by
  cases e with
  | none => exact .quiet rfl
  | some old =>
    obtain ⟨v, h1, h2⟩ := h old rfl
    simp only [WalkT.say, h1]
    exact .said rfl h2

theorem walkAtT_out (R : Render) (hr : Reachable D b) {f : Accum X A}
    (hf : ∀ c t a, (f.gather c t a).1 = c.getParent t) {target source : Name} {g s : Nat}
    (hg : IsFrame b target g) (hs : IsFrame b source s) (a : A) (e : Option Name) :
    WalkOut R b t target source g s e (b.walkAtT R f a t g s e) (b.walkAt f a t g s) := by
  have hw := hr.wf
  have h1 := walkSourceT_out (t := t) R hw hf (src := s) (tgt := g) maxGraphDepth s a []
    (e.map fun _ => []) Rigid.one 0 .refl hs.1
  have hch := walkSource_chain b f t g maxGraphDepth s a []
  unfold Buf.walkAtT Buf.walkAt
  generalize b.walkSourceT R f t g maxGraphDepth s a [] (e.map fun _ => []) = r1 at h1
  generalize b.walkSource f t g maxGraphDepth s a [] = q1 at h1 hch
  obtain ⟨L, hL, hloop⟩ := loopText_eq hr
  have bound : 0 + maxGraphDepth = 1000 := rfl
  rw [bound] at h1
  -- the part after the first loop
  have second : ∀ (top : Nat) (ex : Bool) (a1 : A) (ch : List Nat) (loc : Option Name),
      q1 = .exit top ex a1 ch →
      (∃ x n, Chain b t s top x n ∧ ((ex = false ∧ b.getFrame top = none) ∨
        (ex = true ∧ ∃ c, b.getFrame top = some c ∧ Ended R c t (e.map fun _ => []) loc))) →
      WalkOut R b t target source g s e
        (match b.walkTargetT R f t s top maxGraphDepth g a1 [] e with
          | .ub => .ub
          | .threw e => .throw .runtime e
          | .tooDeep e => .say .lookup (fun _ => b.loopText) e
          | .extrap e => .say .extrapolation (fun old => b.whenLookingUp old s g) e
          | .early a rev e => .done a rev.reverse e
          | .exit frame a rev e =>
            if frame = top then
              match pruneChain ch (rev ++ [frame]) with
              | some ch => .done (f.finalize .fullPath t a) ch e
              | none => .ub
            else if ex then .say .extrapolation (fun _ => b.whenLookingUp (loc.getD []) s g) e
            else .say .connectivity (fun _ => b.connectivityText s g) e)
        (match b.walkTarget f t s top maxGraphDepth g a1 [] with
          | .ub => .ub
          | .tooDeep => .err .lookup
          | .extrap => .err .extrapolation
          | .early a rev => .done a rev.reverse
          | .exit frame a rev =>
            if frame = top then
              match pruneChain ch (rev ++ [frame]) with
              | some ch => .done (f.finalize .fullPath t a) ch
              | none => .ub
            else if ex then .err .extrapolation else .err .connectivity) := by
    intro top ex a1 ch loc hq ⟨x, n, hsc, hex⟩
    have h2 := walkTargetT_out (t := t) R hw hf (src := s) (tgt := g) (top := top) maxGraphDepth g a1 [] e
      Rigid.one 0 .refl
    generalize b.walkTargetT R f t s top maxGraphDepth g a1 [] e = r2 at h2
    generalize b.walkTarget f t s top maxGraphDepth g a1 [] = q2 at h2
    rw [bound] at h2
    cases h2 with
    | @top a2 rev =>
      simp only [if_true]
      have hp := pruneChain_some (chain := ch) (rev := rev) (x := top) (by
        rcases hch _ _ _ _ hq with ⟨h, _⟩ | h
        · exact absurd h hs.1
        · exact Or.inr h)
      cases hpc : pruneChain ch (rev ++ [top]) with
      | none => rw [hpc] at hp; cases hp
      | some l => exact .done
    | @root fr a2 rev y m htc hne hno =>
      simp only [hne, if_false]
      rcases hex with ⟨rfl, hnone⟩ | ⟨rfl, c, hc, hend⟩
      · simp only [Bool.false_eq_true, if_false]
        refine .saying fun old _ => ⟨_, connectivityText_eq hw hg hs, fun _ => ?_⟩
        exact .apart hg hs ⟨⟨_, hsc⟩, no_parent_of_no_cache hnone⟩ ⟨⟨_, htc⟩, no_parent_of_no_cache hno⟩
          (Ne.symm hne) hnone hno
      · simp only [if_true]
        refine .saying fun old ho => ⟨_, whenLookingUp_eq hw hg hs _, fun hR => ?_⟩
        subst ho
        rcases hend with ⟨h3, h4⟩ | ⟨h3, _⟩ | ⟨old', w, h3, h4, h5⟩
        · rw [h3]
          exact .silentSource hs hsc hc h4
        · cases h3
        · subst h4
          simp only [Option.getD_some]
          rw [(h5 hR).clean hR]
          exact .outside (Or.inr rfl) hs hsc hc (h5 hR)
    | @stop fr y m c e' htc hc hno hend =>
      simp only
      rcases hend with ⟨rfl, h4⟩ | ⟨h3, h4⟩ | ⟨old', w, h3, h4, h5⟩
      · refine .saying fun old ho => ⟨_, whenLookingUp_eq hw hg hs _, fun hR => ?_⟩
        exact .silentTarget hg htc hc h4
      · subst h3 h4; exact .quiet rfl
      · subst h3 h4
        simp only [WalkT.say, whenLookingUp_eq hw hg hs]
        refine .said rfl fun hR => ?_
        rw [(h5 hR).clean hR]
        exact .outside (Or.inl rfl) hg htc hc (h5 hR)
    | early => exact .done
    | deep h =>
      exact .saying fun old _ => ⟨_, hloop, fun _ => .deep (Or.inl rfl) hg h (by omega) hL⟩
    | threw h3 h4 => exact .threw h3 (Or.inl h4)
  cases h1 with
  | root h2 h3 => exact second _ _ _ _ _ rfl ⟨_, _, h2, Or.inl ⟨rfl, h3⟩⟩
  | stop h2 h3 h4 h5 => exact second _ _ _ _ _ rfl ⟨_, _, h2, Or.inr ⟨rfl, _, h3, h5⟩⟩
  | early => exact .done
  | deep h => exact .saying fun old _ => ⟨_, hloop, fun _ => .deep (Or.inr rfl) hs h (by omega) hL⟩
  | threw h3 h4 =>
    refine .threw ?_ (Or.inr h4)
    intro h; rw [h] at h3; exact h3 rfl


/-! ### The latest common time -/

/-- How the first loop of `getLatestCommonTime` can end without an answer. -/
theorem lctSource_ends (hw : WF D b) {tgt : Nat} (k : Nat) :
    ∀ (frame : Nat) (common : Time) (lct : List (Time × Nat)), frame ≠ 0 →
      (∀ lct', b.lctSource tgt k frame common lct = .exit lct' →
        ∃ r l, NewestPath b frame r l ∧ l.length ≤ k ∧ (¬ ∃ p s, NewestEdge b r p s) ∧ lct' = lct ++ l ∧
          ∀ e ∈ l, e.2 ≠ tgt) ∧
      (b.lctSource tgt k frame common lct = .tooDeep → ∃ c l, NewestPath b frame c l ∧ l.length = k + 1) := by
  have noCache : ∀ {f : Nat}, b.getFrame f = none → ¬ ∃ p s, NewestEdge b f p s := by
    rintro f h ⟨p, s, _, c, e, h1, _⟩; rw [h] at h1; cases h1
  induction k with
  | zero =>
    intro frame common lct h0
    unfold Buf.lctSource
    rw [if_neg h0]
    cases hc : b.getFrame frame with
    | none =>
      refine ⟨fun lct' h => ?_, fun h => by cases h⟩
      cases h
      exact ⟨frame, [], .nil _, by simp, noCache hc, by simp, by simp⟩
    | some c =>
      rcases latest_cases hw hc with ⟨s, h1, h2⟩ | ⟨s, p, h1, h2⟩
      · simp only [h1]
        refine ⟨fun lct' h => ?_, fun h => by cases h⟩
        cases h
        exact ⟨frame, [], .nil _, by simp, h2, by simp, by simp⟩
      · simp only [h1]
        by_cases ht : p + 1 = tgt
        · rw [if_pos ht]
          exact ⟨fun _ h => (by cases h), fun h => (by cases h)⟩
        · rw [if_neg ht]
          exact ⟨fun _ h => (by cases h), fun _ => ⟨p + 1, [(s, p + 1)], .cons h2 (.nil _), rfl⟩⟩
  | succ k ih =>
    intro frame common lct h0
    unfold Buf.lctSource
    rw [if_neg h0]
    cases hc : b.getFrame frame with
    | none =>
      refine ⟨fun lct' h => ?_, fun h => by cases h⟩
      cases h
      exact ⟨frame, [], .nil _, by simp, noCache hc, by simp, by simp⟩
    | some c =>
      rcases latest_cases hw hc with ⟨s, h1, h2⟩ | ⟨s, p, h1, h2⟩
      · simp only [h1]
        refine ⟨fun lct' h => ?_, fun h => by cases h⟩
        cases h
        exact ⟨frame, [], .nil _, by simp, h2, by simp, by simp⟩
      · simp only [h1]
        by_cases ht : p + 1 = tgt
        · rw [if_pos ht]
          exact ⟨fun _ h => (by cases h), fun h => (by cases h)⟩
        · rw [if_neg ht]
          obtain ⟨i1, i2⟩ := ih (p + 1) (minNonzero s common) (lct ++ [(s, p + 1)]) (by omega)
          refine ⟨fun lct' h => ?_, fun h => ?_⟩
          · obtain ⟨r, l, j1, j2, j3, j4, j5⟩ := i1 lct' h
            refine ⟨r, (s, p + 1) :: l, .cons h2 j1, by simp; omega, j3, by simp [j4], ?_⟩
            intro e he
            rcases List.mem_cons.1 he with rfl | he
            · exact ht
            · exact j5 e he
          · obtain ⟨c', l, j1, j2⟩ := i2 h
            exact ⟨c', (s, p + 1) :: l, .cons h2 j1, by simp [j2]⟩

/-- How the second loop of `getLatestCommonTime` can end without an answer. -/
theorem lctTarget_ends (hw : WF D b) {src : Nat} {lct : List (Time × Nat)} (k : Nat) :
    ∀ (frame : Nat) (common : Time),
      (∀ cm, b.lctTarget src lct k frame common = .exit 0 cm →
        ∃ r l, NewestPath b frame r l ∧ l.length ≤ k ∧ (¬ ∃ p s, NewestEdge b r p s) ∧
          ∀ e ∈ l, e.2 ≠ src ∧ ∀ e' ∈ lct, e'.2 ≠ e.2) ∧
      (b.lctTarget src lct k frame common = .tooDeep → ∃ c l, NewestPath b frame c l ∧ l.length = k + 1) := by
  have noCache : ∀ {f : Nat}, b.getFrame f = none → ¬ ∃ p s, NewestEdge b f p s := by
    rintro f h ⟨p, s, _, c, e, h1, _⟩; rw [h] at h1; cases h1
  have hany : ∀ p, lct.any (fun e => e.2 = p) = false → ∀ e' ∈ lct, e'.2 ≠ p := by
    intro p h e' he'
    rw [List.any_eq_false] at h
    simpa using h e' he'
  induction k with
  | zero =>
    intro frame common
    unfold Buf.lctTarget
    cases hc : b.getFrame frame with
    | none =>
      exact ⟨fun cm h => ⟨frame, [], .nil _, by simp, noCache hc, by simp⟩, fun h => by cases h⟩
    | some c =>
      rcases latest_cases hw hc with ⟨s, h1, h2⟩ | ⟨s, p, h1, h2⟩
      · simp only [h1]
        exact ⟨fun cm h => ⟨frame, [], .nil _, by simp, h2, by simp⟩, fun h => by cases h⟩
      · simp only [h1]
        cases ha : lct.any (fun e => decide (e.2 = p + 1)) with
        | true =>
          rw [if_pos rfl]
          exact ⟨fun _ h => (by cases h), fun h => (by cases h)⟩
        | false =>
          rw [if_neg (by simp)]
          by_cases ht : p + 1 = src
          · rw [if_pos ht]
            exact ⟨fun _ h => (by cases h), fun h => (by cases h)⟩
          · rw [if_neg ht]
            exact ⟨fun _ h => (by cases h), fun _ => ⟨p + 1, [(s, p + 1)], .cons h2 (.nil _), rfl⟩⟩
  | succ k ih =>
    intro frame common
    unfold Buf.lctTarget
    cases hc : b.getFrame frame with
    | none =>
      exact ⟨fun cm h => ⟨frame, [], .nil _, by simp, noCache hc, by simp⟩, fun h => by cases h⟩
    | some c =>
      rcases latest_cases hw hc with ⟨s, h1, h2⟩ | ⟨s, p, h1, h2⟩
      · simp only [h1]
        exact ⟨fun cm h => ⟨frame, [], .nil _, by simp, h2, by simp⟩, fun h => by cases h⟩
      · simp only [h1]
        cases ha : lct.any (fun e => decide (e.2 = p + 1)) with
        | true =>
          rw [if_pos rfl]
          exact ⟨fun _ h => (by cases h), fun h => (by cases h)⟩
        | false =>
          rw [if_neg (by simp)]
          by_cases ht : p + 1 = src
          · rw [if_pos ht]
            exact ⟨fun _ h => (by cases h), fun h => (by cases h)⟩
          · rw [if_neg ht]
            obtain ⟨i1, i2⟩ := ih (p + 1) (minNonzero s common)
            refine ⟨fun cm h => ?_, fun h => ?_⟩
            · obtain ⟨r, l, j1, j2, j3, j5⟩ := i1 cm h
              refine ⟨r, (s, p + 1) :: l, .cons h2 j1, by simp; omega, j3, ?_⟩
              intro e he
              rcases List.mem_cons.1 he with rfl | he
              · exact ⟨ht, hany _ ha⟩
              · exact j5 e he
            · obtain ⟨c', l, j1, j2⟩ := i2 h
              exact ⟨c', (s, p + 1) :: l, .cons h2 j1, by simp [j2]⟩

theorem NewestPath.last_mem {a c : Nat} {l : List (Time × Nat)} (h : NewestPath b a c l) (hl : l ≠ []) :
    ∃ s, (s, c) ∈ l := by
  obtain ⟨l', s, rfl⟩ := h.end_mem hl
  exact ⟨s, by simp⟩

/-- The latest common time with text against the one without. -/
inductive LctOut (R : Render) (b : Buf X) (target source : Name) (e : Option Name) :
    LctT → LctRes → Prop where
  | ok {t : Time} : LctOut R b target source e (.ok t e) (.ok t)
  | quiet {c : Code} : e = none → LctOut R b target source e (.err c none) (.err c)
  | said {c : Code} {old w : Name} : e = some old →
      (∀ {old}, ExplainsLatest R b target source old (Buf.codeExc c) w) →
      LctOut R b target source e (.err c (some w)) (.err c)

theorem LctOut.saying {R : Render} {target source : Name} {e : Option Name} {c : Code} {v : Name}
    (h : ∀ {old}, ExplainsLatest R b target source old (Buf.codeExc c) v) :
    LctOut R b target source e (.say c (.ok v) e) (.err c) := by
  cases e with
  | none => exact .quiet rfl
  | some old => exact .said rfl h

theorem latestCommonTimeT_out (R : Render) (hr : Reachable D b) {target source : Name} {g s : Nat}
    (hg : IsFrame b target g) (hs : IsFrame b source s) (hne : s ≠ g) (e : Option Name) :
    LctOut R b target source e (b.latestCommonTimeT g s e) (b.latestCommonTime g s) := by
  have hw := hr.wf
  obtain ⟨L, hL, hloop⟩ := loopText_eq hr
  unfold Buf.latestCommonTimeT Buf.latestCommonTime
  have h0 : ¬ (s = 0 ∨ g = 0) := fun h => h.elim hs.1 hg.1
  rw [if_neg h0, if_neg h0, if_neg hne, if_neg hne]
  have hub1 := lctSource_ne_ub hw g maxGraphDepth s TIME_MAX []
  obtain ⟨e1, d1⟩ := lctSource_ends hw (tgt := g) maxGraphDepth s TIME_MAX [] hs.1
  generalize b.lctSource g maxGraphDepth s TIME_MAX [] = r1 at hub1 e1 d1
  cases r1 with
  | ub => exact absurd rfl hub1
  | early t => exact .ok
  | tooDeep =>
    simp only [hloop]
    obtain ⟨c, l, p1, p2⟩ := d1 rfl
    exact .saying (.deep (Or.inr rfl) hs p1 (by rw [p2]; exact Nat.lt_succ_self 1000) hL)
  | exit lct =>
    obtain ⟨r, l, p1, p2, p3, p4, p5⟩ := e1 lct rfl
    rw [List.nil_append] at p4
    subst p4
    simp only
    have hub2 := lctTarget_ne_ub hw s lct maxGraphDepth g TIME_MAX
    obtain ⟨e2, d2⟩ := lctTarget_ends hw (src := s) (lct := lct) maxGraphDepth g TIME_MAX
    generalize b.lctTarget s lct maxGraphDepth g TIME_MAX = r2 at hub2 e2 d2
    cases r2 with
    | ub => exact absurd rfl hub2
    | early t => exact .ok
    | tooDeep =>
      simp only [hloop]
      obtain ⟨c, l, q1, q2⟩ := d2 rfl
      exact .saying (.deep (Or.inl rfl) hg q1 (by rw [q2]; exact Nat.lt_succ_self 1000) hL)
    | exit cp common =>
      cases cp with
      | succ p => exact .ok
      | zero =>
        obtain ⟨r', l', q1, q2, q3, q4⟩ := e2 common rfl
        simp only [connectivityText_eq hw hg hs]
        refine .saying (.apart hg hs ⟨⟨_, p1, p2⟩, p3⟩ ⟨⟨_, q1, q2⟩, q3⟩ ?_)
        intro hrr
        subst hrr
        cases l' with
        | nil =>
          cases q1
          cases lct with
          | nil => cases p1; exact hne rfl
          | cons a rest =>
            obtain ⟨st, hm⟩ := NewestPath.last_mem p1 (by simp)
            exact p5 _ hm rfl
        | cons a' rest' =>
          obtain ⟨st', hm'⟩ := NewestPath.last_mem q1 (by simp)
          cases lct with
          | nil => cases p1; exact (q4 _ hm').1 rfl
          | cons a rest =>
            obtain ⟨st, hm⟩ := NewestPath.last_mem p1 (by simp)
            exact (q4 _ hm').2 _ hm rfl


/-- A walk at any time with text against the walk without. -/
inductive AnyOut (R : Render) (b : Buf X) (t : Time) (target source : Name) (g s : Nat) (e : Option Name) :
    WalkT A → WalkRes A → Prop where
  | done {a : A} {ch : List Nat} : AnyOut R b t target source g s e (.done a ch e) (.done a ch)
  | quiet {c : Code} : e = none → AnyOut R b t target source g s e (.err c none) (.err c)
  | said {c : Code} {old w : Name} : e = some old →
      (Fits R → ExplainsAny R b t target source old (Buf.codeExc c) w) →
      AnyOut R b t target source g s e (.err c (some w)) (.err c)
  | threw {r : WalkRes A} {t' : Time} : e ≠ none → AboutTime b g s t t' →
      FarOn b t' g ∨ FarOn b t' s → AnyOut R b t target source g s e (.throw .runtime e) r

theorem walkT_out (R : Render) (hr : Reachable D b) {f : Accum X A}
    (hf : ∀ c t a, (f.gather c t a).1 = c.getParent t) {target source : Name} {g s : Nat}
    (hg : IsFrame b target g) (hs : IsFrame b source s) (hne : s ≠ g) (a : A) (e : Option Name) :
    AnyOut R b t target source g s e (b.walkT R f a t g s e) (b.walk f a t g s) := by
  unfold Buf.walkT Buf.walk
  rw [if_neg hne, if_neg hne]
  by_cases ht : t = 0
  · rw [if_pos ht, if_pos ht]
    have h1 := latestCommonTimeT_out R hr hg hs hne e
    generalize hq : b.latestCommonTime g s = q at h1
    generalize b.latestCommonTimeT g s e = r at h1
    cases h1 with
    | quiet h => exact .quiet h
    | said h1 h2 => exact .said h1 (fun _ => by unfold ExplainsAny; rw [if_pos ht]; exact h2)
    | @ok t' =>
      simp only
      have h2 := walkAtT_out (t := t') R hr hf hg hs a e
      generalize b.walkAtT R f a t' g s e = r2 at h2
      generalize b.walkAt f a t' g s = q2 at h2
      cases h2 with
      | done => exact .done
      | quiet h => exact .quiet h
      | said h1 h2 =>
        exact .said h1 (fun hR => by
          unfold ExplainsAny; rw [if_pos ht]; exact .common hg hs hq (h2 hR))
      | threw h1 h2 => exact .threw h1 (Or.inr ⟨ht, hq⟩) h2
  · rw [if_neg ht, if_neg ht]
    have h2 := walkAtT_out (t := t) R hr hf hg hs a e
    generalize b.walkAtT R f a t g s e = r2 at h2
    generalize b.walkAt f a t g s = q2 at h2
    cases h2 with
    | done => exact .done
    | quiet h => exact .quiet h
    | said h1 h2 => exact .said h1 (fun hR => by unfold ExplainsAny; rw [if_neg ht]; exact h2 hR)
    | threw h1 h2 => exact .threw h1 (Or.inl ⟨ht, rfl⟩) h2

theorem transformAccum_parent (c : Cache X) (t : Time) (a : TAcc X) :
    (transformAccum.gather c t a).1 = c.getParent t := gather_same c t a ()

theorem canAccum_parent (c : Cache X) (t : Time) (a : Unit) :
    ((canAccum (X := X)).gather c t a).1 = c.getParent t := rfl

end


/-! ### The text does not depend on the accumulator -/

section
variable {A' : Type} {f : Accum X A} {f' : Accum X A'}
  (hf : ∀ c t a, (f.gather c t a).1 = c.getParent t) (hf' : ∀ c t a, (f'.gather c t a).1 = c.getParent t)

/-- Same exit, up to the accumulator. -/
inductive Alike1 : Loop1T A → Loop1T A' → Prop where
  | exit {top ex a a' ch loc} : Alike1 (.exit top ex a ch loc) (.exit top ex a' ch loc)
  | early {a a' ch} : Alike1 (.early a ch) (.early a' ch)
  | tooDeep : Alike1 .tooDeep .tooDeep
  | threw : Alike1 .threw .threw
  | ub : Alike1 .ub .ub

inductive Alike2 : Loop2T A → Loop2T A' → Prop where
  | exit {fr a a' ch e} : Alike2 (.exit fr a ch e) (.exit fr a' ch e)
  | extrap {e} : Alike2 (.extrap e) (.extrap e)
  | early {a a' ch e} : Alike2 (.early a ch e) (.early a' ch e)
  | tooDeep {e} : Alike2 (.tooDeep e) (.tooDeep e)
  | threw {e} : Alike2 (.threw e) (.threw e)
  | ub : Alike2 .ub .ub

inductive AlikeW : WalkT A → WalkT A' → Prop where
  | done {a a' ch e} : AlikeW (.done a ch e) (.done a' ch e)
  | err {c e} : AlikeW (.err c e) (.err c e)
  | throw {x e} : AlikeW (.throw x e) (.throw x e)
  | ub : AlikeW .ub .ub

theorem AlikeW.say {c : Code} {w : Name → Res Name} {e : Option Name} :
    AlikeW (A := A) (A' := A') (.say c w e) (.say c w e) := by
  cases e with
  | none => exact .err
  | some old =>
    simp only [WalkT.say]
    cases w old
    · exact .err
    · exact .throw
    · exact .ub

include hf hf'

theorem gather_pair (c : Cache X) (t : Time) (a : A) (a' : A') :
    ∃ r x x', f.gather c t a = (r, x) ∧ f'.gather c t a' = (r, x') :=
  ⟨c.getParent t, (f.gather c t a).2, (f'.gather c t a').2, by rw [← hf c t a], by rw [← hf' c t a']⟩

theorem walkSourceT_alike (R : Render) (b : Buf X) (t : Time) (tgt k : Nat) :
    ∀ (frame : Nat) (a : A) (a' : A') (chain : List Nat) (loc : Option Name),
      Alike1 (b.walkSourceT R f t tgt k frame a chain loc) (b.walkSourceT R f' t tgt k frame a' chain loc) := by
  induction k with
  | zero =>
    intro frame a a' chain loc
    unfold Buf.walkSourceT
    by_cases h0 : frame = 0
    · simp only [h0, if_true]; exact .exit
    · simp only [h0, if_false]
      cases b.getFrame frame with
      | none => exact .exit
      | some c =>
        simp only
        cases c.text R t loc with
        | none => exact .threw
        | some l =>
          obtain ⟨r, x, x', h1, h2⟩ := gather_pair hf hf' c t a a'
          simp only [h1, h2]
          cases r with
          | ub => exact .ub
          | id p =>
            cases p with
            | zero => exact .exit
            | succ p =>
              simp only
              by_cases ht : frame = tgt
              · simp only [ht, if_true]; exact .early
              · simp only [ht, if_false]; exact .tooDeep
  | succ k ih =>
    intro frame a a' chain loc
    unfold Buf.walkSourceT
    by_cases h0 : frame = 0
    · simp only [h0, if_true]; exact .exit
    · simp only [h0, if_false]
      cases b.getFrame frame with
      | none => exact .exit
      | some c =>
        simp only
        cases c.text R t loc with
        | none => exact .threw
        | some l =>
          obtain ⟨r, x, x', h1, h2⟩ := gather_pair hf hf' c t a a'
          simp only [h1, h2]
          cases r with
          | ub => exact .ub
          | id p =>
            cases p with
            | zero => exact .exit
            | succ p =>
              simp only
              by_cases ht : frame = tgt
              · simp only [ht, if_true]; exact .early
              · simp only [ht, if_false]; exact ih _ _ _ _ _

theorem walkTargetT_alike (R : Render) (b : Buf X) (t : Time) (src top k : Nat) :
    ∀ (frame : Nat) (a : A) (a' : A') (rev : List Nat) (e : Option Name),
      Alike2 (b.walkTargetT R f t src top k frame a rev e) (b.walkTargetT R f' t src top k frame a' rev e) := by
  induction k with
  | zero =>
    intro frame a a' rev e
    unfold Buf.walkTargetT
    by_cases h0 : frame = top
    · simp only [h0, if_true]; exact .exit
    · simp only [h0, if_false]
      cases b.getFrame frame with
      | none => exact .exit
      | some c =>
        simp only
        cases c.text R t e with
        | none => exact .threw
        | some l =>
          obtain ⟨r, x, x', h1, h2⟩ := gather_pair hf hf' c t a a'
          simp only [h1, h2]
          cases r with
          | ub => exact .ub
          | id p =>
            cases p with
            | zero => exact .extrap
            | succ p =>
              simp only
              by_cases ht : frame = src
              · simp only [ht, if_true]; exact .early
              · simp only [ht, if_false]; exact .tooDeep
  | succ k ih =>
    intro frame a a' rev e
    unfold Buf.walkTargetT
    by_cases h0 : frame = top
    · simp only [h0, if_true]; exact .exit
    · simp only [h0, if_false]
      cases b.getFrame frame with
      | none => exact .exit
      | some c =>
        simp only
        cases c.text R t e with
        | none => exact .threw
        | some l =>
          obtain ⟨r, x, x', h1, h2⟩ := gather_pair hf hf' c t a a'
          simp only [h1, h2]
          cases r with
          | ub => exact .ub
          | id p =>
            cases p with
            | zero => exact .extrap
            | succ p =>
              simp only
              by_cases ht : frame = src
              · simp only [ht, if_true]; exact .early
              · simp only [ht, if_false]; exact ih _ _ _ _ _

theorem walkAtT_alike [Rigid X] (R : Render) (b : Buf X) (t : Time) (g s : Nat) (a : A) (a' : A')
    (e : Option Name) : AlikeW (b.walkAtT R f a t g s e) (b.walkAtT R f' a' t g s e) := by
  unfold Buf.walkAtT
  have h1 := walkSourceT_alike hf hf' R b t g maxGraphDepth s a a' [] (e.map fun _ => [])
  generalize b.walkSourceT R f t g maxGraphDepth s a [] (e.map fun _ => []) = r1 at h1
  generalize b.walkSourceT R f' t g maxGraphDepth s a' [] (e.map fun _ => []) = r1' at h1
  cases h1 with
  | early => exact .done
  | tooDeep => exact .say
  | threw => exact .throw
  | ub => exact .ub
  | @exit top ex a1 a1' ch loc =>
    simp only
    have h2 := walkTargetT_alike hf hf' R b t s top maxGraphDepth g a1 a1' [] e
    generalize b.walkTargetT R f t s top maxGraphDepth g a1 [] e = r2 at h2
    generalize b.walkTargetT R f' t s top maxGraphDepth g a1' [] e = r2' at h2
    cases h2 with
    | extrap => exact .say
    | early => exact .done
    | tooDeep => exact .say
    | threw => exact .throw
    | ub => exact .ub
    | @exit fr a2 a2' rev e2 =>
      simp only
      by_cases h : fr = top
      · simp only [h, if_true]
        cases pruneChain ch (rev ++ [top]) with
        | none => exact .ub
        | some l => exact .done
      · simp only [h, if_false]
        cases ex
        · exact .say
        · exact .say

theorem walkT_alike [Rigid X] (R : Render) (b : Buf X) (t : Time) (g s : Nat) (a : A) (a' : A')
    (e : Option Name) : AlikeW (b.walkT R f a t g s e) (b.walkT R f' a' t g s e) := by
  unfold Buf.walkT
  split
  · exact .done
  · split
    · cases b.latestCommonTimeT g s e with
      | ok t' e => exact walkAtT_alike hf hf' R b t' g s a a' e
      | err c e => exact .err
      | throw x e => exact .throw
      | ub => exact .ub
    · exact walkAtT_alike hf hf' R b t g s a a' e

end

end Tf2
