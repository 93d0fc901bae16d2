import Verif.Proofs.LookupOk
import Verif.Spec.Path

/-!
# The frame lists produced by the walks
-/
namespace Tf2

variable {X : Type} [Rigid X] {b : Buf X} {D : Duration} {t : Time}

/-- `gather` at a frame with a parent. -/
theorem gather_parent {f p : Nat} {e : X} (h : ParentAt b t f p e) :
    ∃ c q, b.getFrame f = some c ∧ p = q + 1 ∧
      ∀ a : TAcc X, ∃ a', transformAccum.gather c t a = (.id (q + 1), a') := by
  obtain ⟨h0, c, s, hc, hd, hp, _⟩ := h
  obtain ⟨q, rfl⟩ : ∃ q, p = q + 1 := ⟨p - 1, by omega⟩
  exact ⟨c, q, hc, rfl, fun a => ⟨_, by simp only [transformAccum, hd, hp]; rfl⟩⟩

/-- `walkSource` at a frame without parent. -/
theorem walkSource_end (hw : WF D b) {r : Nat} (hr0 : r ≠ 0) (hr : ¬ ∃ p e, ParentAt b t r p e) (tgt k : Nat)
    (a : TAcc X) (chain : List Nat) :
    ∃ x a', b.walkSource transformAccum t tgt k r a chain = .exit r x a' (chain ++ [r]) := by
  cases hc : b.getFrame r with
  | none => exact ⟨_, _, walkSource_none hr0 hc⟩
  | some c =>
    rcases gather_cases (t := t) hw hc a with ⟨a', hg, _⟩ | ⟨p, s, _, hp⟩
    · exact ⟨_, _, walkSource_fail hr0 hc hg⟩
    · exact absurd ⟨_, _, hp⟩ hr

theorem walkSource_path_exit (hw : WF D b) {r tgt frame : Nat} (hr : ¬ ∃ p e, ParentAt b t r p e)
    {l : List Nat} (h : FramePath b t frame r l) : ∀ (k : Nat) (a : TAcc X) (chain : List Nat), frame ≠ 0 →
      l.length ≤ k + 1 → (∀ f ∈ l.dropLast, f ≠ tgt) →
      ∃ x a', b.walkSource transformAccum t tgt k frame a chain = .exit r x a' (chain ++ l) := by
  induction h with
  | nil f => intro k a chain h0 _ _; exact walkSource_end hw h0 hr tgt k a chain
  | @cons f p c e l he hp ih =>
    intro k a chain h0 hk hne
    have hl : l ≠ [] := by cases hp <;> simp
    rw [List.dropLast_cons_of_ne_nil hl] at hne
    obtain ⟨c', q, hc, rfl, hg⟩ := gather_parent he
    obtain ⟨a', hg⟩ := hg a
    have : l.length ≠ 0 := by simpa using hl
    obtain ⟨k, rfl⟩ : ∃ k', k = k' + 1 := ⟨k - 1, by simp at hk; omega⟩
    rw [walkSource_step h0 hc hg (hne f (List.mem_cons_self ..))]
    obtain ⟨x, a2, h2⟩ := ih hr k (transformAccum.accum true a') (chain ++ [f]) (by omega)
      (by simp at hk; omega) (fun g hg => hne g (List.mem_cons_of_mem _ hg))
    exact ⟨x, a2, by rw [h2]; simp⟩

theorem walkSource_path_early {tgt frame : Nat} (hr : ∃ p e, ParentAt b t tgt p e)
    {l : List Nat} (h : FramePath b t frame tgt l) : ∀ (k : Nat) (a : TAcc X) (chain : List Nat), frame ≠ 0 →
      l.length ≤ k + 1 → (∀ f ∈ l.dropLast, f ≠ tgt) →
      ∃ a', b.walkSource transformAccum t tgt k frame a chain = .early a' (chain ++ l) := by
  induction h with
  | nil f =>
    intro k a chain h0 _ _
    obtain ⟨p, e, hp⟩ := hr
    obtain ⟨c', q, hc, rfl, hg⟩ := gather_parent hp
    obtain ⟨a', hg⟩ := hg a
    exact ⟨_, walkSource_early h0 hc hg rfl⟩
  | @cons f p c e l he hp ih =>
    intro k a chain h0 hk hne
    have hl : l ≠ [] := by cases hp <;> simp
    rw [List.dropLast_cons_of_ne_nil hl] at hne
    obtain ⟨c', q, hc, rfl, hg⟩ := gather_parent he
    obtain ⟨a', hg⟩ := hg a
    have : l.length ≠ 0 := by simpa using hl
    obtain ⟨k, rfl⟩ : ∃ k', k = k' + 1 := ⟨k - 1, by simp at hk; omega⟩
    rw [walkSource_step h0 hc hg (hne f (List.mem_cons_self ..))]
    obtain ⟨a2, h2⟩ := ih hr k (transformAccum.accum true a') (chain ++ [f]) (by omega)
      (by simp at hk; omega) (fun g hg => hne g (List.mem_cons_of_mem _ hg))
    exact ⟨a2, by rw [h2]; simp⟩

theorem walkTarget_path_exit {r src frame : Nat} (hr : ¬ ∃ p e, ParentAt b t r p e)
    {l : List Nat} (h : FramePath b t frame r l) : ∀ (k : Nat) (a : TAcc X) (rev : List Nat),
      l.length ≤ k + 1 → (∀ f ∈ l.dropLast, f ≠ src) →
      ∃ a', b.walkTarget transformAccum t src r k frame a rev = .exit r a' (rev ++ l.dropLast) := by
  induction h with
  | nil f => intro k a rev _ _; exact ⟨a, by rw [walkTarget_top]; simp⟩
  | @cons f p c e l he hp ih =>
    intro k a rev hk hne
    have hl : l ≠ [] := by cases hp <;> simp
    rw [List.dropLast_cons_of_ne_nil hl] at hne ⊢
    have hfr : f ≠ c := by rintro rfl; exact hr ⟨_, _, he⟩
    obtain ⟨c', q, hc, rfl, hg⟩ := gather_parent he
    obtain ⟨a', hg⟩ := hg a
    have : l.length ≠ 0 := by simpa using hl
    obtain ⟨k, rfl⟩ : ∃ k', k = k' + 1 := ⟨k - 1, by simp at hk; omega⟩
    rw [walkTarget_step hfr hc hg (hne f (List.mem_cons_self ..))]
    obtain ⟨a2, h2⟩ := ih hr k (transformAccum.accum false a') (rev ++ [f])
      (by simp at hk; omega) (fun g hg => hne g (List.mem_cons_of_mem _ hg))
    exact ⟨a2, by rw [h2]; simp⟩

theorem walkTarget_path_early {r src frame : Nat} (hr : ¬ ∃ p e, ParentAt b t r p e)
    (hs : ∃ p e, ParentAt b t src p e)
    {l : List Nat} (h : FramePath b t frame src l) : ∀ (k : Nat) (a : TAcc X) (rev : List Nat),
      l.length ≤ k + 1 → (∀ f ∈ l.dropLast, f ≠ src) →
      ∃ a', b.walkTarget transformAccum t src r k frame a rev = .early a' (rev ++ l) := by
  induction h with
  | nil f =>
    intro k a rev _ _
    obtain ⟨p, e, hp⟩ := hs
    have hfr : f ≠ r := by rintro rfl; exact hr ⟨_, _, hp⟩
    obtain ⟨c', q, hc, rfl, hg⟩ := gather_parent hp
    obtain ⟨a', hg⟩ := hg a
    exact ⟨_, walkTarget_early hfr hc hg rfl⟩
  | @cons f p c e l he hp ih =>
    intro k a rev hk hne
    have hl : l ≠ [] := by cases hp <;> simp
    rw [List.dropLast_cons_of_ne_nil hl] at hne
    have hfr : f ≠ r := by rintro rfl; exact hr ⟨_, _, he⟩
    obtain ⟨c', q, hc, rfl, hg⟩ := gather_parent he
    obtain ⟨a', hg⟩ := hg a
    have : l.length ≠ 0 := by simpa using hl
    obtain ⟨k, rfl⟩ : ∃ k', k = k' + 1 := ⟨k - 1, by simp at hk; omega⟩
    rw [walkTarget_step hfr hc hg (hne f (List.mem_cons_self ..))]
    obtain ⟨a2, h2⟩ := ih hs k (transformAccum.accum false a') (rev ++ [f])
      (by simp at hk; omega) (fun g hg => hne g (List.mem_cons_of_mem _ hg))
    exact ⟨a2, by rw [h2]; simp⟩

/-! ### Facts about paths -/

theorem FramePath.head {a c : Nat} {l : List Nat} (h : FramePath b t a c l) : ∃ l', l = a :: l' := by
  cases h <;> exact ⟨_, rfl⟩

theorem FramePath.last {a c : Nat} {l : List Nat} (h : FramePath b t a c l) : ∃ l', l = l' ++ [c] := by
  induction h with
  | nil a => exact ⟨[], rfl⟩
  | @cons a p c e l _ _ ih =>
    obtain ⟨l', rfl⟩ := ih
    exact ⟨a :: l', rfl⟩

theorem FramePath.split {a c q : Nat} {l1 l2 : List Nat} (h : FramePath b t a c (l1 ++ q :: l2)) :
    FramePath b t a q (l1 ++ [q]) ∧ FramePath b t q c (q :: l2) := by
  induction l1 generalizing a with
  | nil =>
    obtain ⟨l', e⟩ := h.head
    simp only [List.nil_append, List.cons.injEq] at e
    obtain ⟨rfl, _⟩ := e
    exact ⟨.nil _, h⟩
  | cons x r ih =>
    generalize hL : x :: r ++ q :: l2 = L at h
    cases h with
    | nil =>
      have := congrArg List.length hL
      simp at this
    | cons he hp =>
      simp only [List.cons_append, List.cons.injEq] at hL
      obtain ⟨rfl, rfl⟩ := hL
      obtain ⟨h1, h2⟩ := ih hp
      exact ⟨.cons he h1, h2⟩

theorem FramePath.unique {a r : Nat} {l l' : List Nat} (h : FramePath b t a r l)
    (hr : ¬ ∃ p e, ParentAt b t r p e) (h' : FramePath b t a r l') : l = l' := by
  induction h generalizing l' with
  | nil a =>
    cases h' with
    | nil => rfl
    | cons he _ => exact absurd ⟨_, _, he⟩ hr
  | cons he _ ih =>
    cases h' with
    | nil => exact absurd ⟨_, _, he⟩ hr
    | cons he' h' =>
      obtain ⟨rfl, _⟩ := he.det he'
      rw [ih hr h']

/-- A path to a frame without parent passes each frame once. -/
theorem FramePath.nodup {a r : Nat} {l : List Nat} (h : FramePath b t a r l)
    (hr : ¬ ∃ p e, ParentAt b t r p e) : l.Nodup := by
  induction h with
  | nil a => simp
  | @cons a p c e l he hp ih =>
    rw [List.nodup_cons]
    refine ⟨?_, ih hr⟩
    intro hm
    obtain ⟨l1, l2, rfl⟩ := List.append_of_mem hm
    have h2 := hp.split.2
    have := h2.unique hr (.cons he hp)
    have := congrArg List.length this
    simp at this
    omega

theorem FramePath.nonterminal {a c : Nat} {l1 l2 : List Nat} {q : Nat} (h : FramePath b t a c (l1 ++ q :: l2))
    (hl : l2 ≠ []) : ∃ p e, ParentAt b t q p e := by
  have h2 := h.split.2
  cases h2 with
  | nil => exact absurd rfl hl
  | cons he _ => exact ⟨_, _, he⟩

theorem FramePath.ne_zero {a c : Nat} {l : List Nat} (h : FramePath b t a c l) (ha : a ≠ 0) : c ≠ 0 := by
  induction h with
  | nil => exact ha
  | cons he _ ih => exact ih he.1

/-! ### Pruning -/

theorem stripCommon_append (C : List Nat) (u d : List Nat) (h : ∀ x y, u.head? = some x → d.head? = some y → x ≠ y) :
    stripCommon (C ++ u) (C ++ d) = (u, d) := by
  induction C with
  | nil =>
    cases u with
    | nil => cases d <;> rfl
    | cons x u =>
      cases d with
      | nil => rfl
      | cons y d =>
        have := h x y rfl rfl
        simp [stripCommon, this]
  | cons c C ih => simp [stripCommon, ih]

theorem pruneChain_eq {up down top : List Nat} {q : Nat} (hd : ∀ f ∈ up, f ∉ down) :
    pruneChain (up ++ q :: top) (down ++ q :: top) =
      some (if 2 ≤ up.length then up ++ q :: down.reverse else up ++ q :: top ++ down.reverse) := by
  unfold pruneChain
  have e : stripCommon (up ++ q :: top).reverse (down ++ q :: top).reverse = (up.reverse, down.reverse) := by
    rw [List.reverse_append, List.reverse_append]
    apply stripCommon_append
    intro x y hx hy hxy
    subst hxy
    have h1 : x ∈ up.reverse := List.mem_of_mem_head? hx
    have h2 : x ∈ down.reverse := List.mem_of_mem_head? hy
    exact hd x (by simpa using h1) (by simpa using h2)
  rw [e]
  simp only [List.length_reverse]
  by_cases hl : 2 ≤ up.length
  · rw [if_pos (by omega), if_pos (by simp; omega), if_pos hl]
    congr 1
    have : ((up.length : Int) - 1 + 2).toNat = up.length + 1 := by omega
    rw [this, List.take_append, List.take_of_length_le (by omega)]
    simp
  · rw [if_neg (by omega), if_neg hl]

/-- The chain of a successful walk between two different frames. -/
theorem walkAt_chain (hw : WF D b) {s g q : Nat} {up down top : List Nat} (hs : s ≠ 0)
    (hne : s ≠ g) (h : Meets b t s g q up down top) (a : TAcc X) :
    ∃ a', b.walkAt transformAccum a t g s =
      .done a' (if up.length = 1 ∧ down ≠ [] then up ++ q :: top ++ down.reverse
        else up ++ q :: down.reverse) := by
  obtain ⟨⟨r, hS, hG, hr⟩, hdis, hl1, hl2⟩ := h
  have ndS := hS.nodup hr
  have ndG := hG.nodup hr
  have hqr := hS.split.2
  have hmax : maxGraphDepth = 1000 := rfl
  have huq : ∀ f ∈ up, f ≠ q := by
    intro f hf e; subst e
    have := (List.nodup_append.1 ndS).2.2 f hf f (by simp)
    exact this rfl
  have hdq : ∀ f ∈ down, f ≠ q := by
    intro f hf e; subst e
    have := (List.nodup_append.1 ndG).2.2 f hf f (by simp)
    exact this rfl
  by_cases hd : down = []
  · subst hd
    have hgq : g = q := by
      obtain ⟨l', e⟩ := hG.head
      simp only [List.nil_append, List.cons.injEq] at e
      exact e.1.symm
    subst hgq
    by_cases htop : top = []
    · -- target is the root
      subst htop
      have hgr : r = g := by cases hqr with | nil => rfl | cons _ h => cases h
      subst hgr
      obtain ⟨x, a', h1⟩ := walkSource_path_exit hw (tgt := r) hr hS maxGraphDepth a [] hs (by omega)
        (by simpa using huq)
      unfold Buf.walkAt
      rw [h1]
      simp only [walkTarget_top, if_true, List.nil_append]
      have hp := pruneChain_eq (up := up) (down := []) (top := []) (q := r) (by simp)
      simp only [List.nil_append] at hp
      rw [hp]
      refine ⟨transformAccum.finalize .fullPath t a', ?_⟩
      simp
    · have hnt := hS.nonterminal htop
      obtain ⟨a', h1⟩ := walkSource_path_early hnt hS.split.1 maxGraphDepth a [] hs
        (by simp at hl1 ⊢; omega) (by simpa using huq)
      unfold Buf.walkAt
      rw [h1]
      exact ⟨a', by simp⟩
  · -- target is not an ancestor of source
    have hgd : g ∈ down := by
      obtain ⟨l', e⟩ := hG.head
      cases hdn : down with
      | nil => exact absurd hdn hd
      | cons x r' => rw [hdn] at e; simp at e; simp [e.1]
    have hgS : ∀ f ∈ (up ++ q :: top).dropLast, f ≠ g := by
      intro f hf e; subst e
      have hf' := List.dropLast_subset _ hf
      rw [List.mem_append] at hf'
      rcases hf' with h | h
      · exact hdis _ h hgd
      · exact (List.nodup_append.1 ndG).2.2 _ hgd _ h rfl
    obtain ⟨x, a', h1⟩ := walkSource_path_exit hw (tgt := g) hr hS maxGraphDepth a [] hs (by omega) hgS
    by_cases hu : up = []
    · subst hu
      have hsq : s = q := by
        obtain ⟨l', e⟩ := hS.head
        simp only [List.nil_append, List.cons.injEq] at e
        exact e.1.symm
      subst hsq
      by_cases htop : top = []
      · subst htop
        have hsr : r = s := by cases hqr with | nil => rfl | cons _ h => cases h
        subst hsr
        obtain ⟨a2, h2⟩ := walkTarget_path_exit (src := r) hr hG maxGraphDepth a' [] (by omega)
          (by simpa using hdq)
        unfold Buf.walkAt
        rw [h1]
        simp only [h2, if_true, List.nil_append]
        have hp := pruneChain_eq (up := []) (down := down) (top := []) (q := r) (by simp)
        simp only [List.nil_append] at hp
        rw [List.dropLast_concat, hp]
        refine ⟨transformAccum.finalize .fullPath t a2, ?_⟩
        simp
      · have hnt := hS.nonterminal (l1 := []) htop
        obtain ⟨a2, h2⟩ := walkTarget_path_early hr hnt hG.split.1 maxGraphDepth a' []
          (by simp at hl2 ⊢; omega) (by simpa using hdq)
        unfold Buf.walkAt
        rw [h1]
        simp only [h2]
        exact ⟨a2, by simp⟩
    · have hsu : s ∈ up := by
        obtain ⟨l', e⟩ := hS.head
        cases hup : up with
        | nil => exact absurd hup hu
        | cons x r' => rw [hup] at e; simp at e; simp [e.1]
      have hsG : ∀ f ∈ (down ++ q :: top).dropLast, f ≠ s := by
        intro f hf e; subst e
        have hf' := List.dropLast_subset _ hf
        rw [List.mem_append] at hf'
        rcases hf' with h | h
        · exact hdis _ hsu h
        · exact (List.nodup_append.1 ndS).2.2 _ hsu _ h rfl
      obtain ⟨a2, h2⟩ := walkTarget_path_exit (src := s) hr hG maxGraphDepth a' [] (by omega) hsG
      unfold Buf.walkAt
      rw [h1]
      simp only [h2, if_true, List.nil_append]
      have hlast : (down ++ q :: top).dropLast ++ [r] = down ++ q :: top := by
        obtain ⟨l', e⟩ := hG.last
        rw [e, List.dropLast_concat]
      rw [hlast, pruneChain_eq hdis]
      refine ⟨transformAccum.finalize .fullPath t a2, ?_⟩
      simp only
      have : up.length ≠ 0 := by simpa using hu
      by_cases h2 : 2 ≤ up.length
      · rw [if_pos h2, if_neg (by omega)]
      · rw [if_neg h2, if_pos ⟨by omega, hd⟩]

end Tf2
