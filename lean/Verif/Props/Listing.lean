import Verif.Proofs.History
import Verif.Proofs.LookupOk
import Verif.Proofs.Examples
import Verif.Props.Cache

/-!
# Properties of the buffer: C26 (read your write) and C36 (listings)
-/
namespace Tf2

variable {X : Type}

/-! ### C26 -/

section
variable [Rigid X]

/-- If the first loop stops at the target, the walk ends there. -/
theorem walkAt_exit_target {b : Buf X} {t : Time} {f p : Nat} {a0 a : TAcc X} {x : Bool} {chain : List Nat}
    (h : b.walkSource transformAccum t p maxGraphDepth f a0 [] = .exit p x a chain)
    (hl : chain.getLast? = some p) :
    ∃ ch, b.walkAt transformAccum a0 t p f = .done (transformAccum.finalize .fullPath t a) ch := by
  unfold Buf.walkAt
  rw [h]
  simp only
  rw [walkTarget_top]
  simp only [if_true]
  have hp := pruneChain_some (chain := chain) (rev := []) (x := p) (Or.inr hl)
  cases hpc : pruneChain chain ([] ++ [p]) with
  | none => rw [hpc] at hp; cases hp
  | some l => exact ⟨l, rfl⟩

/-- A walk from a frame to its direct parent. -/
theorem walkAt_parent {D : Duration} {b : Buf X} (hw : WF D b) {t : Time} {f p : Nat} {e : X}
    (hf : f ≠ 0) (hne : f ≠ p) (h : ParentAt b t f p e) :
    ∃ a ch, b.walkAt transformAccum TAcc.init t p f = .done a ch ∧ a.time = t ∧
      (a.result = Rigid.comp e Rigid.one ∨
       a.result = Rigid.comp (Rigid.inv Rigid.one) (Rigid.comp e Rigid.one)) := by
  obtain ⟨hp0, c, s, hc, hd, hsp, hse⟩ := h
  obtain ⟨p, rfl⟩ : ∃ q, p = q + 1 := ⟨p - 1, by omega⟩
  have hg : transformAccum.gather c t (TAcc.init : TAcc X) =
      (.id (p + 1), { (TAcc.init : TAcc X) with st := some s }) := by
    simp [transformAccum, hd, hsp]
  have hstep := walkSource_step (b := b) (f := transformAccum) (k := 999) (tgt := p + 1) (chain := [])
    hf hc hg hne
  have e1 : maxGraphDepth = 999 + 1 := rfl
  rw [← e1] at hstep
  generalize ha1 : transformAccum.accum true { (TAcc.init : TAcc X) with st := some s } = a1 at hstep
  have hs1 : a1.sourceToTop = Rigid.comp e Rigid.one := by
    rw [← ha1]; simp [transformAccum, TAcc.edge, TAcc.init, hse]
  have ht1 : a1.targetToTop = Rigid.one := by
    rw [← ha1]; simp [transformAccum, TAcc.init]
  cases hc' : b.getFrame (p + 1) with
  | none =>
    rw [walkSource_none (by omega) hc'] at hstep
    obtain ⟨ch, hch⟩ := walkAt_exit_target hstep (by simp)
    exact ⟨_, ch, hch, rfl, Or.inr (by simp [transformAccum, hs1, ht1])⟩
  | some c' =>
    rcases gather_cases (t := t) hw hc' a1 with ⟨a2, hg2, h1, h2, _⟩ | ⟨q, s2, hg2, _⟩
    · rw [walkSource_fail (by omega) hc' hg2] at hstep
      obtain ⟨ch, hch⟩ := walkAt_exit_target hstep (by simp)
      exact ⟨_, ch, hch, rfl, Or.inr (by simp [transformAccum, h1, h2, hs1, ht1])⟩
    · rw [walkSource_early (by omega) hc' hg2 rfl] at hstep
      unfold Buf.walkAt
      rw [hstep]
      refine ⟨_, _, rfl, rfl, Or.inl ?_⟩
      simp [transformAccum, hs1]

/-- **C26.** Immediately after `setTransform` returned `true` for a message with a nonzero stamp, a
lookup of its parent and child at its stamp succeeds and returns exactly that transform.  The ids must
be ones a query can name (not `NO_PARENT`, not starting with a slash once one slash is removed), and
the storage duration not negative. -/
theorem C26_read_your_write {U : X → Prop} (L : RigidLaws U)
    (hI : ∀ {a b : X} {d : Int}, U a → U b → 0 < d → Rigid.interp a b 0 d = a)
    {D : Duration} (hD : 0 ≤ D) {ops : List (Op X)} (hU : AllOffered U ops) {b b' : Buf X}
    (hb : b = (Buf.init D).run ops) (m : Msg X) (hm : U m.xf) (auth : Name) (isStatic : Bool)
    (h0 : m.stamp ≠ 0) (lc : LegalName (stripSlash m.child)) (lp : LegalName (stripSlash m.parent))
    (nc : stripSlash m.child ≠ noParentName) (np : stripSlash m.parent ≠ noParentName)
    (hset : b.setTransform m auth isStatic = (b', .accepted)) :
    b'.lookupTransform (stripSlash m.parent) (stripSlash m.child) m.stamp =
      .ok { parent := stripSlash m.parent, child := stripSlash m.child, stamp := m.stamp, xf := m.xf } := by
  have hw : WF D b := hb ▸ WF.run (WF.init D) ops
  have hS : StoredIn U b := hb ▸ StoredIn.run ops (WF.init D) (StoredIn.init U D) hU
  have hb' : (b.setTransform m auth isStatic).1 = b' := by rw [hset]
  have hw' : WF D b' := hb' ▸ hw.setTransform m auth isStatic
  have hS' : StoredIn U b' := by
    have := hS.step hw (.set m auth isStatic) (by intro m' a s e; cases e; exact hm)
    rw [← hb']; exact this
  cases hv : Buf.msgValid (Buf.stripMsg m) with
  | false =>
    rw [Buf.setTransform_invalid hv] at hset
    simp only [Prod.mk.injEq] at hset
    cases hset.2
  | true =>
    obtain ⟨cid, pid, c0, c1, ir, st⟩ := Buf.setTransform_step hw.names m auth isStatic hv
    rw [hb', show (b.setTransform m auth isStatic).2 = .accepted by rw [hset]] at st
    have hir : ir = .accepted := by
      have := st.hres
      cases ir <;> simp [Buf.SetRes.ofInsert] at this ⊢
    subst hir
    have hne : stripSlash m.child ≠ stripSlash m.parent := ((msgValid_iff m).1 hv).1
    have hcf : IsFrame b' (stripSlash m.child) cid :=
      ⟨fun h => nc (hw'.frameIDs_zero.1 (h ▸ st.hcid)), st.hcid⟩
    have hpf : IsFrame b' (stripSlash m.parent) pid :=
      ⟨fun h => np (hw'.frameIDs_zero.1 (h ▸ st.hpid)), st.hpid⟩
    have hcp : cid ≠ pid := fun h => hne (hw'.inj st.hcid (h ▸ st.hpid))
    have hget : b'.getFrame cid = some c1 := by rw [st.hframes, if_pos rfl]
    have hpar : ParentAt b' m.stamp cid pid m.xf := by
      refine ⟨hpf.1, c1, ?_⟩
      have hok := hw'.caches _ _ hget
      have hst := hS' _ _ hget
      have hins := st.hins
      have hdyn : ∀ D' l, D' = D → ReachableCache D l →
          (Cache.dyn D' l).insert ⟨m.stamp, pid, cid, m.xf⟩ = (c1, .accepted) →
          ∃ s, b'.getFrame cid = some c1 ∧ c1.getData m.stamp = .ok s ∧ s.parent = pid ∧ s.xf = m.xf := by
        rintro D' l rfl hl hi
        simp only [Cache.insert, Prod.mk.injEq] at hi
        obtain ⟨h1, h2⟩ := hi
        have hmem := C03_accepted_stored hD hl _ h2
        subst h1
        have hl' := hl.insert ⟨m.stamp, pid, cid, m.xf⟩
        rcases C04_on_stamp hl' hmem h0 with h | ⟨n, hadj, hpn, h⟩
        · exact ⟨_, hget, h, rfl, rfl⟩
        · refine ⟨_, hget, h, rfl, ?_⟩
          have := hadj.2.2.1
          exact hI hm (hst n hadj.2.1) (by simp only at this ⊢; omega)
      cases c0 with
      | stat o =>
        simp only [Cache.insert, Prod.mk.injEq] at hins
        obtain ⟨h1, _⟩ := hins
        subst h1
        exact ⟨_, hget, rfl, rfl, rfl⟩
      | dyn D' l =>
        have hc0 := st.hc0
        cases hf : b.getFrame cid with
        | none =>
          rw [hf, Option.getD_none] at hc0
          unfold Buf.newCache at hc0
          split at hc0
          · cases hc0
          · injection hc0 with e1 e2
            exact hdyn D' l (e1.trans hw.cacheTime) (e2 ▸ ReachableCache.nil D) hins
        | some c =>
          rw [hf, Option.getD_some] at hc0
          subst hc0
          have := hw.caches _ _ hf
          exact hdyn D' l this.1 this.2.1 hins
    obtain ⟨a, ch, hwalk, htime, hres⟩ := walkAt_parent hw' hcf.1 hcp hpar
    rw [lookup_walkAt hw' hpf hcf lp lc hne.symm h0, hwalk]
    simp only [lookupOfWalk, htime, Res.ok.injEq, Msg.mk.injEq, true_and]
    have h1 := L.comp_one hm
    rcases hres with h | h <;> rw [h, h1]
    rw [L.inv_one, L.one_comp hm]

end

example : (exBuf.setTransform (tmsg ['/', 'a'] ['b'] 15 7) [] false).2 = .accepted ∧
    (exBuf.setTransform (tmsg ['/', 'a'] ['b'] 15 7) [] false).1.lookupTransform ['a'] ['b'] 15 =
      .ok (tmsg ['a'] ['b'] 15 7) := by decide

/-! ### C36 -/

section
variable [Rigid X]

theorem rev_lookupOrInsert {b : Buf X} (h : Buf.NamesOK b) (n : Name) :
    (b.lookupOrInsertFrameNumber n).1.frameIDsReverse =
      if n ∈ b.frameIDsReverse then b.frameIDsReverse else b.frameIDsReverse ++ [n] := by
  unfold Buf.lookupOrInsertFrameNumber
  cases hn : b.frameIDs n with
  | some i =>
    have := List.mem_of_getElem? ((h.ids n i).1 hn)
    simp [this]
  | none =>
    have : n ∉ b.frameIDsReverse := by
      intro hm
      obtain ⟨i, hi⟩ := List.getElem?_of_mem hm
      rw [(h.ids n i).2 hi] at hn; cases hn
    simp [this]

theorem rev_run (D : Duration) (ops : List (Op X)) :
    ((Buf.init D).run ops).frameIDsReverse = firstOccurrences [noParentName] (mentions ops) := by
  induction ops using snoc_induction with
  | nil => rfl
  | snoc l o ih =>
    have hw : WF D ((Buf.init D : Buf X).run l) := WF.run (WF.init D) l
    rw [run_snoc, mentions_append, firstOccurrences_append, ← ih]
    cases o with
    | clear => rfl
    | set m a s =>
      simp only [Buf.step]
      by_cases hv : ValidMsg m
      · obtain ⟨cid, pid, c0, c1, ir, st⟩ :=
          Buf.setTransform_step hw.names m a s ((msgValid_iff m).2 hv)
        rw [st.hrev, rev_lookupOrInsert (hw.names.lookupOrInsert _), rev_lookupOrInsert hw.names]
        simp only [mentions, if_pos hv, firstOccurrences, Buf.stripMsg]
        rfl
      · rw [Buf.setTransform_invalid (msgValid_false hv)]
        simp [mentions, hv, firstOccurrences]

theorem mem_firstOccurrences (acc l : List Name) (n : Name) :
    n ∈ firstOccurrences acc l ↔ n ∈ acc ∨ n ∈ l := by
  induction l generalizing acc with
  | nil => simp [firstOccurrences]
  | cons a r ih =>
    simp only [firstOccurrences, ih, List.mem_cons]
    split
    · rename_i h
      constructor
      · rintro (h1 | h1)
        · exact Or.inl h1
        · exact Or.inr (Or.inr h1)
      · rintro (h1 | rfl | h1)
        · exact Or.inl h1
        · exact Or.inl h
        · exact Or.inr h1
    · simp only [List.mem_append, List.mem_singleton, or_assoc]

theorem nodup_firstOccurrences (acc l : List Name) (h : acc.Nodup) : (firstOccurrences acc l).Nodup := by
  induction l generalizing acc with
  | nil => exact h
  | cons a r ih =>
    simp only [firstOccurrences]
    apply ih
    split
    · exact h
    · rename_i hn
      rw [List.nodup_append]
      exact ⟨h, by simp, by intro x hx y hy; simp at hy; subst hy; intro e; subst e; exact hn hx⟩

/-- **C36, names.** `_getFrameStrings` lists the names mentioned (as child or parent, one leading
slash removed) by the well-formed messages of the whole history — refused by the cache or not, cleared
or not — each once, in order of first mention; `NO_PARENT` is never listed.  `_frameExists` holds
exactly for those names and `NO_PARENT`. -/
theorem C36_frame_strings (D : Duration) (ops : List (Op X)) :
    noParentName :: ((Buf.init D).run ops).getFrameStrings = firstOccurrences [noParentName] (mentions ops) ∧
    ((Buf.init D).run ops).getFrameStrings.Nodup ∧
    (∀ n, n ∈ ((Buf.init D).run ops).getFrameStrings ↔ n ∈ mentions ops ∧ n ≠ noParentName) ∧
    (∀ n, ((Buf.init D).run ops).frameExists n = true ↔ n ∈ mentions ops ∨ n = noParentName) := by
  have hr := rev_run D ops
  have hw : WF D ((Buf.init D : Buf X).run ops) := WF.run (WF.init D) ops
  have h0 := hw.zero
  have hcons : noParentName :: ((Buf.init D : Buf X).run ops).getFrameStrings =
      ((Buf.init D : Buf X).run ops).frameIDsReverse := by
    unfold Buf.getFrameStrings
    cases h : ((Buf.init D : Buf X).run ops).frameIDsReverse with
    | nil => rw [h] at h0; simp at h0
    | cons a r => rw [h] at h0; simp at h0; simp [h0]
  have hnd := nodup_firstOccurrences [noParentName] (mentions ops) (by simp)
  rw [← hr, ← hcons] at hnd
  have hmem : ∀ n, n ∈ noParentName :: ((Buf.init D : Buf X).run ops).getFrameStrings ↔
      n = noParentName ∨ n ∈ mentions ops := by
    intro n
    rw [hcons, hr, mem_firstOccurrences]; simp
  refine ⟨hcons.trans hr, (List.nodup_cons.1 hnd).2, ?_, ?_⟩
  · intro n
    have h1 := hmem n
    rw [List.mem_cons] at h1
    constructor
    · intro h
      have hne : n ≠ noParentName := fun e => (List.nodup_cons.1 hnd).1 (e ▸ h)
      rcases h1.1 (Or.inr h) with h2 | h2
      · exact absurd h2 hne
      · exact ⟨h2, hne⟩
    · rintro ⟨h2, hne⟩
      rcases h1.2 (Or.inr h2) with h3 | h3
      · exact absurd h3 hne
      · exact h3
  · intro n
    unfold Buf.frameExists
    have : (((Buf.init D : Buf X).run ops).frameIDs n).isSome ↔
        n ∈ ((Buf.init D : Buf X).run ops).frameIDsReverse := by
      rw [Option.isSome_iff_exists, List.mem_iff_getElem?]
      constructor
      · rintro ⟨i, hi⟩; exact ⟨i, (hw.ids n i).1 hi⟩
      · rintro ⟨i, hi⟩; exact ⟨i, (hw.ids n i).2 hi⟩
    rw [this, ← hcons, hmem]
    exact or_comm

/-- **C36, parents.** For a known frame `_getParent` never fails abnormally, and answers `true` with a
name exactly when the buffer holds a transform for that frame at that time, to the frame of that
name. -/
theorem C36_get_parent {D : Duration} {b : Buf X} (hr : Reachable D b) {n : Name} {i : Nat}
    (hn : IsFrame b n i) (t : Time) :
    ∃ r, b.getParent n t = .ok r ∧
      ∀ q, r = some q ↔ ∃ p e, ParentAt b t i p e ∧ IsFrame b q p := by
  have hw := hr.wf
  unfold Buf.getParent
  rw [lookupFrameNumber_isFrame hn]
  cases hc : b.getFrame i with
  | none =>
    refine ⟨none, rfl, fun q => ⟨by simp, ?_⟩⟩
    rintro ⟨p, e, h, _⟩
    exact absurd ⟨p, e, h⟩ (no_parent_of_no_cache hc)
  | some c =>
    have hok := hw.caches _ _ hc
    simp only
    rw [Cache.getParent_eq]
    cases hd : c.getData t with
    | ub => exact absurd hd (hok.getData_ne_ub t)
    | fail =>
      refine ⟨none, rfl, fun q => ⟨by simp, ?_⟩⟩
      rintro ⟨p, e, ⟨_, c', s, h1, h2, _⟩, _⟩
      rw [hc] at h1; cases h1; rw [hd] at h2; cases h2
    | ok s =>
      simp only
      cases hp : s.parent with
      | zero =>
        refine ⟨none, rfl, fun q => ⟨by simp, ?_⟩⟩
        rintro ⟨p, e, ⟨h0, c', s', h1, h2, h3, _⟩, _⟩
        rw [hc] at h1; cases h1; rw [hd] at h2; cases h2; omega
      | succ p =>
        have hlt := (hok.getData_parent hd).1
        rw [← hw.lenEq, hp] at hlt
        have hget := List.getElem?_eq_getElem hlt
        simp only [Buf.lookupFrameString, hget]
        refine ⟨_, rfl, fun q => ⟨?_, ?_⟩⟩
        · intro h
          injection h with h; subst h
          exact ⟨p + 1, s.xf, ⟨by omega, c, s, hc, hd, hp, rfl⟩, by omega, (hw.ids _ _).2 hget⟩
        · rintro ⟨p', e, ⟨h0, c', s', h1, h2, h3, _⟩, hq⟩
          rw [hc] at h1; cases h1; rw [hd] at h2; cases h2
          rw [hp] at h3; subst h3
          have := (hw.ids _ _).1 hq.2
          rw [hget] at this
          exact this

/-- The lines of `allFramesAsString` a buffer should print: the frames that have a cache, with the
parent of their newest transform (`NO_PARENT` if they hold none). -/
def ListedAs (b : Buf X) (n q : Name) : Prop :=
  ∃ i c, IsFrame b n i ∧ b.getFrame i = some c ∧
    ((∃ s, c.getData 0 = .ok s ∧ b.frameIDs q = some s.parent) ∨ (c.getData 0 = .fail ∧ q = noParentName))

theorem frameLines_spec {D : Duration} {b : Buf X} (hw : WF D b) (l : List Nat)
    (hl : ∀ i ∈ l, i ≠ 0 ∧ i < b.frames.length) :
    ∃ L, b.frameLines l = .ok L ∧
      L.map Prod.fst = (l.filter (fun i => (b.getFrame i).isSome)).map (fun i => (b.frameIDsReverse[i]?).getD []) ∧
      (∀ n q, (n, q) ∈ L → ListedAs b n q) := by
  induction l with
  | nil => exact ⟨[], rfl, rfl, by simp⟩
  | cons i r ih =>
    obtain ⟨L, h1, h2, h3⟩ := ih (fun j hj => hl j (List.mem_cons_of_mem _ hj))
    obtain ⟨hi0, hi⟩ := hl i (List.mem_cons_self ..)
    have hil : i < b.frameIDsReverse.length := by rw [hw.lenEq]; exact hi
    have hig := List.getElem?_eq_getElem hil
    unfold Buf.frameLines
    cases hc : b.getFrame i with
    | none =>
      have : b.frameLine i = .ok none := by unfold Buf.frameLine; rw [hc]
      rw [this, h1]
      exact ⟨L, rfl, by simp [hc, h2], h3⟩
    | some c =>
      have hok := hw.caches _ _ hc
      have hframe : IsFrame b (b.frameIDsReverse[i]) i := ⟨hi0, (hw.ids _ _).2 hig⟩
      have key : ∃ q, b.frameLine i = .ok (some (b.frameIDsReverse[i], q)) ∧
          ListedAs b (b.frameIDsReverse[i]) q := by
        unfold Buf.frameLine
        rw [hc]
        simp only
        cases hd : c.getData 0 with
        | ub => exact absurd hd (hok.getData_ne_ub 0)
        | fail =>
          simp only [hig, hw.zero]
          exact ⟨_, rfl, i, c, hframe, hc, Or.inr ⟨hd, rfl⟩⟩
        | ok s =>
          have hlt := (hok.getData_parent hd).1
          rw [← hw.lenEq] at hlt
          have hget := List.getElem?_eq_getElem hlt
          simp only [hig, hget]
          exact ⟨_, rfl, i, c, hframe, hc, Or.inl ⟨s, hd, (hw.ids _ _).2 hget⟩⟩
      obtain ⟨q, hq1, hq2⟩ := key
      rw [hq1, h1]
      refine ⟨_, rfl, ?_, ?_⟩
      · simp [hc, h2, hig]
      · intro n q' h
        simp only [Option.toList_some, List.singleton_append, List.mem_cons, Prod.mk.injEq] at h
        rcases h with ⟨rfl, rfl⟩ | h
        · exact hq2
        · exact h3 _ _ h

/-- **C36, `allFramesAsString`.** In every reachable state the listing has exactly one line for each
frame that has a cache, in the order of `_getFrameStrings`, and the line says the name of the parent of
the frame's newest transform. -/
theorem C36_all_frames {D : Duration} {b : Buf X} (hr : Reachable D b) :
    ∃ L, b.allFrames = .ok L ∧ (∀ n q, (n, q) ∈ L ↔ ListedAs b n q) ∧
      (L.map Prod.fst).Sublist b.getFrameStrings ∧ (L.map Prod.fst).Nodup := by
  have hw := hr.wf
  have hrev : b.frameIDsReverse.Nodup := by
    obtain ⟨ops, rfl⟩ := hr
    rw [rev_run]; exact nodup_firstOccurrences _ _ (by simp)
  obtain ⟨L, h1, h2, h3⟩ := frameLines_spec hw (List.range' 1 (b.frames.length - 1)) (by
    intro i hi; rw [List.mem_range'_1] at hi; omega)
  have hnames : (List.range' 1 (b.frames.length - 1)).map (fun i => (b.frameIDsReverse[i]?).getD []) =
      b.getFrameStrings := by
    apply List.ext_getElem?
    intro k
    unfold Buf.getFrameStrings
    rw [List.getElem?_map, List.getElem?_drop]
    by_cases hk : k < b.frames.length - 1
    · rw [List.getElem?_range' hk]
      have : 1 + k < b.frameIDsReverse.length := by rw [hw.lenEq]; omega
      simp [List.getElem?_eq_getElem this]
    · rw [List.getElem?_eq_none (by simp; omega)]
      have : b.frameIDsReverse.length ≤ 1 + k := by rw [hw.lenEq]; omega
      simp [List.getElem?_eq_none this]
  have hsub : (L.map Prod.fst).Sublist b.getFrameStrings := by
    rw [h2, ← hnames]
    exact List.Sublist.map _ List.filter_sublist
  have hnd : b.getFrameStrings.Nodup := by
    unfold Buf.getFrameStrings
    exact hrev.sublist (List.drop_sublist _ _)
  refine ⟨L, h1, ?_, hsub, hnd.sublist hsub⟩
  intro n q
  refine ⟨h3 n q, ?_⟩
  intro hlist
  obtain ⟨i, c, hi, hc, hq⟩ := hlist
  have hmem : n ∈ L.map Prod.fst := by
    rw [h2, List.mem_map]
    refine ⟨i, ?_, ?_⟩
    · rw [List.mem_filter, List.mem_range'_1]
      have := Buf.getFrame_lt hc
      have := hi.1
      refine ⟨by omega, by simp [hc]⟩
    · rw [(hw.ids _ _).1 hi.2]; rfl
  obtain ⟨⟨n', q'⟩, hm, hn'⟩ := List.mem_map.1 hmem
  simp only at hn'; subst hn'
  obtain ⟨i', c', hi', hc', hq'⟩ := h3 _ _ hm
  have : i = i' := by
    have a := hi.2; have a' := hi'.2; rw [a] at a'; injection a'
  subst this
  rw [hc] at hc'; cases hc'
  have : q = q' := by
    rcases hq with ⟨s, e1, e2⟩ | ⟨e1, e2⟩ <;> rcases hq' with ⟨s', e1', e2'⟩ | ⟨e1', e2'⟩
    · rw [e1] at e1'; cases e1'; exact hw.inj e2 e2'
    · rw [e1] at e1'; cases e1'
    · rw [e1] at e1'; cases e1'
    · rw [e2, e2']
  rw [this]; exact hm

end

example : exBuf.getFrameStrings = [['a'], ['w'], ['b'], ['c'], ['y'], ['z']] ∧
    exBuf.allFrames = .ok [(['a'], ['w']), (['b'], ['a']), (['c'], ['a']), (['y'], ['z'])] ∧
    exBuf.clear.allFrames =
      .ok [(['a'], noParentName), (['b'], noParentName), (['c'], ['a']), (['y'], noParentName)] ∧
    exBuf.getParent ['b'] 15 = .ok (some ['a']) ∧ exBuf.getParent ['w'] 15 = .ok none := by decide

/-- **C36, limit (finding).** For a name that was never mentioned `_getParent` answers from the cache
of `NO_PARENT`: after a message that names `NO_PARENT` as child, every unknown name is reported to have
a parent. -/
theorem C36_unknown_parent_finding :
    ∃ b : Buf Int, Reachable 100 b ∧ b.frameExists ['u'] = false ∧
      b.getParent ['u'] 10 = .ok (some ['w']) :=
  ⟨_, ⟨[put ['w'] noParentName 10 1], rfl⟩, by decide, by decide⟩

end Tf2
