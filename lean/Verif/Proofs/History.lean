import Verif.Proofs.LookupOk
import Verif.Spec.History

namespace Tf2

variable {X : Type}

theorem snoc_induction {α : Type} {P : List α → Prop} (nil : P [])
    (snoc : ∀ l a, P l → P (l ++ [a])) : ∀ l, P l := by
  intro l
  rw [← l.reverse_reverse]
  induction l.reverse with
  | nil => exact nil
  | cons a r ih => rw [List.reverse_cons]; exact snoc _ _ ih

theorem msgValid_iff [Rigid X] (m : Msg X) : Buf.msgValid (Buf.stripMsg m) = true ↔ ValidMsg m := by
  unfold Buf.msgValid Buf.stripMsg ValidMsg
  simp only [Bool.and_eq_true, Bool.not_eq_true', decide_eq_false_iff_not]
  constructor
  · rintro ⟨⟨⟨⟨a, b⟩, c⟩, d⟩, e⟩; exact ⟨a, b, c, d, e⟩
  · rintro ⟨a, b, c, d, e⟩; exact ⟨⟨⟨⟨a, b⟩, c⟩, d⟩, e⟩

theorem msgValid_false [Rigid X] {m : Msg X} (h : ¬ ValidMsg m) : Buf.msgValid (Buf.stripMsg m) = false := by
  rw [← Bool.not_eq_true, msgValid_iff]; exact h

section
variable [Rigid X]

theorem run_snoc (b : Buf X) (ops : List (Op X)) (o : Op X) : b.run (ops ++ [o]) = (b.run ops).step o := by
  simp [Buf.run]

theorem run_append (b : Buf X) (o1 o2 : List (Op X)) : b.run (o1 ++ o2) = (b.run o1).run o2 := by
  simp [Buf.run]

theorem offersFor_append (n : Name) (o1 o2 : List (Op X)) :
    offersFor n (o1 ++ o2) = offersFor n o1 ++ offersFor n o2 := by
  induction o1 with
  | nil => rfl
  | cons o r ih =>
    cases o with
    | clear => simpa [offersFor] using ih
    | set m a s =>
      simp only [List.cons_append, offersFor, ih]
      split <;> simp

theorem frameCalls_append (ids : Name → Nat) (n : Name) (o1 o2 : List (Op X)) :
    frameCalls ids n (o1 ++ o2) = frameCalls ids n o1 ++ frameCalls ids n o2 := by
  induction o1 with
  | nil => rfl
  | cons o r ih =>
    cases o with
    | clear => simpa [frameCalls] using ih
    | set m a s =>
      simp only [List.cons_append, frameCalls, ih]
      split <;> simp

theorem mentions_append (o1 o2 : List (Op X)) : mentions (o1 ++ o2) = mentions o1 ++ mentions o2 := by
  induction o1 with
  | nil => rfl
  | cons o r ih =>
    cases o with
    | clear => simpa [mentions] using ih
    | set m a s =>
      simp only [List.cons_append, mentions, ih]
      split <;> simp

theorem firstOccurrences_append (acc l1 l2 : List Name) :
    firstOccurrences acc (l1 ++ l2) = firstOccurrences (firstOccurrences acc l1) l2 := by
  induction l1 generalizing acc with
  | nil => rfl
  | cons n r ih => simp only [List.cons_append, firstOccurrences]; exact ih _

theorem frameIDs_step {D : Duration} {b : Buf X} (hw : WF D b) (o : Op X) {n : Name} {i : Nat}
    (h : b.frameIDs n = some i) : (b.step o).frameIDs n = some i := by
  cases o with
  | clear => exact h
  | set m a s =>
    simp only [Buf.step]
    cases hv : Buf.msgValid (Buf.stripMsg m) with
    | false => rw [Buf.setTransform_invalid hv]; exact h
    | true =>
      obtain ⟨cid, pid, c0, c1, ir, st⟩ := Buf.setTransform_step hw.names m a s hv
      exact st.hold n i h

theorem frameIDs_run {D : Duration} (ops : List (Op X)) : ∀ {b : Buf X}, WF D b → ∀ {n : Name} {i : Nat},
    b.frameIDs n = some i → (b.run ops).frameIDs n = some i := by
  induction ops with
  | nil => intro b _ n i h; exact h
  | cons o r ih => intro b hw n i h; exact ih (hw.step o) (frameIDs_step hw o h)

/-- The names of a valid message are registered by it. -/
theorem mentions_registered {D : Duration} (ops : List (Op X)) :
    ∀ n ∈ mentions ops, ∃ i, ((Buf.init D).run ops).frameIDs n = some i := by
  induction ops using snoc_induction with
  | nil => intro n h; cases h
  | snoc l o ih =>
    intro n h
    rw [run_snoc]
    have hw : WF D ((Buf.init D).run l) := WF.run (WF.init D) l
    rw [mentions_append] at h
    rcases List.mem_append.1 h with h | h
    · obtain ⟨i, hi⟩ := ih n h
      exact ⟨i, frameIDs_step hw o hi⟩
    · cases o with
      | clear => cases h
      | set m a s =>
        simp only [mentions] at h
        split at h
        · rename_i hv
          obtain ⟨cid, pid, c0, c1, ir, st⟩ := Buf.setTransform_step hw.names m a s ((msgValid_iff m).2 hv)
          simp only [Buf.step]
          simp only [List.mem_cons, List.not_mem_nil, or_false] at h
          rcases h with rfl | rfl
          · exact ⟨cid, st.hcid⟩
          · exact ⟨pid, st.hpid⟩
        · cases h

theorem offersFor_mentions {n : Name} {ops : List (Op X)} {m : Msg X} {s : Bool}
    (h : (m, s) ∈ offersFor n ops) : n ∈ mentions ops ∧ stripSlash m.parent ∈ mentions ops ∧
      stripSlash m.child = n ∧ ValidMsg m := by
  induction ops with
  | nil => cases h
  | cons o r ih =>
    cases o with
    | clear => exact ih h
    | set m' a s' =>
      simp only [offersFor] at h
      split at h
      · rename_i hv
        rcases List.mem_cons.1 h with h | h
        · injection h with h1 h2; subst h1 h2
          simp [mentions, hv]
        · obtain ⟨h1, h2, h3⟩ := ih h
          simp only [mentions, hv.1, if_true, List.mem_cons]
          exact ⟨Or.inr (Or.inr h1), Or.inr (Or.inr h2), h3⟩
      · obtain ⟨h1, h2, h3⟩ := ih h
        simp only [mentions]
        split
        · exact ⟨List.mem_cons_of_mem _ (List.mem_cons_of_mem _ h1),
            List.mem_cons_of_mem _ (List.mem_cons_of_mem _ h2), h3⟩
        · exact ⟨h1, h2, h3⟩

theorem frameCalls_congr {ids ids' : Name → Nat} {n : Name} {ops : List (Op X)}
    (h : ∀ k ∈ mentions ops, ids k = ids' k) : frameCalls ids n ops = frameCalls ids' n ops := by
  induction ops with
  | nil => rfl
  | cons o r ih =>
    cases o with
    | clear => simp only [frameCalls]; rw [ih h]
    | set m a s =>
      simp only [frameCalls]
      simp only [mentions] at h
      by_cases hv : ValidMsg m
      · rw [if_pos hv] at h
        have hr := ih (fun k hk => h k (List.mem_cons_of_mem _ (List.mem_cons_of_mem _ hk)))
        split
        · rename_i hc
          rw [hr, h (stripSlash m.parent) (by simp), ← hc.2, h (stripSlash m.child) (by simp)]
        · exact hr
      · rw [if_neg hv] at h
        rw [if_neg (fun h => hv h.1), if_neg (fun h => hv h.1)]
        exact ih h

/-- Without offers a history only clears. -/
theorem frameCalls_nil {ids : Name → Nat} {n : Name} {ops : List (Op X)} (h : offersFor n ops = [])
    (D : Duration) : Cache.run (.dyn D []) (frameCalls ids n ops) = .dyn D [] := by
  induction ops with
  | nil => rfl
  | cons o r ih =>
    cases o with
    | clear => exact ih h
    | set m a s =>
      simp only [offersFor] at h
      simp only [frameCalls]
      split at h
      · cases h
      · rename_i hc
        rw [if_neg hc]; exact ih h

theorem lookupFrameNumber_step {D : Duration} {b : Buf X} (hw : WF D b) (o : Op X) {n : Name} {i : Nat}
    (h : b.frameIDs n = some i) : (b.step o).lookupFrameNumber n = b.lookupFrameNumber n := by
  unfold Buf.lookupFrameNumber
  rw [frameIDs_step hw o h, h]

/-- An id that is new has no cache yet. -/
theorem getFrame_fresh {D : Duration} {b b' : Buf X} (hw : WF D b) (hw' : WF D b')
    (hold : ∀ n i, b.frameIDs n = some i → b'.frameIDs n = some i) {n : Name} {i : Nat}
    (hn : b.frameIDs n = none) (hi : b'.frameIDs n = some i) : b.getFrame i = none := by
  cases hc : b.getFrame i with
  | none => rfl
  | some c =>
    exfalso
    have hlt := Buf.getFrame_lt hc
    have hlt' : i < b.frameIDsReverse.length := by rw [hw.lenEq]; exact hlt
    have h1 := (hw.ids b.frameIDsReverse[i] i).2 (List.getElem?_eq_getElem hlt')
    have h2 := hw'.inj (hold _ _ h1) hi
    rw [h2, hn] at h1; cases h1

theorem frame_content (D : Duration) {n : Name} (hn : n ≠ noParentName) (ops : List (Op X)) :
    FrameContent D ops ((Buf.init D).run ops) n := by
  induction ops using snoc_induction with
  | nil =>
    intro i hi
    simp only [Buf.run, List.foldl_nil, Buf.init] at hi
    rw [if_neg hn] at hi; cases hi
  | snoc l o ih =>
    have hw : WF D ((Buf.init D).run l) := WF.run (WF.init D) l
    have hreg := mentions_registered (D := D) l
    generalize hb : (Buf.init D).run l = b at *
    rw [run_snoc, hb]
    have hw' : WF D (b.step o) := hw.step o
    have hstab : ∀ k ∈ mentions l, (b.step o).lookupFrameNumber k = b.lookupFrameNumber k := by
      intro k hk
      obtain ⟨i, hi⟩ := hreg k hk
      exact lookupFrameNumber_step hw o hi
    have hfc : frameCalls (b.step o).lookupFrameNumber n l = frameCalls b.lookupFrameNumber n l :=
      frameCalls_congr hstab
    unfold FrameContent at ih ⊢
    rw [offersFor_append, frameCalls_append, hfc]
    have hi0 : ∀ i, b.frameIDs n = some i → i ≠ 0 := by
      intro i hi h0; subst h0; exact hn (hw.frameIDs_zero.1 hi)
    have hpar : ∀ m s, (m, s) ∈ offersFor n l →
        (b.step o).lookupFrameNumber (stripSlash m.parent) = b.lookupFrameNumber (stripSlash m.parent) :=
      fun m s h => hstab _ (offersFor_mentions h).2.1
    -- the case where this call is not an offer for `n`: caches of `n` as before or cleared
    cases o with
    | clear =>
      have ho : offersFor n [(Op.clear : Op X)] = [] := rfl
      rw [ho, List.append_nil]
      match hoff : offersFor n l with
      | [] =>
        rw [hoff] at ih
        intro i hi
        simp only [Buf.step] at hi ⊢
        rw [Buf.getFrame_clear, if_neg (hi0 i hi), ih i hi]; rfl
      | (m0, true) :: r =>
        rw [hoff] at ih
        obtain ⟨i, m, s, h1, h2, h3⟩ := ih
        refine ⟨i, m, s, h1, h2, ?_⟩
        simp only [Buf.step]
        rw [Buf.getFrame_clear, if_neg (hi0 i h1), h3]; rfl
      | (m0, false) :: r =>
        rw [hoff] at ih
        obtain ⟨i, h1, h3⟩ := ih
        refine ⟨i, h1, ?_⟩
        simp only [Buf.step]
        rw [Buf.getFrame_clear, if_neg (hi0 i h1), h3, Cache.run_append]
        rfl
    | set m a s =>
      by_cases hv : ValidMsg m
      · obtain ⟨cid, pid, c0, c1, ir, st⟩ := Buf.setTransform_step hw.names m a s ((msgValid_iff m).2 hv)
        have hst : b.step (.set m a s) = (b.setTransform m a s).1 := rfl
        by_cases hc : stripSlash m.child = n
        · -- an offer for `n`
          have ho : offersFor n [Op.set m a s] = [(m, s)] := by simp [offersFor, hv, hc]
          have hcid : (b.step (.set m a s)).frameIDs n = some cid := by
            rw [hst, ← hc]; exact st.hcid
          have hpid : (b.step (.set m a s)).lookupFrameNumber (stripSlash m.parent) = pid := by
            have h := st.hpid
            simp only [Buf.stripMsg] at h
            unfold Buf.lookupFrameNumber; rw [hst, h]; rfl
          have hcid' : (b.step (.set m a s)).lookupFrameNumber n = cid := by
            unfold Buf.lookupFrameNumber; rw [hcid]; rfl
          have hfo : frameCalls (b.step (.set m a s)).lookupFrameNumber n [Op.set m a s] =
              [.insert ⟨m.stamp, pid, cid, m.xf⟩] := by
            simp only [frameCalls, hv, hc, and_self, if_true, hpid, hcid']
          have hget : (b.step (.set m a s)).getFrame cid = some c1 := by
            rw [hst, st.hframes, if_pos rfl]
          rw [ho, hfo]
          have hins := st.hins
          simp only [Buf.stripMsg] at hins
          have hc0 := st.hc0
          match hoff : offersFor n l with
          | [] =>
            rw [hoff] at ih
            have hnone : b.getFrame cid = none := by
              cases hbn : b.frameIDs n with
              | some i =>
                have := frameIDs_step hw (.set m a s) hbn
                rw [hcid] at this; injection this with this; subst this
                exact ih _ hbn
              | none => exact getFrame_fresh hw hw' (fun n i h => frameIDs_step hw _ h) hbn hcid
            rw [hnone, Option.getD_none] at hc0
            simp only [Buf.newCache] at hc0
            cases s with
            | true =>
              simp only [if_true] at hc0
              rw [hc0] at hins
              simp only [Cache.insert, Prod.mk.injEq] at hins
              refine ⟨cid, m, true, hcid, rfl, ?_⟩
              rw [hget, ← hins.1, hpid]
            | false =>
              simp only [Bool.false_eq_true, if_false, hw.cacheTime] at hc0
              refine ⟨cid, hcid, ?_⟩
              rw [hget, Cache.run_append, frameCalls_nil hoff]
              simp only [Cache.run]
              rw [← hc0, hins]
          | (m0, true) :: r =>
            rw [hoff] at ih
            obtain ⟨i, m', s', h1, h2, h3⟩ := ih
            have := frameIDs_step hw (.set m a s) h1
            rw [hcid] at this; injection this with this; subst this
            rw [h3, Option.getD_some] at hc0
            rw [hc0] at hins
            simp only [Cache.insert, Prod.mk.injEq] at hins
            refine ⟨cid, m, s, hcid, List.getLast?_concat, ?_⟩
            rw [hget, ← hins.1, hpid]
          | (m0, false) :: r =>
            rw [hoff] at ih
            obtain ⟨i, h1, h3⟩ := ih
            have := frameIDs_step hw (.set m a s) h1
            rw [hcid] at this; injection this with this; subst this
            rw [h3, Option.getD_some] at hc0
            refine ⟨cid, hcid, ?_⟩
            rw [hget, Cache.run_append]
            simp only [Cache.run]
            rw [← hc0, hins]
        · -- a valid message for another frame
          have ho : offersFor n [Op.set m a s] = [] := by simp [offersFor, hc]
          have hfo : frameCalls (b.step (.set m a s)).lookupFrameNumber n [Op.set m a s] = [] := by
            simp [frameCalls, hc]
          have hcidc : (b.step (.set m a s)).frameIDs (stripSlash m.child) = some cid := st.hcid
          have hsame : ∀ i, (b.step (.set m a s)).frameIDs n = some i →
              (b.step (.set m a s)).getFrame i = b.getFrame i := by
            intro i hi
            rw [hst, st.hframes, if_neg]
            rintro rfl
            exact hc (hw'.inj hcidc hi)
          rw [ho, hfo, List.append_nil, List.append_nil]
          match hoff : offersFor n l with
          | [] =>
            rw [hoff] at ih
            intro i hi
            rw [hsame i hi]
            cases hbn : b.frameIDs n with
            | some j =>
              have := frameIDs_step hw (.set m a s) hbn
              rw [hi] at this; injection this with this; subst this
              exact ih _ hbn
            | none => exact getFrame_fresh hw hw' (fun n i h => frameIDs_step hw _ h) hbn hi
          | (m0, true) :: r =>
            rw [hoff] at ih
            obtain ⟨i, m', s', h1, h2, h3⟩ := ih
            have h1' := frameIDs_step hw (.set m a s) h1
            refine ⟨i, m', s', h1', h2, ?_⟩
            rw [hsame i h1', h3, hpar m' s' (by rw [hoff]; exact List.mem_of_getLast? h2)]
          | (m0, false) :: r =>
            rw [hoff] at ih
            obtain ⟨i, h1, h3⟩ := ih
            have h1' := frameIDs_step hw (.set m a s) h1
            exact ⟨i, h1', by rw [hsame i h1', h3]⟩
      · have hbs : b.step (.set m a s) = b := by
          simp only [Buf.step]; rw [Buf.setTransform_invalid (msgValid_false hv)]
        have ho : offersFor n [Op.set m a s] = [] := by simp [offersFor, hv]
        have hfo : ∀ ids, frameCalls ids n [Op.set m a s] = [] := by
          intro ids; simp [frameCalls, hv]
        rw [ho, hfo, List.append_nil, List.append_nil, hbs]
        exact ih

end

end Tf2
