import Verif.Spec.PyCloud
import Mathlib.Data.List.Sort
import Mathlib.Data.List.Forall2

/-!
# Lemmas about clouds in Python
-/
namespace Tf2.Geo.Py

theorem each_some {α β : Type} {f : α → Option β} : ∀ {l : List α} {ys : List β},
    each f l = some ys ↔ List.Forall₂ (fun x y => f x = some y) l ys
  | [], ys => by
    cases ys <;> simp [each]
  | x :: xs, ys => by
    unfold each
    constructor
    · intro h
      cases hx : f x with
      | none => simp [hx] at h
      | some y =>
        cases hy : each f xs with
        | none => simp [hx, hy] at h
        | some zs =>
          simp only [hx, hy, Option.some.injEq] at h
          subst h
          exact .cons hx (each_some.1 hy)
    · intro h
      cases h with
      | cons hx hr => simp only [hx, each_some.2 hr]

theorem each_ok {α β : Type} {f : α → Option β} : ∀ {l : List α}, (∃ ys, each f l = some ys) ↔ ∀ x ∈ l, ∃ y, f x = some y
  | [] => by simp [each]
  | x :: xs => by
    constructor
    · rintro ⟨ys, h⟩
      have h := each_some.1 h
      cases h with
      | cons hx hr =>
        intro z hz
        rcases List.mem_cons.1 hz with rfl | hz
        · exact ⟨_, hx⟩
        · exact each_ok.1 ⟨_, each_some.2 hr⟩ z hz
    · intro h
      obtain ⟨y, hy⟩ := h x List.mem_cons_self
      obtain ⟨ys, hys⟩ := each_ok.2 (fun z hz => h z (List.mem_cons_of_mem _ hz))
      exact ⟨y :: ys, each_some.2 (.cons hy (each_some.1 hys))⟩

theorem layout_off_le : ∀ (fs : List Field) (off : Nat), off ≤ (layout off fs).2
  | [], off => by simp [layout]
  | f :: fs, off => by
    have := layout_off_le fs ((if off < f.offset then f.offset else off) + f.count)
    simp only [layout]
    split at this <;> split <;> omega

theorem layout_bounds : ∀ (fs : List Field) (off : Nat), ∀ a ∈ (layout off fs).1, off ≤ a ∧ a < (layout off fs).2
  | [], off => by simp [layout]
  | f :: fs, off => by
    intro a ha
    simp only [layout, List.mem_append, List.mem_map, List.mem_range] at ha
    have hle := layout_off_le fs ((if off < f.offset then f.offset else off) + f.count)
    simp only [layout]
    rcases ha with ⟨j, hj, rfl⟩ | ha
    · split at hle <;> split <;> omega
    · have := layout_bounds fs _ a ha
      split at this <;> split <;> omega

theorem layout_sorted : ∀ (fs : List Field) (off : Nat), (layout off fs).1.Pairwise (· < ·)
  | [], off => by simp [layout]
  | f :: fs, off => by
    simp only [layout]
    rw [List.pairwise_append]
    refine ⟨?_, layout_sorted fs _, ?_⟩
    · rw [List.pairwise_map]
      exact List.pairwise_lt_range.imp (by intro a b h; omega)
    · intro a ha b hb
      simp only [List.mem_map, List.mem_range] at ha
      obtain ⟨j, hj, rfl⟩ := ha
      have := (layout_bounds fs _ b hb).1
      omega

/-- Fields in order, each after the end of the one before. -/
def Ordered (fs : List Field) : Prop := fs.Pairwise (fun f g => f.offset + f.count ≤ g.offset)

theorem layout_ordered : ∀ (fs : List Field) (off : Nat), Ordered fs → (∀ f ∈ fs, off ≤ f.offset) →
    (∀ a, a ∈ (layout off fs).1 ↔ Covered fs a) ∧
    (∀ n, (layout off fs).2 ≤ n ↔ off ≤ n ∧ ∀ f ∈ fs, f.offset + f.count ≤ n)
  | [], off => by simp [layout, Covered]
  | f :: fs, off => by
    intro ho hf
    have h0 := hf f List.mem_cons_self
    have e : (if off < f.offset then f.offset else off) = f.offset := by split <;> omega
    have ho' := List.pairwise_cons.1 ho
    obtain ⟨ih1, ih2⟩ := layout_ordered fs (f.offset + f.count) ho'.2 ho'.1
    simp only [layout, e]
    refine ⟨fun a => ?_, fun n => ?_⟩
    · rw [List.mem_append, ih1]
      simp only [List.mem_map, List.mem_range, Covered, List.mem_cons, exists_eq_or_imp]
      constructor
      · rintro (⟨j, hj, rfl⟩ | h)
        · left; omega
        · exact Or.inr h
      · rintro (h | h)
        · exact Or.inl ⟨a - f.offset, by omega, by omega⟩
        · exact Or.inr h
    · rw [ih2]
      simp only [List.mem_cons, forall_eq_or_imp]
      constructor
      · rintro ⟨h, hr⟩; exact ⟨by omega, h, hr⟩
      · rintro ⟨_, h, hr⟩; exact ⟨h, hr⟩

instance : Std.Total (fun f g : Field => f.offset ≤ g.offset) := ⟨fun a b => Nat.le_total a.offset b.offset⟩
instance : IsTrans Field (fun f g : Field => f.offset ≤ g.offset) := ⟨fun _ _ _ h h' => Nat.le_trans h h'⟩

theorem sorted_ordered {fs : List Field} (h : Separate fs) :
    Ordered (fs.insertionSort (fun f g => f.offset ≤ g.offset)) := by
  have h1 : (fs.insertionSort (fun f g => f.offset ≤ g.offset)).Pairwise
      (fun f g => f.offset + f.count ≤ g.offset ∨ g.offset + g.count ≤ f.offset) :=
    (List.Perm.pairwise_iff (fun h => h.symm) (List.perm_insertionSort _ fs)).2 h.2
  have h2 := List.pairwise_insertionSort (fun f g : Field => f.offset ≤ g.offset) fs
  refine (h1.and h2).imp_of_mem ?_
  rintro f g hf hg ⟨h1, h2⟩
  have := h.1 g ((List.perm_insertionSort _ fs).mem_iff.1 hg)
  omega

theorem covered_perm {fs gs : List Field} (h : fs.Perm gs) (a : Nat) : Covered fs a ↔ Covered gs a := by
  unfold Covered; simp only [h.mem_iff]

theorem struct_mem {fs : List Field} (h : Separate fs) (a : Nat) : a ∈ (structOf fs).1 ↔ Covered fs a := by
  rw [← covered_perm (List.perm_insertionSort (fun f g : Field => f.offset ≤ g.offset) fs) a]
  exact (layout_ordered _ 0 (sorted_ordered h) (by intros; omega)).1 a

theorem struct_size {fs : List Field} (h : Separate fs) (n : Nat) :
    (structOf fs).2 ≤ n ↔ ∀ f ∈ fs, f.offset + f.count ≤ n := by
  have := (layout_ordered _ 0 (sorted_ordered h) (by intros; omega)).2 n
  simp only [(List.perm_insertionSort (fun f g : Field => f.offset ≤ g.offset) fs).mem_iff] at this
  unfold structOf
  rw [this]
  simp

theorem struct_sorted (fs : List Field) : (structOf fs).1.Pairwise (· < ·) := layout_sorted _ _

theorem struct_lt {fs : List Field} {a : Nat} (h : a ∈ (structOf fs).1) : a < (structOf fs).2 := (layout_bounds _ _ a h).2

theorem starts_eq (c : Cloud2) : starts c = (List.range (c.width * c.height)).map c.start := by
  unfold starts
  have key : ∀ h, (List.range h).flatMap (fun v => (List.range c.width).map (fun u => c.rowStep * v + c.pointStep * u)) =
      (List.range (c.width * h)).map c.start := by
    intro h
    induction h with
    | zero => simp
    | succ h ih =>
      rw [List.range_succ, List.flatMap_append, ih, Nat.mul_succ, List.range_add, List.map_append]
      congr 1
      simp only [List.flatMap_cons, List.flatMap_nil, List.append_nil, List.map_map]
      apply List.map_congr_left
      intro u hu
      have hu := List.mem_range.1 hu
      simp only [Function.comp, Cloud2.start]
      rw [Nat.mul_add_div (by omega), Nat.div_eq_of_lt hu, Nat.mul_add_mod, Nat.mod_eq_of_lt hu, Nat.add_zero]
  exact key c.height

theorem pack_fold : ∀ (L : List Nat) (p buf : List ℝ), L.Pairwise (· < ·) → p.length = L.length →
    (∀ a ∈ L, a < buf.length) →
    let d := (L.zip p).foldl (fun d av => d.set av.1 av.2) buf
    d.length = buf.length ∧ (∀ k (h : k < L.length), d.getD L[k] 0 = p.getD k 0) ∧ (∀ a, a ∉ L → d.getD a 0 = buf.getD a 0)
  | [], p, buf => by simp
  | a :: L, [], buf => by simp
  | a :: L, v :: p, buf => by
    intro hs hl hb
    have hs := List.pairwise_cons.1 hs
    have hna : a ∉ L := fun h => Nat.lt_irrefl a (hs.1 a h)
    obtain ⟨h1, h2, h3⟩ := pack_fold L p (buf.set a v) hs.2 (by simpa using hl)
      (fun b hb' => by simpa using hb b (List.mem_cons_of_mem _ hb'))
    simp only [List.zip_cons_cons, List.foldl_cons]
    refine ⟨by simpa using h1, ?_, ?_⟩
    · rintro (_ | k) h
      · have := hb a List.mem_cons_self
        simp only [List.getElem_cons_zero]
        rw [h3 a hna]
        simp [List.getD_eq_getElem?_getD, List.getElem?_set, this]
      · simpa using h2 k (by simpa using h)
    · intro b hb'
      have hb' : b ≠ a ∧ b ∉ L := by simpa using hb'
      rw [h3 b hb'.2]
      simp [List.getD_eq_getElem?_getD, List.getElem?_set, hb'.1.symm]

theorem flatten_getD {n : Nat} : ∀ (bufs : List (List ℝ)), (∀ b ∈ bufs, b.length = n) → ∀ i, i < bufs.length → ∀ a, a < n →
    bufs.flatten.getD (n * i + a) 0 = (bufs.getD i []).getD a 0
  | [], _, i, hi, _, _ => by simp at hi
  | b :: bufs, h, 0, _, a, ha => by
    have := h b List.mem_cons_self
    simp [List.getD_eq_getElem?_getD, List.getElem?_append, this, ha]
  | b :: bufs, h, i + 1, hi, a, ha => by
    have hb := h b List.mem_cons_self
    have ih := flatten_getD bufs (fun b hb => h b (List.mem_cons_of_mem _ hb)) i (by simpa using hi) a ha
    simp only [List.flatten_cons, List.getD_cons_succ]
    rw [← ih]
    simp only [List.getD_eq_getElem?_getD, List.getElem?_append, hb]
    rw [if_neg (by rw [Nat.mul_succ]; omega)]
    congr 2
    rw [Nat.mul_succ]; omega

theorem flatten_length {n : Nat} : ∀ (bufs : List (List ℝ)), (∀ b ∈ bufs, b.length = n) → bufs.flatten.length = n * bufs.length
  | [], _ => by simp
  | b :: bufs, h => by
    rw [List.flatten_cons, List.length_append, h b List.mem_cons_self,
      flatten_length bufs (fun b hb => h b (List.mem_cons_of_mem _ hb)), List.length_cons, Nat.mul_succ, Nat.add_comm]

/-- Sorted, with `a`, `b`, `d` the first three elements. -/
theorem first_three {L : List Nat} (hs : L.Pairwise (· < ·)) {a b d : Nat} (hab : a < b) (hbd : b < d) (ha : a ∈ L) (hb : b ∈ L)
    (hd : d ∈ L) (h : ∀ e ∈ L, e = a ∨ e = b ∨ d ≤ e) : ∃ r, L = a :: b :: d :: r := by
  match L, hs, ha, hb, hd, h with
  | [], _, ha, _, _, _ => simp at ha
  | [x], _, ha, hb, _, _ => simp at ha hb; omega
  | [x, y], _, ha, hb, hd, _ => simp at ha hb hd; omega
  | x :: y :: z :: r, hs, ha, hb, hd, h =>
    simp only [List.pairwise_cons, List.mem_cons] at hs ha hb hd h
    have hxy := hs.1 y (Or.inl rfl)
    have hyz := hs.2.1 z (Or.inl rfl)
    have hx := h x (Or.inl rfl)
    have hy := h y (Or.inr (Or.inl rfl))
    have hz := h z (Or.inr (Or.inr (Or.inl rfl)))
    have ha' : x ≤ a := by
      rcases ha with e | e | e | e
      · omega
      · omega
      · omega
      · have := hs.1 a (Or.inr (Or.inr e)); omega
    have hb' : b = x ∨ y ≤ b := by
      rcases hb with e | e | e | e
      · omega
      · omega
      · omega
      · have := hs.2.1 b (Or.inr e); omega
    have hd' : d = x ∨ d = y ∨ z ≤ d := by
      rcases hd with e | e | e | e
      · omega
      · omega
      · omega
      · have := hs.2.2.1 d e; omega
    obtain rfl : x = a := by omega
    obtain rfl : y = b := by omega
    obtain rfl : z = d := by omega
    exact ⟨r, rfl⟩

/-- What a transformed cloud is, and when there is one. -/
theorem doTransformCloud_some {L : RotLib} {c r : Cloud2} {tf : TfStamped} (h : doTransformCloud L c tf = some r) :
    ∃ pts : List (List ℝ), pts.length = c.width * c.height ∧
      (∀ i, i < c.width * c.height → c.start i + (structOf c.fields).2 ≤ c.data.length ∧
        movePoint (Kdl.toKdl L tf.transform) ((structOf c.fields).1.map (c.word i)) = some (pts.getD i [])) ∧
      createCloud tf.header c.fields pts = some r := by
  unfold doTransformCloud at h
  dsimp only at h
  split at h
  · cases h
  · rename_i pts hp
    rw [each_some, starts_eq] at hp
    have hlen := hp.length_eq
    rw [List.length_map, List.length_range] at hlen
    refine ⟨pts, hlen.symm, fun i hi => ?_, h⟩
    have hg := hp.get (i := i) (by simpa using hi) (by omega)
    simp only [List.get_eq_getElem, List.getElem_map, List.getElem_range] at hg
    rw [Option.bind_eq_some_iff] at hg
    obtain ⟨p, hu, hm⟩ := hg
    unfold unpackFrom at hu
    split at hu
    · rename_i hle
      refine ⟨hle, ?_⟩
      rw [← Option.some.inj hu] at hm
      rw [List.getD_eq_getElem?_getD, List.getElem?_eq_getElem (by omega), Option.getD_some]
      exact hm
    · cases hu

theorem movePoint_length {t : Xform ℝ} {p q : List ℝ} (h : movePoint t p = some q) : q.length = p.length ∧ 3 ≤ p.length := by
  unfold movePoint at h
  split at h
  · have := Option.some.inj h
    subst this; simp
  · cases h

theorem createCloud_some {h : Header} {fields : List Field} {pts : List (List ℝ)} {r : Cloud2} (hr : createCloud h fields pts = some r) :
    (r.header = h ∧ r.height = 1 ∧ r.width = pts.length ∧ r.fields = fields ∧ r.dense = false ∧ r.pointStep = (structOf fields).2 ∧
      r.rowStep = r.pointStep * r.width) ∧
    r.data.length = (structOf fields).2 * pts.length ∧
    (∀ i, i < pts.length → r.start i = (structOf fields).2 * i) ∧
    (∀ i, i < pts.length → ∀ k (hk : k < (structOf fields).1.length), r.word i (structOf fields).1[k] = (pts.getD i []).getD k 0) := by
  unfold createCloud at hr
  dsimp only at hr
  split at hr
  · cases hr
  · rename_i bufs hb
    rw [each_some] at hb
    have hlen := hb.length_eq
    have hbl : ∀ b ∈ bufs, b.length = (structOf fields).2 := by
      intro b hbm
      obtain ⟨i, hi, rfl⟩ := List.getElem_of_mem hbm
      have hg := hb.get (i := i) (by omega) hi
      simp only [List.get_eq_getElem] at hg
      unfold packPoint at hg
      split at hg
      · rename_i hpl
        rw [← Option.some.inj hg]
        have := (pack_fold (structOf fields).1 _ (List.replicate (structOf fields).2 0) (struct_sorted _) hpl
          (fun a ha => by simpa using struct_lt ha)).1
        simpa using this
      · cases hg
    have e := Option.some.inj hr
    subst e
    have hstart : ∀ i, i < pts.length → Cloud2.start ⟨h, 1, pts.length, fields, (structOf fields).2,
        (structOf fields).2 * pts.length, bufs.flatten, false⟩ i = (structOf fields).2 * i := by
      intro i hi
      simp only [Cloud2.start]
      rw [Nat.div_eq_of_lt hi, Nat.mod_eq_of_lt hi, Nat.mul_zero, Nat.zero_add]
    refine ⟨⟨rfl, rfl, rfl, rfl, rfl, rfl, rfl⟩, ?_, hstart, ?_⟩
    · rw [flatten_length bufs hbl, hlen]
    · intro i hi k hk
      unfold Cloud2.word
      rw [hstart i hi]
      have hlt := struct_lt (List.getElem_mem hk)
      rw [flatten_getD bufs hbl i (by omega) _ hlt]
      have hg := hb.get (i := i) hi (by omega)
      simp only [List.get_eq_getElem] at hg
      unfold packPoint at hg
      split at hg
      · rename_i hpl
        have hp := (pack_fold (structOf fields).1 _ (List.replicate (structOf fields).2 0) (struct_sorted _) hpl
          (fun a ha => by simpa using struct_lt ha)).2.1 k hk
        have e1 : bufs.getD i [] = bufs[i]'(by omega) := by
          rw [List.getD_eq_getElem?_getD, List.getElem?_eq_getElem (by omega), Option.getD_some]
        have e2 : pts.getD i [] = pts[i] := by
          rw [List.getD_eq_getElem?_getD, List.getElem?_eq_getElem (by omega), Option.getD_some]
        rw [e1, e2, ← Option.some.inj hg]
        exact hp
      · cases hg

theorem createCloud_ok {h : Header} {fields : List Field} {pts : List (List ℝ)} (hp : ∀ p ∈ pts, p.length = (structOf fields).1.length) :
    ∃ r, createCloud h fields pts = some r := by
  obtain ⟨bufs, hb⟩ := (each_ok (f := packPoint (structOf fields)) (l := pts)).2 (fun p hp' => ⟨_, by unfold packPoint; rw [if_pos (hp p hp')]⟩)
  unfold createCloud
  dsimp only
  rw [hb]
  exact ⟨_, rfl⟩

end Tf2.Geo.Py
