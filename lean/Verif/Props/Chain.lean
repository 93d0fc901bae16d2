import Verif.Proofs.Path
import Verif.Proofs.Examples

/-!
# Properties of chain listings: C35
-/
namespace Tf2

variable {X : Type} [Rigid X]

/-- The frames on the path between two frames that meet at `q`: up from the one, down to the other. -/
def pathFrames (up : List Nat) (q : Nat) (down : List Nat) : List Nat := up ++ q :: down.reverse

/-- What the code lists: the path, except when the source is a direct child of the meeting frame and
the target is not that frame; then all ancestors of the meeting frame (`top`) are listed in between. -/
def listedFrames (up : List Nat) (q : Nat) (down top : List Nat) : List Nat :=
  if up.length = 1 ∧ down ≠ [] then up ++ q :: top ++ down.reverse else pathFrames up q down

theorem FramePath.mem_lt {D : Duration} {b : Buf X} (hw : WF D b) {t : Time} {a c : Nat} {l : List Nat}
    (h : FramePath b t a c l) (ha : a < b.frames.length) : ∀ f ∈ l, f < b.frames.length := by
  induction h with
  | nil a => intro f hf; simp at hf; subst hf; exact ha
  | @cons a p c e l he _ ih =>
    intro f hf
    rcases List.mem_cons.1 hf with rfl | hf
    · exact ha
    · obtain ⟨_, c', s, hc, hd, hp, _⟩ := he
      exact ih (by rw [← hp]; exact ((hw.caches _ _ hc).getData_parent hd).1) f hf

theorem chainNames_ok {D : Duration} {b : Buf X} (hw : WF D b) (l : List Nat)
    (h : ∀ i ∈ l, i < b.frames.length) :
    ∃ names, b.chainNames l = .ok names ∧ names.map b.frameIDs = l.map some := by
  induction l with
  | nil => exact ⟨[], rfl, rfl⟩
  | cons i r ih =>
    obtain ⟨ns, h1, h2⟩ := ih (fun j hj => h j (List.mem_cons_of_mem _ hj))
    have hi := h i (List.mem_cons_self ..)
    rw [← hw.lenEq] at hi
    have hg := List.getElem?_eq_getElem hi
    refine ⟨b.frameIDsReverse[i] :: ns, ?_, ?_⟩
    · simp [Buf.chainNames, Buf.lookupFrameString, hg, h1]
    · simp [h2, (hw.ids _ _).2 hg]

theorem listed_lt {D : Duration} {b : Buf X} (hw : WF D b) {t : Time} {s g q : Nat} {up down top : List Nat}
    (h : Meets b t s g q up down top) (hs : s < b.frames.length) (hg : g < b.frames.length) :
    ∀ i ∈ listedFrames up q down top, i < b.frames.length := by
  obtain ⟨r, h1, h2, _⟩ := h.root
  have m1 := h1.mem_lt hw hs
  have m2 := h2.mem_lt hw hg
  intro i hi
  unfold listedFrames pathFrames at hi
  split at hi
  · simp only [List.append_assoc, List.mem_append, List.cons_append, List.mem_cons, List.mem_reverse] at hi
    rcases hi with h | h | h | h
    · exact m1 i (by simp [h])
    · exact m1 i (by simp [h])
    · exact m1 i (by simp [h])
    · exact m2 i (by simp [h])
  · simp only [List.mem_append, List.mem_cons, List.mem_reverse] at hi
    rcases hi with h | h | h
    · exact m1 i (by simp [h])
    · exact m1 i (by simp [h])
    · exact m2 i (by simp [h])

/-- **C35, exact behaviour.** Between two different frames that meet at time `t ≠ 0`, the chain
listing (with the target as fixed frame) succeeds and lists `listedFrames`. -/
theorem C35_listing {D : Duration} {b : Buf X} (hr : Reachable D b) {target source : Name} {g s q : Nat}
    {up down top : List Nat} {t t' : Time} (ht : t ≠ 0) (hg : IsFrame b target g) (hs : IsFrame b source s)
    (hne : s ≠ g) (h : Meets b t s g q up down top) :
    ∃ names, b.chainAsVector target t' source t target = .ok names ∧
      names.map b.frameIDs = (listedFrames up q down top).map some := by
  have hw := hr.wf
  obtain ⟨a', ha⟩ := walkAt_chain hw hs.1 hne h (TAcc.init : TAcc X)
  obtain ⟨names, h1, h2⟩ := chainNames_ok hw _ (listed_lt hw h (hw.id_lt hs.2) (hw.id_lt hg.2))
  refine ⟨names, ?_, h2⟩
  unfold Buf.chainAsVector
  rw [lookupFrameNumber_isFrame hg, lookupFrameNumber_isFrame hs]
  have w1 : b.walk transformAccum TAcc.init t g s = .done a' (listedFrames up q down top) := by
    unfold Buf.walk
    rw [if_neg hne, if_neg ht, ha]
    rfl
  have w2 : b.walk transformAccum a' t' g g = .done (transformAccum.finalize .identity t' a') [] := by
    unfold Buf.walk
    rw [if_pos rfl]
  simp only [w1, w2]
  simpa using h1

/-- **C35.** The listing is the path from source to target, each frame once, unless the source is a
direct child of the meeting frame, the target is not the meeting frame, and the meeting frame has a
parent at that time. -/
theorem C35_path {D : Duration} {b : Buf X} (hr : Reachable D b) {target source : Name} {g s q : Nat}
    {up down top : List Nat} {t t' : Time} (ht : t ≠ 0) (hg : IsFrame b target g) (hs : IsFrame b source s)
    (hne : s ≠ g) (h : Meets b t s g q up down top) (hgood : up.length ≠ 1 ∨ down = [] ∨ top = []) :
    ∃ names, b.chainAsVector target t' source t target = .ok names ∧
      names.map b.frameIDs = (pathFrames up q down).map some ∧ names.Nodup ∧
      names.head? = some source ∧ names.getLast? = some target := by
  obtain ⟨names, h1, h2⟩ := C35_listing (t' := t') hr ht hg hs hne h
  have e : listedFrames up q down top = pathFrames up q down := by
    unfold listedFrames
    split
    · rename_i hc
      rcases hgood with hh | hh | hh
      · exact absurd hc.1 hh
      · exact absurd hh hc.2
      · subst hh; simp [pathFrames]
    · rfl
  rw [e] at h2
  have hw := hr.wf
  obtain ⟨r, p1, p2, hend⟩ := h.root
  have nd1 := p1.nodup hend
  have nd2 := p2.nodup hend
  have hnd : (pathFrames up q down).Nodup := by
    unfold pathFrames
    rw [List.nodup_append] at nd1 nd2 ⊢
    have n1 := nd1.2.1
    have n2 := nd2.2.1
    refine ⟨nd1.1, ?_, ?_⟩
    · rw [List.nodup_cons]
      refine ⟨?_, List.pairwise_reverse.2 (List.Pairwise.imp Ne.symm nd2.1)⟩
      intro hq
      exact nd2.2.2 q (by simpa using hq) q (by simp) rfl
    · intro x hx y hy e
      subst e
      rcases List.mem_cons.1 hy with rfl | hy
      · exact nd1.2.2 x hx x (by simp) rfl
      · exact h.disjoint x hx (by simpa using hy)
  have hhead : (pathFrames up q down).head? = some s := by
    obtain ⟨l', e⟩ := p1.head
    unfold pathFrames
    cases up with
    | nil => simp at e ⊢; exact e.1
    | cons x r => simp at e ⊢; exact e.1
  have hlast : (pathFrames up q down).getLast? = some g := by
    obtain ⟨l', e⟩ := p2.head
    unfold pathFrames
    cases down with
    | nil => simp at e ⊢; exact e.1
    | cons x r => simp at e; simp [e.1, List.getLast?_cons]
  refine ⟨names, h1, h2, ?_, ?_, ?_⟩
  · have : ((pathFrames up q down).map some).Nodup := by
      rw [List.Nodup, List.pairwise_map]
      exact hnd.imp (fun h e => h (by injection e))
    rw [← h2, List.Nodup, List.pairwise_map] at this
    exact this.imp (fun h e => h (by rw [e]))
  · have h3 := congrArg List.head? h2
    rw [List.head?_map, List.head?_map, hhead] at h3
    cases hn : names.head? with
    | none => rw [hn] at h3; cases h3
    | some n =>
      rw [hn] at h3
      simp only [Option.map_some, Option.some.injEq] at h3
      rw [hw.inj h3 hs.2]
  · have h3 := congrArg List.getLast? h2
    rw [List.getLast?_map, List.getLast?_map, hlast] at h3
    cases hn : names.getLast? with
    | none => rw [hn] at h3; cases h3
    | some n =>
      rw [hn] at h3
      simp only [Option.map_some, Option.some.injEq] at h3
      rw [hw.inj h3 hg.2]

theorem listed_ends {b : Buf X} {t : Time} {s g q : Nat} {up down top : List Nat}
    (h : Meets b t s g q up down top) :
    (listedFrames up q down top).head? = some s ∧ (listedFrames up q down top).getLast? = some g := by
  obtain ⟨r, p1, p2, _⟩ := h.root
  obtain ⟨l1, e1⟩ := p1.head
  obtain ⟨l2, e2⟩ := p2.head
  unfold listedFrames pathFrames
  constructor
  · split <;> cases up <;> simp at e1 ⊢ <;> exact e1.1
  · split
    · rename_i hc
      cases down with
      | nil => exact absurd rfl hc.2
      | cons x r => simp at e2; simp [e2.1, List.getLast?_cons]
    · cases down with
      | nil => simp at e2 ⊢; exact e2.1
      | cons x r => simp at e2; simp [e2.1, List.getLast?_cons]

/-- **C35, through a fixed frame.** With three different frames the listing is the two listings joined
at the fixed frame, which appears once there. -/
theorem C35_fixed {D : Duration} {b : Buf X} (hr : Reachable D b) {target source fixed : Name}
    {g s f q q' : Nat} {up down top up' down' top' : List Nat} {t t' : Time} (ht : t ≠ 0) (ht' : t' ≠ 0)
    (hg : IsFrame b target g) (hs : IsFrame b source s) (hf : IsFrame b fixed f)
    (hsf : s ≠ f) (hfg : f ≠ g) (h : Meets b t s f q up down top) (h' : Meets b t' f g q' up' down' top') :
    ∃ names, b.chainAsVector target t' source t fixed = .ok names ∧
      names.map b.frameIDs =
        ((listedFrames up q down top).dropLast ++ listedFrames up' q' down' top').map some := by
  have hw := hr.wf
  obtain ⟨a1, ha1⟩ := walkAt_chain hw hs.1 hsf h (TAcc.init : TAcc X)
  obtain ⟨a2, ha2⟩ := walkAt_chain hw hf.1 hfg h' a1
  have l1 := listed_lt hw h (hw.id_lt hs.2) (hw.id_lt hf.2)
  have l2 := listed_lt hw h' (hw.id_lt hf.2) (hw.id_lt hg.2)
  obtain ⟨names, h1, h2⟩ := chainNames_ok hw
    ((listedFrames up q down top).dropLast ++ listedFrames up' q' down' top') (by
      intro i hi
      rcases List.mem_append.1 hi with h | h
      · exact l1 i (List.dropLast_subset _ h)
      · exact l2 i h)
  refine ⟨names, ?_, h2⟩
  unfold Buf.chainAsVector
  rw [lookupFrameNumber_isFrame hg, lookupFrameNumber_isFrame hs, lookupFrameNumber_isFrame hf]
  have w1 : b.walk transformAccum TAcc.init t f s = .done a1 (listedFrames up q down top) := by
    unfold Buf.walk
    rw [if_neg hsf, if_neg ht, ha1]
    rfl
  have w2 : b.walk transformAccum a1 t' g f = .done a2 (listedFrames up' q' down' top') := by
    unfold Buf.walk
    rw [if_neg hfg, if_neg ht', ha2]
    rfl
  obtain ⟨_, e1⟩ := listed_ends h
  obtain ⟨e2, _⟩ := listed_ends h'
  have n1 : listedFrames up q down top ≠ [] := by intro e; rw [e] at e1; cases e1
  have n2 : listedFrames up' q' down' top' ≠ [] := by intro e; rw [e] at e2; cases e2
  simp only [w1, w2]
  rw [if_pos ⟨n1, n2, by rw [e1, e2]⟩]
  exact h1

/-! ### Examples -/

/-- A chain `x → b → a → w` beside `c → a`: the path from `x` to `c`. -/
def chainOps : List (Op Int) := exOps ++ [put ['b'] ['x'] 0 7 true]
/-- The buffer after that history (ids: a=1, w=2, b=3, c=4, x=7). -/
def chainBuf : Buf Int := (Buf.init 100).run chainOps

example : Meets chainBuf 15 7 4 1 [7, 3] [4] [2] := by
  have e1 : ParentAt chainBuf 15 7 3 (7 : Int) := ⟨by decide, _, _, rfl, rfl, rfl, rfl⟩
  have e2 : ParentAt chainBuf 15 3 1 (150 : Int) := ⟨by decide, _, _, rfl, rfl, rfl, rfl⟩
  have e3 : ParentAt chainBuf 15 1 2 (2 : Int) := ⟨by decide, _, _, rfl, rfl, rfl, rfl⟩
  have e4 : ParentAt chainBuf 15 4 1 (1000 : Int) := ⟨by decide, _, _, rfl, rfl, rfl, rfl⟩
  exact ⟨⟨2, .cons e1 (.cons e2 (.cons e3 (.nil _))), .cons e4 (.cons e3 (.nil _)), no_parent_of_no_cache rfl⟩,
    by decide, by decide⟩

example : chainBuf.chainAsVector ['c'] 15 ['x'] 15 ['c'] = .ok [['x'], ['b'], ['a'], ['c']] ∧
    chainBuf.chainAsVector ['x'] 15 ['c'] 15 ['c'] = .ok [['c'], ['a'], ['w'], ['b'], ['x']] := by decide

/-- **C35, negation of the naive claim (finding).** In a reachable buffer, the chain listed from a
frame to its sibling contains the grandparent, which is not on the path. -/
theorem C35_finding : ∃ b : Buf Int, Reachable 100 b ∧ Meets b 15 3 4 1 [3] [4] [2] ∧
    b.chainAsVector ['c'] 15 ['b'] 15 ['c'] = .ok [['b'], ['a'], ['w'], ['c']] :=
  ⟨exBuf, exBuf_reachable,
    ⟨⟨2, .cons ex_edges.1 (.cons ex_edges.2.2.1 (.nil _)), .cons ex_edges.2.1 (.cons ex_edges.2.2.1 (.nil _)),
      ex_edges.2.2.2⟩, by decide, by decide⟩, by decide⟩

end Tf2
