import Mathlib.Data.Fintype.Pigeonhole
import Verif.Spec.ViewFrames
import Verif.Props.FrameReport

/-!
# C73: the picture `view_frames` draws
-/
namespace Tf2

variable {X : Type} [Rigid X]

theorem insertKey_plain (r : FrameReport) (d : List FrameReport) (h : ∀ e ∈ d, e.frame ≠ r.frame) :
    insertKey (.str r.frame) r (d.map (fun e => (YKey.str e.frame, e))) =
      (d ++ [r]).map (fun e => (YKey.str e.frame, e)) := by
  induction d with
  | nil => rfl
  | cons e d ih =>
    have h1 : e.frame ≠ r.frame := h e (List.mem_cons_self ..)
    simp only [List.map_cons, insertKey, YKey.eqKey, decide_eq_true_eq, if_neg h1, List.cons_append]
    rw [ih (fun e he => h e (List.mem_cons_of_mem _ he))]

theorem loadYaml_plain {load : Name → YKey} {L : List FrameReport} (hp : PlainNames load (L.map FrameReport.frame))
    (hn : (L.map FrameReport.frame).Nodup) : loadYaml load L = L.map (fun e => (YKey.str e.frame, e)) := by
  have key : ∀ (L d : List FrameReport), ((d ++ L).map FrameReport.frame).Nodup →
      PlainNames load (L.map FrameReport.frame) →
      L.foldl (fun d r => insertKey (load r.frame) r d) (d.map (fun e => (YKey.str e.frame, e))) =
        (d ++ L).map (fun e => (YKey.str e.frame, e)) := by
    intro L
    induction L with
    | nil => intro d _ _; simp
    | cons r L ih =>
      intro d hn hp
      have h1 : load r.frame = .str r.frame := hp _ (by simp)
      rw [List.foldl_cons, h1, insertKey_plain, ih (d ++ [r]) (by simpa using hn) (fun n hn => hp n (by simp at hn ⊢; exact .inr hn))]
      · simp
      · intro e he heq
        rw [List.map_append, List.nodup_append] at hn
        exact hn.2.2 e.frame (List.mem_map_of_mem he) r.frame (by simp) heq
  exact key L [] (by simpa using hn) hp

/-- The edge the loop adds for an entry. -/
def edgeOf (e : YKey × FrameReport) : DotEdge :=
  ⟨e.2.parent, e.1.shown, e.2.broadcaster, e.2.count, e.2.ratePer, e.2.span, e.2.latest, e.2.oldest⟩

theorem foldl_dotStep (data es : List (YKey × FrameReport)) (acc : List DotEdge × Option Name) :
    (es.foldl (dotStep data) acc).1 = acc.1 ++ es.map edgeOf ∧
    (((∀ e ∈ es, data.any (fun d => d.1.eqKey (.str e.2.parent)) = true) ∧ (es.foldl (dotStep data) acc).2 = acc.2) ∨
     ∃ e ∈ es, data.any (fun d => d.1.eqKey (.str e.2.parent)) = false ∧
      (es.foldl (dotStep data) acc).2 = some e.2.parent) := by
  induction es generalizing acc with
  | nil => exact ⟨by simp, .inl ⟨by simp, rfl⟩⟩
  | cons e es ih =>
    obtain ⟨h1, h2⟩ := ih (dotStep data acc e)
    refine ⟨by rw [List.foldl_cons, h1]; simp [dotStep, edgeOf], ?_⟩
    rw [List.foldl_cons]
    rcases h2 with ⟨h2, h3⟩ | ⟨e', he', h2, h3⟩
    · cases hc : data.any (fun d => d.1.eqKey (.str e.2.parent)) with
      | true =>
        refine .inl ⟨?_, by rw [h3]; simp only [dotStep]; rw [if_pos hc]⟩
        intro e' he'
        rcases List.mem_cons.1 he' with rfl | he'
        · exact hc
        · exact h2 _ he'
      | false =>
        refine .inr ⟨e, List.mem_cons_self .., hc, ?_⟩
        rw [h3]; simp only [dotStep]; rw [if_neg (by simp [hc])]
    · exact .inr ⟨e', List.mem_cons_of_mem _ he', h2, h3⟩

theorem any_plain (L : List FrameReport) (p : Name) :
    (L.map (fun e => (YKey.str e.frame, e))).any (fun d => d.1.eqKey (.str p)) = true ↔ ∃ r ∈ L, r.frame = p := by
  simp [YKey.eqKey]

/-- `generate_dot` of the blocks of plain names. -/
theorem generateDot_plain {load : Name → YKey} {L : List FrameReport} (hp : PlainNames load (L.map FrameReport.frame))
    (hn : (L.map FrameReport.frame).Nodup) (hne : L ≠ []) :
    ((∀ r ∈ L, ∃ r' ∈ L, r'.frame = r.parent) ∧ generateDot (loadYaml load L) = .unbound) ∨
    ∃ root, (∃ r ∈ L, r.parent = root) ∧ (¬ ∃ r ∈ L, r.frame = root) ∧
      generateDot (loadYaml load L) = .drawn (L.map (fun r => edgeOf (YKey.str r.frame, r))) root := by
  rw [loadYaml_plain hp hn]
  obtain ⟨h1, h2⟩ := foldl_dotStep (L.map (fun e => (YKey.str e.frame, e))) (L.map (fun e => (YKey.str e.frame, e))) ([], none)
  have hg : generateDot (L.map (fun e => (YKey.str e.frame, e))) =
      match (L.map (fun e => (YKey.str e.frame, e))).foldl (dotStep (L.map (fun e => (YKey.str e.frame, e)))) ([], none) with
      | (_, none) => .unbound
      | (edges, some root) => .drawn edges root := by
    cases L with
    | nil => exact absurd rfl hne
    | cons r L => rfl
  rw [hg]
  generalize (L.map (fun e => (YKey.str e.frame, e))).foldl (dotStep (L.map (fun e => (YKey.str e.frame, e)))) ([], none) = o at h1 h2
  obtain ⟨es, root⟩ := o
  dsimp only at h1 h2
  rcases h2 with ⟨h2, h3⟩ | ⟨e, he, h2, h3⟩
  · subst h3
    refine .inl ⟨fun r hr => ?_, rfl⟩
    exact (any_plain L r.parent).1 (h2 (YKey.str r.frame, r) (List.mem_map_of_mem hr))
  · subst h3
    obtain ⟨r, hr, rfl⟩ := List.mem_map.1 he
    refine .inr ⟨r.parent, ⟨r, hr, rfl⟩, ?_, ?_⟩
    · rw [← any_plain, h2]; simp
    · subst h1; simp only [List.nil_append, List.map_map]; rfl

/-- If the parent of every frame has itself a parent, going up never ends: there is a loop. -/
theorem loop_of_no_root {L : List FrameReport} (hne : L ≠ []) (h : ∀ r ∈ L, ∃ r' ∈ L, r'.frame = r.parent) : HasLoop L := by
  classical
  have hx : ∀ r : {r // r ∈ L}, ∃ r' : {r // r ∈ L}, r'.1.frame = r.1.parent :=
    fun r => (h r.1 r.2).elim fun r' hr' => ⟨⟨r', hr'.1⟩, hr'.2⟩
  choose up hup using hx
  obtain ⟨r0, hr0⟩ := List.exists_mem_of_ne_nil L hne
  let f : ℕ → {r // r ∈ L} := fun k => up^[k] ⟨r0, hr0⟩
  have hfin : Finite {r // r ∈ L} := by
    have : Finite {r // r ∈ L.toFinset} := inferInstance
    exact Finite.of_injective (fun r => (⟨r.1, by simpa using r.2⟩ : {r // r ∈ L.toFinset})) (by
      intro a b hab; exact Subtype.ext (congrArg (fun x => x.1) hab))
  obtain ⟨i, j, hij, heq⟩ := Finite.exists_ne_map_eq_of_infinite f
  have step : ∀ k, (f (k + 1)).1.frame = (f k).1.parent := by
    intro k
    show (up^[k+1] ⟨r0, hr0⟩).1.frame = _
    rw [Function.iterate_succ_apply']
    exact hup _
  have up_all : ∀ d i, Above L (f (i + d)).1.parent (f i).1.frame := by
    intro d
    induction d with
    | zero => intro i; exact Above.one (f i).2
    | succ d ih =>
      intro i
      have := ih (i + 1)
      rw [step i] at this
      have h2 := Above.step this (f i).2
      rwa [show i + (d + 1) = i + 1 + d by omega]
  have main : ∀ i j, i < j → f i = f j → HasLoop L := by
    intro i j hlt he
    refine ⟨(f i).1.frame, ?_⟩
    have h1 := up_all (j - i - 1) i
    rw [← step, show i + (j - i - 1) + 1 = j by omega, ← he] at h1
    exact h1
  rcases lt_or_gt_of_ne hij with h | h
  · exact main i j h heq
  · exact main j i h heq.symm

/-- The hypotheses under which the report of a buffer is what C62 says: the storage duration is one `ros::Duration`
holds and the stamps are times `ros::Time` holds. -/
def ReportHyps (D : Duration) (ops : List (Op X)) : Prop :=
  0 ≤ D ∧ D ≤ DURATION_MAX ∧ ∀ m a s, Op.set m a s ∈ ops → m.stamp ≤ TIME_MAX

variable {D : Duration} {ops : List (Op X)} {b : Buf X} {load : Name → YKey}

/-- **C73, the four outcomes.** With names YAML reads as strings: a buffer that never heard of a frame gives the picture
"no data"; one that knows frames but holds nothing makes the program fail; one in which every parent of a frame with data
has data itself makes it fail too; otherwise the picture is drawn, and its legend points to a frame that has children but
no parent. -/
theorem C73_outcomes (h : ReportHyps D ops) (hb : b = (Buf.init D).run ops) (hp : PlainNames load b.getFrameStrings)
    {L : List FrameReport} (hL : b.allFramesReport 0 = .ok L) :
    (b.getFrameStrings = [] ∧ viewFrames load b = .ok .noData) ∨
    (b.getFrameStrings ≠ [] ∧ L = [] ∧ viewFrames load b = .ok .noDict) ∨
    (L ≠ [] ∧ (∀ r ∈ L, ∃ r' ∈ L, r'.frame = r.parent) ∧ viewFrames load b = .ok .unbound) ∨
    (∃ es root, viewFrames load b = .ok (.drawn es root) ∧ (∃ r ∈ L, r.parent = root) ∧ ¬ ∃ r ∈ L, r.frame = root) := by
  obtain ⟨hD, hDm, hmax⟩ := h
  obtain ⟨L', g1, g2, g3, g4, g5⟩ := C62_entries hD hDm hmax hb 0
  rw [hL] at g1; cases g1
  have hw : WF D b := hb ▸ WF.run (WF.init D) ops
  have hlen : b.getFrameStrings = [] ↔ b.frames.length = 1 := by
    unfold Buf.getFrameStrings
    rw [List.drop_eq_nil_iff, hw.lenEq]
    have := hw.lenEq
    have h0 : 0 < b.frameIDsReverse.length := by
      by_contra hz; have := hw.zero; rw [List.getElem?_eq_none (by omega)] at this; cases this
    omega
  unfold viewFrames
  rw [hL]
  dsimp only
  by_cases h1 : b.frames.length = 1
  · rw [if_pos h1]
    exact .inl ⟨hlen.2 h1, rfl⟩
  rw [if_neg h1]
  right
  cases L with
  | nil => exact .inl ⟨fun e => h1 (hlen.1 e), rfl, rfl⟩
  | cons r L =>
    right
    rcases generateDot_plain (load := load) (fun n hn => hp n (g2.subset hn)) g3 (by simp) with ⟨k1, k2⟩ | ⟨root, k1, k2, k3⟩
    · exact .inl ⟨by simp, k1, by rw [k2]⟩
    · exact .inr ⟨_, root, by rw [k3], k1, k2⟩

/-- **C73, what is drawn.** One arrow for each frame the buffer holds data of, and no other, from the parent of its newest
transform, labelled with what the buffer holds. -/
theorem C73_drawn (h : ReportHyps D ops) (hb : b = (Buf.init D).run ops) (hp : PlainNames load b.getFrameStrings)
    {es : List DotEdge} {root : Name} (hv : viewFrames load b = .ok (.drawn es root)) :
    (es.map DotEdge.child).Nodup ∧
    (∀ n i, IsFrame b n i → (HoldsData b i ↔ ∃ e ∈ es, e.child = n)) ∧
    (∀ e ∈ es, ∃ i r, IsFrame b e.child i ∧ ReportsFrame D b 0 e.child i r ∧ Shows e r) ∧
    (∃ n, Arrow es root n) ∧ ¬ ∃ p, Arrow es p root := by
  have h' := h
  obtain ⟨hD, hDm, hmax⟩ := h
  obtain ⟨L, g1, g2, g3, g4, g5⟩ := C62_entries hD hDm hmax hb 0
  unfold viewFrames at hv
  rw [g1] at hv
  dsimp only at hv
  split at hv
  · cases hv
  cases L with
  | nil => cases hv
  | cons r L =>
    dsimp only at hv
    rcases generateDot_plain (load := load) (fun n hn => hp n (g2.subset hn)) g3 (by simp) with ⟨k1, k2⟩ | ⟨root', k1, k2, k3⟩
    · rw [k2] at hv; cases hv
    · rw [k3] at hv
      injection hv with hv
      injection hv with hv1 hv2
      subst hv2
      have hmem : ∀ e, e ∈ es ↔ ∃ q ∈ r :: L, e = edgeOf (YKey.str q.frame, q) := by
        intro e; rw [← hv1, List.mem_map]
        exact ⟨fun ⟨q, a, b⟩ => ⟨q, a, b.symm⟩, fun ⟨q, a, b⟩ => ⟨q, a, b.symm⟩⟩
      refine ⟨?_, ?_, ?_, ?_, ?_⟩
      · have : es.map DotEdge.child = (r :: L).map FrameReport.frame := by
          rw [← hv1, List.map_map]; rfl
        rw [this]; exact g3
      · intro n i hi
        rw [g4 n i hi]
        constructor
        · rintro ⟨q, hq, rfl⟩; exact ⟨_, (hmem _).2 ⟨q, hq, rfl⟩, rfl⟩
        · rintro ⟨e, he, rfl⟩
          obtain ⟨q, hq, rfl⟩ := (hmem _).1 he
          exact ⟨q, hq, rfl⟩
      · intro e he
        obtain ⟨q, hq, rfl⟩ := (hmem _).1 he
        obtain ⟨i, hi, hr, -⟩ := g5 q hq
        exact ⟨i, q, hi, hr, rfl, rfl, rfl, rfl, rfl, rfl, rfl, rfl⟩
      · obtain ⟨q, hq, rfl⟩ := k1
        exact ⟨q.frame, _, (hmem _).2 ⟨q, hq, rfl⟩, rfl, rfl⟩
      · rintro ⟨p, e, he, -, hc⟩
        obtain ⟨q, hq, rfl⟩ := (hmem _).1 he
        exact k2 ⟨q, hq, hc⟩

/-- **C73, always drawn without loops.** If no frame is above itself, and the buffer holds anything at all, the picture is
drawn. -/
theorem C73_no_loop (h : ReportHyps D ops) (hb : b = (Buf.init D).run ops) (hp : PlainNames load b.getFrameStrings)
    {L : List FrameReport} (hL : b.allFramesReport 0 = .ok L) (hloop : ¬ HasLoop L) (hdata : ∃ n i, IsFrame b n i ∧ HoldsData b i) :
    ∃ es root, viewFrames load b = .ok (.drawn es root) := by
  have hne : L ≠ [] := by
    obtain ⟨hD, hDm, hmax⟩ := h
    obtain ⟨L', g1, g2, g3, g4, g5⟩ := C62_entries hD hDm hmax hb 0
    rw [hL] at g1; cases g1
    obtain ⟨n, i, hi, hd⟩ := hdata
    obtain ⟨r, hr, -⟩ := (g4 n i hi).1 hd
    exact List.ne_nil_of_mem hr
  rcases C73_outcomes h hb hp hL with ⟨h1, _⟩ | ⟨_, h1, _⟩ | ⟨_, h1, _⟩ | ⟨es, root, h1, _⟩
  · exfalso
    obtain ⟨hD, hDm, hmax⟩ := h
    obtain ⟨L', g1, g2, g3, g4, g5⟩ := C62_entries hD hDm hmax hb 0
    rw [hL] at g1; cases g1
    rw [h1] at g2
    exact hne (List.map_eq_nil_iff.1 (List.eq_nil_of_sublist_nil g2))
  · exact absurd h1 hne
  · exact absurd (loop_of_no_root hne h1) hloop
  · exact ⟨es, root, h1⟩

/-- **C73, one tree.** If all frames are below one frame `top` that has no parent, the legend points to it. -/
theorem C73_legend (h : ReportHyps D ops) (hb : b = (Buf.init D).run ops) (hp : PlainNames load b.getFrameStrings)
    {L : List FrameReport} (hL : b.allFramesReport 0 = .ok L) {top : Name} (htop : ∀ r ∈ L, r.parent = top ∨ Above L top r.parent)
    {es : List DotEdge} {root : Name} (hv : viewFrames load b = .ok (.drawn es root)) : root = top := by
  rcases C73_outcomes h hb hp hL with ⟨_, h1⟩ | ⟨_, _, h1⟩ | ⟨_, _, h1⟩ | ⟨es', root', h1, ⟨r, hr, hr'⟩, h3⟩
  all_goals rw [hv] at h1; cases h1
  rcases htop r hr with e | e
  · rw [← hr', e]
  · rw [hr'] at e
    cases e with
    | one hm => exact absurd ⟨_, hm, rfl⟩ h3
    | step _ hm => exact absurd ⟨_, hm, rfl⟩ h3

/-- The hypotheses are met, and a picture: `w` with a child `a`, that with a static child `s`. -/
example : ReportHyps 100 [Op.set (tmsg ['w'] ['a'] 10 1) ['n'] false, .set (tmsg ['a'] ['s'] 7 1) ['t'] true] ∧
    viewFrames .str ((Buf.init 100).run [Op.set (tmsg ['w'] ['a'] 10 1) ['n'] false, .set (tmsg ['a'] ['s'] 7 1) ['t'] true]) =
      .ok (.drawn [⟨['w'], ['a'], ['n'], 1, 100000, 0, 10, 10⟩, ⟨['a'], ['s'], ['t'], 1, 100000, 0, 0, 0⟩] ['w']) := by
  refine ⟨⟨by decide, by decide, ?_⟩, by decide +kernel⟩
  intro m a s h
  simp only [List.mem_cons, List.not_mem_nil, or_false, Op.set.injEq] at h
  rcases h with h | h <;> (obtain ⟨rfl, _⟩ := h; decide)

/-! ### Findings -/

/-- **C73, finding.** Two broadcasters that disagree about who is the parent make a loop, which every buffer accepts; the
tool people use to find such mistakes then draws nothing and fails. -/
theorem C73_loop_finding (load : Name → YKey) (hl : load ['a'] = .str ['a'] ∧ load ['b'] = .str ['b']) :
    let ops := [Op.set (tmsg ['a'] ['b'] 10 1) ['n'] false, .set (tmsg ['b'] ['a'] 10 1) ['m'] false]
    viewFrames load ((Buf.init 100).run ops) = .ok .unbound := by
  intro ops
  have hL : ((Buf.init 100 : Buf Int).run ops).allFramesReport 0 = .ok
      [⟨['b'], ['a'], ['n'], 1, 100000, 10, 10, none, 0⟩, ⟨['a'], ['b'], ['m'], 1, 100000, 10, 10, none, 0⟩] := by decide +kernel
  have hf : ((Buf.init 100 : Buf Int).run ops).frames.length = 3 := by decide +kernel
  unfold viewFrames
  rw [hL]
  dsimp only
  rw [if_neg (by rw [hf]; decide), loadYaml_plain]
  · decide +kernel
  · intro n hn
    simp only [List.map_cons, List.map_nil, List.mem_cons, List.not_mem_nil, or_false] at hn
    rcases hn with rfl | rfl
    · exact hl.2
    · exact hl.1
  · decide

/-- **C73, finding.** After a jump back in time the buffer is cleared; until data arrives again, `view_frames` fails
instead of saying that there is no data. -/
theorem C73_cleared_finding (load : Name → YKey) :
    viewFrames load ((Buf.init 100).run [Op.set (tmsg ['a'] ['b'] 10 (1 : Int)) ['n'] false, .clear]) = .ok .noDict := by
  have hL : ((Buf.init 100 : Buf Int).run [Op.set (tmsg ['a'] ['b'] 10 (1 : Int)) ['n'] false, .clear]).allFramesReport 0 = .ok [] := by decide +kernel
  have hf : ((Buf.init 100 : Buf Int).run [Op.set (tmsg ['a'] ['b'] 10 (1 : Int)) ['n'] false, .clear]).frames.length = 3 := by decide +kernel
  unfold viewFrames
  rw [hL]
  dsimp only
  rw [if_neg (by rw [hf]; decide)]

/-- **C73, finding.** `allFramesAsYAML` quotes the parents but not the frames. A frame whose name YAML does not read as a
string, such as `on`, is drawn under another name and not recognised as the parent of its children: the picture of a
single tree falls into two pieces, with the legend at the wrong one. -/
theorem C73_name_finding (load : Name → YKey) (hl : load "on".toList = .obj 1 "True".toList ∧ load ['c'] = .str ['c']) :
    let ops := [Op.set (tmsg ['w'] "on".toList 10 1) ['n'] false, .set (tmsg "on".toList ['c'] 10 1) ['n'] false]
    viewFrames load ((Buf.init 100).run ops) = .ok (.drawn
      [⟨['w'], "True".toList, ['n'], 1, 100000, 0, 10, 10⟩, ⟨"on".toList, ['c'], ['n'], 1, 100000, 0, 10, 10⟩] "on".toList) := by
  intro ops
  have hL : ((Buf.init 100 : Buf Int).run ops).allFramesReport 0 = .ok
      [⟨"on".toList, ['w'], ['n'], 1, 100000, 10, 10, none, 0⟩, ⟨['c'], "on".toList, ['n'], 1, 100000, 10, 10, none, 0⟩] := by decide +kernel
  have hf : ((Buf.init 100 : Buf Int).run ops).frames.length = 4 := by decide +kernel
  unfold viewFrames
  rw [hL]
  dsimp only
  rw [if_neg (by rw [hf]; decide)]
  unfold loadYaml
  simp only [List.foldl_cons, List.foldl_nil, hl.1, hl.2]
  decide +kernel

/-- **C73, finding.** With several trees the legend points to one of them only, that of the entry listed last. -/
theorem C73_trees_finding :
    viewFrames .str ((Buf.init 100).run
      [Op.set (tmsg ['w'] ['a'] 10 (1 : Int)) ['n'] false, .set (tmsg ['v'] ['b'] 10 1) ['n'] false]) =
    .ok (.drawn [⟨['w'], ['a'], ['n'], 1, 100000, 0, 10, 10⟩, ⟨['v'], ['b'], ['n'], 1, 100000, 0, 10, 10⟩] ['v']) := by
  decide +kernel

end Tf2
