import Verif.Props.Denote
import Verif.Props.FrameReport
import Verif.Model.Requests

/-!
# Complements to C01, C04, C14, C18, C24, C59

Consequences and companions of earlier theorems that close gaps between their English statements and what was
proved: which halves decide a fixed-frame lookup, the depth limit itself (not only loops), pending requests at a
`clear`, the class of a failure in terms of messages only, the size of a cache, and that the time differences taken
while interpolating are representable.
-/
namespace Tf2

variable {X : Type}

/-! ### C14: a fixed-frame lookup and its halves -/

/-- **C14, the halves.** A lookup through a fixed frame succeeds exactly when the three names are legal names of known
frames, the fixed frame can be looked up from the source at the source time and the target from the fixed frame at the
target time. -/
theorem C14_halves [Rigid X] (b : Buf X)
    (target : Name) (ttime : Time) (source : Name) (stime : Time) (fixed : Name) :
    (∃ m, b.lookupTransform5 target ttime source stime fixed = .ok m) ↔
      (LegalName target ∧ LegalName source ∧ LegalName fixed) ∧
      ((∃ i, IsFrame b target i) ∧ (∃ i, IsFrame b source i) ∧ ∃ i, IsFrame b fixed i) ∧
      (∃ m, b.lookupTransform fixed source stime = .ok m) ∧ (∃ m, b.lookupTransform target fixed ttime = .ok m) := by
  unfold Buf.lookupTransform5
  constructor
  · rintro ⟨m, hm⟩
    rcases validate_cases b target with ⟨l1, i1, h1, e1⟩ | ⟨_, e1⟩ | ⟨_, _, e1⟩
    · rcases validate_cases b source with ⟨l2, i2, h2, e2⟩ | ⟨_, e2⟩ | ⟨_, _, e2⟩
      · rcases validate_cases b fixed with ⟨l3, i3, h3, e3⟩ | ⟨_, e3⟩ | ⟨_, _, e3⟩
        · refine ⟨⟨l1, l2, l3⟩, ⟨⟨i1, h1⟩, ⟨i2, h2⟩, ⟨i3, h3⟩⟩, ?_⟩
          rw [e1, e2, e3] at hm
          simp only at hm
          revert hm
          cases b.lookupTransform fixed source stime <;>
            cases b.lookupTransform target fixed ttime <;> simp
        · rw [e1, e2, e3] at hm; cases hm
        · rw [e1, e2, e3] at hm; cases hm
      · rw [e1, e2] at hm; cases hm
      · rw [e1, e2] at hm; cases hm
    · rw [e1] at hm; cases hm
    · rw [e1] at hm; cases hm
  · rintro ⟨⟨l1, l2, l3⟩, ⟨⟨i1, h1⟩, ⟨i2, h2⟩, ⟨i3, h3⟩⟩, ⟨m1, e1⟩, ⟨m2, e2⟩⟩
    rw [validate_legal h1 l1, validate_legal h2 l2, validate_legal h3 l3]
    simp only
    rw [e1, e2]
    exact ⟨_, rfl⟩

example : (∃ m, exBuf.lookupTransform5 ['b'] 12 ['a'] 10 ['w'] = .ok m) ∧
    (∃ m, exBuf.lookupTransform ['w'] ['a'] 10 = .ok m) ∧ (∃ m, exBuf.lookupTransform ['b'] ['w'] 12 = .ok m) :=
  have h : ∃ m, exBuf.lookupTransform5 ['b'] 12 ['a'] 10 ['w'] = .ok m := ⟨tmsg ['b'] ['a'] 12 (-100), by decide⟩
  ⟨h, ((C14_halves ..).1 h).2.2⟩

/-! ### C18: the depth limit -/

/-- **C18, the depth limit (source).** When the parent chain of the source is longer than 1000 and the target is not
among its first 1001 frames, the lookup is refused with LookupException: also without any loop, and even if the target
is further up. -/
theorem C18_too_deep_source [Rigid X] {D : Duration} {b : Buf X} (hr : Reachable D b)
    {target source : Name} {t : Time} (ht : t ≠ 0) {g s : Nat} (hg : IsFrame b target g)
    (hs : IsFrame b source s) (lg : LegalName target) (ls : LegalName source)
    (hlong : ∃ c x, Chain b t s c x 1001) (hmiss : ∀ x n, n ≤ 1000 → ¬ Chain b t s g x n) :
    b.lookupTransform target source t = .throw .lookup := by
  have hw := hr.wf
  have hne : target ≠ source := by
    rintro rfl
    have : g = s := by have h1 := hg.2; rw [hs.2] at h1; injection h1 with h1; exact h1.symm
    subst this
    exact hmiss _ 0 (by omega) .refl
  rw [lookup_walkAt hw hg hs lg ls hne ht]
  have h1 := walkSource_spec (t := t) hw (src := s) (tgt := g) maxGraphDepth s TAcc.init [] 0 TAcc.init
    .refl hs.1 rfl (by intro y m hm; omega)
  unfold Buf.walkAt
  generalize b.walkSource transformAccum t g maxGraphDepth s TAcc.init [] = w at *
  rw [Nat.zero_add] at h1
  have hmx : maxGraphDepth = 1000 := rfl
  cases w with
  | ub => exact absurd h1 id
  | tooDeep => rfl
  | early a ch => obtain ⟨n, h2, h3, _⟩ := h1; exact absurd h2 (hmiss _ _ (by omega))
  | exit top ex a ch =>
    obtain ⟨n, h2, h3, hno, _⟩ := h1
    obtain ⟨c, x, hc⟩ := hlong
    have : EndsAt b t s top n := ⟨⟨_, h2⟩, hno⟩
    have := this.le hc
    omega

/-- **C18, the depth limit (target).** When the chain of the source ends within the limit, the chain of the target is
longer than 1000 and neither the source nor the end of its chain is among the first 1001 frames of it, the lookup is
refused with LookupException. -/
theorem C18_too_deep_target [Rigid X] {D : Duration} {b : Buf X} (hr : Reachable D b)
    {target source : Name} {t : Time} (ht : t ≠ 0) {g s r : Nat} (hg : IsFrame b target g)
    (hs : IsFrame b source s) (lg : LegalName target) (ls : LegalName source)
    (hroot : Rooted b t s r) (hlong : ∃ c x, Chain b t g c x 1001)
    (hmiss : ∀ x n, n ≤ 1000 → ¬ Chain b t g s x n ∧ ¬ Chain b t g r x n) :
    b.lookupTransform target source t = .throw .lookup := by
  have hw := hr.wf
  obtain ⟨n, hn, es⟩ := hroot
  obtain ⟨c, x, hc⟩ := hlong
  have hnever : ∀ r' m, EndsAt b t g r' m → 1001 ≤ m := fun r' m e => e.le hc
  have hne : target ≠ source := by
    rintro rfl
    have : g = s := by have h1 := hg.2; rw [hs.2] at h1; injection h1 with h1; exact h1.symm
    subst this
    exact (hmiss _ 0 (by omega)).1 .refl
  have hmx : maxGraphDepth = 1000 := rfl
  rw [lookup_walkAt hw hg hs lg ls hne ht]
  have h1 := walkSource_spec (t := t) hw (src := s) (tgt := g) maxGraphDepth s TAcc.init [] 0 TAcc.init
    .refl hs.1 rfl (by intro y m hm; omega)
  unfold Buf.walkAt
  generalize b.walkSource transformAccum t g maxGraphDepth s TAcc.init [] = w at *
  rw [Nat.zero_add] at h1
  cases w with
  | ub => exact absurd h1 id
  | tooDeep => rfl
  | early a ch =>
    obtain ⟨k, h2, h3, _⟩ := h1
    have := hnever _ _ (es.of_chain h2)
    omega
  | exit top ex a ch =>
    obtain ⟨k, h2, h3, hno, _, hat, _⟩ := h1
    obtain ⟨rfl, rfl⟩ := es.unique ⟨⟨_, h2⟩, hno⟩
    have h4 := walkTarget_spec (t := t) hw (src := s) (tgt := g) (top := r) maxGraphDepth g a [] 0 a
      (by rw [hat]; exact .refl) rfl
    simp only
    generalize b.walkTarget transformAccum t s r maxGraphDepth g a [] = w at *
    rw [Nat.zero_add] at h4
    cases w with
    | ub => exact absurd h4 id
    | tooDeep => rfl
    | extrap =>
      obtain ⟨fr, y, m, h5, h6, _, h7, _⟩ := h4
      have := hnever _ _ ⟨⟨_, h5⟩, h7⟩
      omega
    | early a2 rev =>
      obtain ⟨m, y, h5, h6, _⟩ := h4
      exact absurd h5 (hmiss _ _ (by omega)).1
    | exit fr a2 rev =>
      obtain ⟨m, h5, h6, rfl | h7, _⟩ := h4
      · exact absurd h5 (hmiss _ _ (by omega)).2
      · have := hnever _ _ ⟨⟨_, h5⟩, no_parent_of_no_cache h7⟩
        omega

/-- Both theorems' hypotheses hold in a buffer with a loop; `C18_depth_finding` below has no loop. -/
example : (∃ c x, Chain loopBuf 10 1 c x 1001) ∧ (∀ x n, n ≤ 1000 → ¬ Chain loopBuf 10 1 3 x n) ∧
    Rooted loopBuf 10 3 4 ∧ (∀ x n, n ≤ 1000 → ¬ Chain loopBuf 10 1 3 x n ∧ ¬ Chain loopBuf 10 1 4 x n) := by
  have h3 : ∀ x n, ¬ Chain loopBuf 10 1 3 x n ∧ ¬ Chain loopBuf 10 1 4 x n := by
    intro x n
    obtain ⟨c, x', h', hc⟩ := loop_chain n
    constructor <;> intro h <;> have := (h.det h').1 <;> omega
  refine ⟨by obtain ⟨c, x, h, _⟩ := loop_chain 1001; exact ⟨c, x, h⟩, fun x n _ => (h3 x n).1,
    ⟨1, by decide, ⟨_, .snoc .refl loop_edges.2.2.1⟩, loop_edges.2.2.2⟩, fun x n _ => h3 x n⟩

/-! A rope: frame `k` hangs below frame `k + 1`, static. -/

/-- Names of the frames of a rope. -/
def knot (k : Nat) : Name := List.replicate (k + 1) 'a'

/-- The message that ties frame `k` below frame `k + 1`. -/
def tie (k : Nat) : Msg Int := ⟨knot (k + 1), knot k, 0, 1⟩

/-- A rope of `N` static transforms. -/
def ropeOps : Nat → List (Op Int)
  | 0 => []
  | N + 1 => ropeOps N ++ [.set (tie N) [] true]

theorem knot_strip (k : Nat) : stripSlash (knot k) = knot k := by
  simp [knot, List.replicate_succ, stripSlash]

theorem knot_inj {i j : Nat} (h : knot i = knot j) : i = j := by
  have := congrArg List.length h
  simpa [knot] using this

theorem knot_legal (k : Nat) : LegalName (knot k) ∧ knot k ≠ noParentName := by
  refine ⟨⟨by simp [knot, List.replicate_succ], by simp [knot, List.replicate_succ]⟩, ?_⟩
  simp [knot, List.replicate_succ, noParentName]

theorem tie_valid (k : Nat) : ValidMsg (tie k) := by
  refine ⟨?_, ?_, ?_, rfl, rfl⟩
  · simp only [tie, knot_strip]
    intro h
    have := knot_inj h
    omega
  · simp only [tie, knot_strip]; simp [knot]
  · simp only [tie, knot_strip]; simp [knot]

theorem rope_mem {N : Nat} {m : Msg Int} {a : Name} {s : Bool} (h : Op.set m a s ∈ ropeOps N) :
    ∃ k, k < N ∧ m = tie k ∧ s = true := by
  induction N with
  | zero => cases h
  | succ N ih =>
    simp only [ropeOps, List.mem_append, List.mem_singleton, Op.set.injEq] at h
    rcases h with h | ⟨rfl, _, rfl⟩
    · obtain ⟨k, h1, h2⟩ := ih h
      exact ⟨k, by omega, h2⟩
    · exact ⟨N, by omega, rfl, rfl⟩

theorem rope_offers (N k : Nat) : offersFor (knot k) (ropeOps N) = if k < N then [(tie k, true)] else [] := by
  induction N with
  | zero => simp [ropeOps, offersFor]
  | succ N ih =>
    rw [ropeOps, offersFor_append, ih]
    have e : stripSlash (tie N).child = knot N := knot_strip N
    by_cases h : k = N
    · subst h
      simp [offersFor, tie_valid, e]
    · have : knot N ≠ knot k := fun h' => h (knot_inj h').symm
      simp only [offersFor, tie_valid, e, true_and, if_neg this, List.append_nil]
      by_cases h2 : k < N
      · rw [if_pos h2, if_pos (by omega)]
      · rw [if_neg h2, if_neg (by omega)]

theorem rope_leads (N : Nat) (t : Time) : ∀ k, k ≤ N → ∃ x, Leads 100 (ropeOps N) t (knot 0) (knot k) x k := by
  intro k
  induction k with
  | zero => intro _; exact ⟨_, .refl⟩
  | succ k ih =>
    intro hk
    obtain ⟨x, hx⟩ := ih (by omega)
    have ho := rope_offers N k
    rw [if_pos (by omega)] at ho
    have hs : Says 100 (ropeOps N) t (knot k) (stripSlash (tie k).parent) (tie k).xf :=
      .static ho (by rw [ho]; rfl)
    have e : stripSlash (tie k).parent = knot (k + 1) := knot_strip _
    rw [e] at hs
    exact ⟨_, .snoc hx hs (knot_legal _).2⟩

theorem rope_regular (N : Nat) : Regular 100 (ropeOps N) := by
  refine ⟨by decide, ?_, ?_⟩
  · intro m a s h _
    obtain ⟨k, _, rfl, _⟩ := rope_mem h
    show ((0 : Nat) : Int) + 100 ≤ TIME_MAX
    decide
  · intro m a s h _
    obtain ⟨k, _, rfl, _⟩ := rope_mem h
    rw [show stripSlash (tie k).child = knot k from knot_strip k]
    exact (knot_legal k).2

/-- **C18 (finding).** The depth limit is not only about loops: in a correct tree of static transforms, a frame more
than 1000 transforms above another cannot be reached from it, although the messages lead there and every frame in
between can be.  LookupException, as for a loop. -/
theorem C18_depth_finding {N : Nat} (hN : 1001 ≤ N) {t : Time} (ht : t ≠ 0) :
    (∃ x, Leads 100 (ropeOps N) t (knot 0) (knot N) x N) ∧
    ((Buf.init 100).run (ropeOps N)).lookupTransform (knot N) (knot 0) t = .throw .lookup := by
  obtain ⟨x, hx⟩ := rope_leads N t N (by omega)
  refine ⟨⟨x, hx⟩, ?_⟩
  have hreg := rope_regular N
  have hR : Reachable 100 ((Buf.init 100).run (ropeOps N)) := ⟨_, rfl⟩
  have hm : knot 0 ∈ mentions (ropeOps N) := by
    have ho := rope_offers N 0
    rw [if_pos (by omega)] at ho
    exact (offersFor_mentions (by rw [ho]; exact List.mem_cons_self ..)).1
  have fs := isFrame_of_mentioned (D := 100) (b := (Buf.init 100).run (ropeOps N)) rfl hm (knot_legal 0).2
  obtain ⟨g, fg, _⟩ := chain_of_leads hreg interpZero_int rfl ht fs hx
  refine C18_too_deep_source hR ht fg fs (knot_legal N).1 (knot_legal 0).1 ?_ ?_
  · obtain ⟨y, hy⟩ := rope_leads N t 1001 hN
    obtain ⟨c, _, hc⟩ := chain_of_leads hreg interpZero_int rfl ht fs hy
    exact ⟨c, y, hc⟩
  · intro y n hn hc
    obtain ⟨z, hz⟩ := rope_leads N t n (by omega)
    obtain ⟨c, fc, hc'⟩ := chain_of_leads hreg interpZero_int rfl ht fs hz
    have e := (hc.det hc').1
    subst e
    have := knot_inj (hR.wf.inj fg.2 fc.2)
    omega

example : ((Buf.init 100).run (ropeOps 2000)).lookupTransform (knot 2000) (knot 0) 7 = .throw .lookup :=
  (C18_depth_finding (by decide) (by decide)).2

/-! ### C24: pending requests at a clear -/

/-- **C24, requests.** `clear` keeps every pending request, every registered callback, every call about to be made and
both handle counters, and calls nobody. -/
theorem C24_requests [Rigid X] (s : RBuf X) :
    (s.step .clear).2 = [] ∧ (s.step .clear).1.buf = s.buf.clear ∧ (s.step .clear).1.reqs = s.reqs ∧
    (s.step .clear).1.cbs = s.cbs ∧ (s.step .clear).1.inflight = s.inflight ∧
    (s.step .clear).1.reqCounter = s.reqCounter ∧ (s.step .clear).1.cbCounter = s.cbCounter :=
  ⟨rfl, rfl, rfl, rfl, rfl, rfl, rfl⟩

/-! ### C59: the class of a failure -/

theorem offers_nil_iff [Rigid X] {D : Duration} {ops : List (Op X)} {n : Name} {i : Nat}
    (h : IsFrame ((Buf.init D).run ops) n i) : ((Buf.init D).run ops).getFrame i = none ↔ offersFor n ops = [] := by
  have hw : WF D ((Buf.init D : Buf X).run ops) := WF.run (WF.init D) ops
  have hn : n ≠ noParentName := by
    rintro rfl
    exact h.1 (by have h0 := (hw.ids noParentName 0).2 hw.zero; rw [h.2] at h0; injection h0)
  have hc := frame_content D hn ops
  unfold FrameContent at hc
  match ho : offersFor n ops with
  | [] =>
    rw [ho] at hc
    exact ⟨fun _ => rfl, fun _ => hc i h.2⟩
  | (m, true) :: r =>
    rw [ho] at hc
    obtain ⟨j, m', s, h1, _, h2⟩ := hc
    have : i = j := by have h3 := h.2; rw [h1] at h3; injection h3 with h3; exact h3.symm
    subst this
    simp [h2]
  | (m, false) :: r =>
    rw [ho] at hc
    obtain ⟨j, h1, h2⟩ := hc
    have : i = j := by have h3 := h.2; rw [h1] at h3; injection h3 with h3; exact h3.symm
    subst this
    simp [h2]

/-- **C59, failures.** Two known frames whose ways end at `r` and `r'`: the lookup succeeds if `r = r'`; it fails with
ConnectivityException when the ends differ and nobody ever sent a valid message for either, and with
ExtrapolationException when the ends differ and a valid message for one of them was sent (so that it is data for this
time that is missing). -/
theorem C59_failure [Rigid X] {D : Duration} {ops : List (Op X)} (hreg : Regular D ops) (hz : InterpZero X)
    {target source : Name} {t : Time} (ht : t ≠ 0) (hne : target ≠ source)
    (hg : target ∈ mentions ops) (hs : source ∈ mentions ops) (ng : target ≠ noParentName)
    (ns : source ≠ noParentName) (lg : LegalName target) (ls : LegalName source)
    {r r' : Name} {x y : X} {k l : Nat} (hk : k ≤ 1000) (hl : l ≤ 1000)
    (ws : Leads D ops t source r x k) (es : ¬ ∃ p e, Says D ops t r p e ∧ p ≠ noParentName)
    (wg : Leads D ops t target r' y l) (eg : ¬ ∃ p e, Says D ops t r' p e ∧ p ≠ noParentName) :
    let ask := ((Buf.init D).run ops).lookupTransform target source t
    ((∃ m, ask = .ok m) ↔ r = r') ∧
    (ask = .throw .connectivity ↔ r ≠ r' ∧ offersFor r ops = [] ∧ offersFor r' ops = []) ∧
    (ask = .throw .extrapolation ↔ r ≠ r' ∧ (offersFor r ops ≠ [] ∨ offersFor r' ops ≠ [])) := by
  have hR : Reachable D ((Buf.init D : Buf X).run ops) := ⟨ops, rfl⟩
  have hw := hR.wf
  have fg := isFrame_of_mentioned (D := D) (X := X) rfl hg ng
  have fs := isFrame_of_mentioned (D := D) (X := X) rfl hs ns
  obtain ⟨i, hi, ci⟩ := chain_of_leads hreg hz rfl ht fs ws
  obtain ⟨j, hj, cj⟩ := chain_of_leads hreg hz rfl ht fg wg
  have hend : ∀ {n : Name} {i : Nat}, IsFrame ((Buf.init D : Buf X).run ops) n i →
      (¬ ∃ p e, Says D ops t n p e ∧ p ≠ noParentName) → ¬ ∃ p e, ParentAt ((Buf.init D : Buf X).run ops) t i p e := by
    intro n i hi hno
    rintro ⟨p, e, hp⟩
    obtain ⟨q, hq, hsay⟩ := (says_iff hreg hz rfl ht hi p e).1 hp
    refine hno ⟨q, e, hsay, ?_⟩
    intro h
    have h1 := hq.2
    rw [h] at h1
    exact hq.1 (by have h0 := (hw.ids noParentName 0).2 hw.zero; rw [h1] at h0; injection h0)
  have h := C19_failure_class hR ht hne fg fs lg ls ⟨k, hk, ⟨_, ci⟩, hend hi es⟩ ⟨l, hl, ⟨_, cj⟩, hend hj eg⟩
  have hij : i = j ↔ r = r' := by
    constructor
    · rintro rfl; exact hw.inj hi.2 hj.2
    · rintro rfl
      have h3 := hi.2
      rw [hj.2] at h3
      injection h3 with h3
      exact h3.symm
  have e1 := offers_nil_iff hi
  have e2 := offers_nil_iff hj
  refine ⟨by rw [← hij]; exact h.1, ?_, ?_⟩
  · rw [← e1, ← e2, Ne, ← hij]; exact h.2.1
  · rw [Ne, Ne, Ne, ← e1, ← e2, ← hij]; exact h.2.2

/-- Ways that end with nobody to hear from (`w`) and with a frame that has data for other times (`a`). -/
example : (¬ ∃ p e, Says 100 exOps 25 ['a'] p e ∧ p ≠ noParentName) ∧ (¬ ∃ p e, Says 100 exOps 25 ['w'] p e ∧ p ≠ noParentName) ∧
    offersFor ['a'] exOps ≠ [] ∧ offersFor ['w'] exOps = [] ∧
    exBuf.lookupTransform ['w'] ['a'] 25 = .throw .extrapolation ∧
    exBuf.lookupTransform ['z'] ['w'] 25 = .throw .connectivity := by
  refine ⟨?_, ?_, by decide, by decide, by decide, by decide⟩
  · rintro ⟨p, e, h, _⟩
    rcases h.covered with ⟨m0, r, h⟩ | ⟨_, m1, _, m2, h2, _, h3, _⟩
    · have h0 : (offersFor ['a'] exOps).head?.map Prod.snd = some false := by decide
      rw [h] at h0; cases h0
    · have h0 : ∀ m ∈ recentFor ['a'] exOps [], m.stamp ≤ 20 := by decide
      have := h0 m2 h2
      omega
  · rintro ⟨p, e, h, _⟩
    obtain ⟨m, s, hm, _⟩ := h.offer
    have h0 : offersFor ['w'] exOps = [] := by decide
    rw [h0] at hm; cases hm

/-! ### C01: how much a cache holds -/

theorem newestFirst_span {gap : Nat} {f : Sample X} {r : List (Sample X)}
    (hs : (f :: r).Pairwise (fun a b => b.stamp < a.stamp))
    (hg : ∀ a ∈ f :: r, ∀ b ∈ f :: r, b.stamp < a.stamp → b.stamp + gap ≤ a.stamp) :
    ∃ z ∈ f :: r, z.stamp + r.length * gap ≤ f.stamp := by
  induction r generalizing f with
  | nil => exact ⟨f, List.mem_cons_self .., by simp⟩
  | cons a r ih =>
    rw [List.pairwise_cons] at hs
    obtain ⟨z, hz, h⟩ := ih hs.2 (fun u hu v hv => hg u (List.mem_cons_of_mem _ hu) v (List.mem_cons_of_mem _ hv))
    refine ⟨z, List.mem_cons_of_mem _ hz, ?_⟩
    have := hg f (List.mem_cons_self ..) a (by simp) (hs.1 a (List.mem_cons_self ..))
    rw [List.length_cons, Nat.add_mul, Nat.one_mul]
    omega

/-- **C01, the size of a cache.** If the stamps offered for a dynamic frame are at least `gap` nanoseconds apart, then
however many messages were sent, the frame stores at most `D / gap + 1` of them. -/
theorem C01_size [Rigid X] {D : Duration} (hD : 0 ≤ D) {ops : List (Op X)}
    (hmax : ∀ m a s, Op.set m a s ∈ ops → m.stamp ≤ TIME_MAX) {i : Nat} {D' : Duration} {st : List (Sample X)}
    (h : ((Buf.init D).run ops).getFrame i = some (.dyn D' st)) {gap : Nat}
    (hg : ∀ a ∈ st, ∀ b ∈ st, b.stamp < a.stamp → b.stamp + gap ≤ a.stamp) :
    ((st.length : Int) - 1) * gap ≤ D := by
  obtain ⟨_, h1, _, h3⟩ := frame_spans hD hmax h
  cases st with
  | nil =>
    have : ((([] : List (Sample X)).length : Int) - 1) * gap = -gap := by simp
    omega
  | cons f r =>
    obtain ⟨z, hz, h⟩ := newestFirst_span h1 hg
    have := h3 f (List.mem_cons_self ..) z hz
    have e : (((f :: r).length : Int) - 1) * gap = ((r.length * gap : Nat) : Int) := by
      rw [List.length_cons]; simp
    omega

/-- **C01, memory.** A dynamic frame never stores more than one transform per nanosecond of the storage duration. -/
theorem C01_bounded [Rigid X] {D : Duration} (hD : 0 ≤ D) {ops : List (Op X)}
    (hmax : ∀ m a s, Op.set m a s ∈ ops → m.stamp ≤ TIME_MAX) {i : Nat} {D' : Duration} {st : List (Sample X)}
    (h : ((Buf.init D).run ops).getFrame i = some (.dyn D' st)) : (st.length : Int) ≤ D + 1 := by
  have := C01_size hD hmax h (gap := 1) (by intro a _ b _ h; omega)
  omega

example : ∃ st : List (Sample Int), exBuf.getFrame 1 = some (.dyn 100 st) ∧ st.length = 2 ∧
    (∀ a ∈ st, ∀ b ∈ st, b.stamp < a.stamp → b.stamp + 10 ≤ a.stamp) :=
  ⟨[smp 20 2 1 3, smp 10 2 1 1], by decide, by decide, by decide⟩

/-! ### C04: the differences of times taken while interpolating -/

/-- **C04, durations.** With representable stamps and storage duration, the two differences of times that interpolation
takes (`time - older` and `newer - older`, tf2/src/cache.cpp:195) never leave the range of durations: no exception can
come out of a query. -/
theorem C04_durations [Rigid X] {D : Duration} (hD : 0 ≤ D) (hDm : D ≤ DURATION_MAX) {ops : List (Op X)}
    (hmax : ∀ m a s, Op.set m a s ∈ ops → m.stamp ≤ TIME_MAX) {i : Nat} {D' : Duration} {st : List (Sample X)}
    (h : ((Buf.init D).run ops).getFrame i = some (.dyn D' st)) {o n : Sample X} (ho : o ∈ st) (hn : n ∈ st)
    {t : Time} (h1 : o.stamp ≤ t) (h2 : t ≤ n.stamp) :
    timeDiff t o.stamp = some ((t : Int) - o.stamp) ∧ timeDiff n.stamp o.stamp = some ((n.stamp : Int) - o.stamp) := by
  obtain ⟨_, _, _, h3⟩ := frame_spans hD hmax h
  have h4 := h3 n hn o ho
  have h5 : (o.stamp : Int) ≤ t := by omega
  have h6 : (t : Int) ≤ n.stamp := by omega
  unfold timeDiff DURATION_MAX at *
  constructor <;> rw [if_pos (by omega)]

end Tf2
