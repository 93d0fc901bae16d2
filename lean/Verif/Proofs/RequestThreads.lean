import Verif.Spec.RequestThreads
import Verif.Props.Requests

/-!
# The invariant of requests with several threads
-/
namespace Tf2.Par

variable {X : Type}

@[simp] theorem at_buf (s : Sys X) (t : Nat) (p : Option (Stage X)) : (s.at t p).buf = s.buf := rfl
@[simp] theorem at_cbs (s : Sys X) (t : Nat) (p : Option (Stage X)) : (s.at t p).cbs = s.cbs := rfl
@[simp] theorem at_reqs (s : Sys X) (t : Nat) (p : Option (Stage X)) : (s.at t p).reqs = s.reqs := rfl
@[simp] theorem at_owner (s : Sys X) (t : Nat) (p : Option (Stage X)) : (s.at t p).owner = s.owner := rfl
theorem at_same (s : Sys X) (t : Nat) (p : Option (Stage X)) : (s.at t p).thr t = p := by simp [Sys.at, put]
theorem at_other (s : Sys X) {t v : Nat} (p : Option (Stage X)) (h : v ≠ t) : (s.at t p).thr v = s.thr v := by
  simp [Sys.at, put, h]

/-! ### A request that has to wait -/

/-- Neither answer can be given now. -/
def MustWait (b : Buf X) (tid sid : Nat) (tm : Time) : Prop :=
  b.canTransformNoLock tid sid tm = .ok false ∧ ∃ l, b.latestOrZero tid sid = .ok l ∧ b.tooOldFor l tm = .ok false

/-- ... by names. -/
def NameWait (b : Buf X) (tg src : Name) (tm : Time) : Prop :=
  MustWait b (b.lookupFrameNumber tg) (b.lookupFrameNumber src) tm

theorem NameWait.unanswerable {b : Buf X} {tg src : Name} {tm : Time} (hne : tg ≠ src) (h : NameWait b tg src tm) :
    Unanswerable b tg src tm := by
  refine ⟨canTransform_false_of_noLock hne h.1, ?_⟩
  intro ho
  obtain ⟨l, e, h1, h2, h3, h4⟩ := tooOld_ids ho
  obtain ⟨l', h5, h6⟩ := h.2
  unfold Buf.latestOrZero at h5
  rw [h1] at h5
  injection h5 with h5
  subst h5
  unfold Buf.tooOldFor at h6
  rw [if_neg h2, h3] at h6
  injection h6 with h6
  exact absurd h4 (of_decide_eq_false h6)

theorem latestOrZero_cases [Rigid X] {D : Duration} {b : Buf X} (hw : WF D b) (tid sid : Nat) : ∃ l, b.latestOrZero tid sid = .ok l := by
  unfold Buf.latestOrZero
  cases h : b.latestCommonTime tid sid with
  | ub => exact absurd h (latestCommonTime_ne_ub hw _ _)
  | err _ => exact ⟨0, rfl⟩
  | ok l => exact ⟨l, rfl⟩

theorem latestOrZero_zero {b : Buf X} {tid sid : Nat} (h : tid = 0 ∨ sid = 0) : b.latestOrZero tid sid = .ok 0 := by
  unfold Buf.latestOrZero
  rw [latestCommonTime_zero h]

theorem tooOldFor_zero (b : Buf X) (tm : Time) : b.tooOldFor 0 tm = .ok false := by
  unfold Buf.tooOldFor; rw [if_pos rfl]

theorem tooOldFor_ne_ub (b : Buf X) (l tm : Time) : b.tooOldFor l tm ≠ .ub := by
  unfold Buf.tooOldFor
  split
  · simp
  · split <;> simp

theorem MustWait.zero {b : Buf X} {tid sid : Nat} {tm : Time} (h : tid = 0 ∨ sid = 0) : MustWait b tid sid tm :=
  ⟨canNoLock_zero h, 0, latestOrZero_zero h, tooOldFor_zero b tm⟩

/-! ### Events -/

/-- The buffer was not changed. -/
def Ev.quiet : Ev → Bool
  | .stored _ => false
  | .touched _ => false
  | .cleared _ => false
  | _ => true

def Quiet (evs : List Ev) : Prop := ∀ e ∈ evs, e.quiet = true

theorem Quiet.append {a b : List Ev} : Quiet (a ++ b) ↔ Quiet a ∧ Quiet b := by
  simp only [Quiet, List.mem_append]
  exact ⟨fun h => ⟨fun e he => h e (.inl he), fun e he => h e (.inr he)⟩, fun h e he => he.elim (h.1 e) (h.2 e)⟩

theorem Stored.append {a b : List Ev} : Stored (a ++ b) ↔ Stored a ∨ Stored b := by
  simp only [Stored, List.mem_append]
  constructor
  · rintro ⟨u, h | h⟩
    · exact .inl ⟨u, h⟩
    · exact .inr ⟨u, h⟩
  · rintro (⟨u, h⟩ | ⟨u, h⟩)
    · exact ⟨u, .inl h⟩
    · exact ⟨u, .inr h⟩

theorem not_stored_nil : ¬ Stored [] := by rintro ⟨u, h⟩; cases h

/-- Something changed the buffer without testing, or a test was broken off, and no transform was accepted since. -/
def Spoiled (evs : List Ev) : Prop := ∃ e1 x e2, evs = e1 ++ x :: e2 ∧ x.spoils = true ∧ ¬ Stored e2

theorem Spoiled.append {evs new : List Ev} (h : Spoiled evs) (hn : ¬ Stored new) : Spoiled (evs ++ new) := by
  obtain ⟨e1, x, e2, rfl, h1, h2⟩ := h
  exact ⟨e1, x, e2 ++ new, by simp, h1, fun h => (Stored.append.1 h).elim h2 hn⟩

theorem Settled.not_spoiled {evs : List Ev} (h : Settled evs) : ¬ Spoiled evs := by
  rintro ⟨e1, x, e2, h1, h2, h3⟩
  exact h3 (h e1 x e2 h1 h2)

/-- A transform is stored and not yet tested for, or the guarantee is off. -/
def OS (s : Sys X) (evs : List Ev) : Prop := (∃ u, s.thr u = some .owing) ∨ Spoiled evs

/-- Since its last beginning to look, thread `u` saw `e2` happen. -/
def LastAsk (evs : List Ev) (u : Nat) (e2 : List Ev) : Prop := ∃ e1, evs = e1 ++ .asked u :: e2 ∧ Ev.asked u ∉ e2

theorem LastAsk.append {evs e2 new : List Ev} {u : Nat} (h : LastAsk evs u e2) (hn : Ev.asked u ∉ new) :
    LastAsk (evs ++ new) u (e2 ++ new) := by
  obtain ⟨e1, rfl, h2⟩ := h
  refine ⟨e1, by simp, ?_⟩
  rw [List.mem_append]
  rintro (h | h)
  · exact h2 h
  · exact hn h

/-- The call that made the request, and more about it. -/
def Made (P : Name → Name → List Ev → List Ev → Prop) (b : Buf X) (evs : List Ev) (r : Request) : Prop :=
  ∃ t tg src e1 e2 e3, AddedBy evs t r.handle r.cb tg src r.time e1 e2 e3 ∧ tg ≠ src ∧ ReqFor b r tg src ∧ P tg src e2 e3

/-- Only that. -/
def Known (s : Sys X) (evs : List Ev) (r : Request) : Prop := Made (fun _ _ _ _ => True) s.buf evs r

/-- It waits rightly, or was missed, or will be tested, or the guarantee is off. -/
def Good (s : Sys X) (evs : List Ev) (r : Request) : Prop :=
  Made (fun tg src e2 e3 => NameWait s.buf tg src r.time ∨ (Stored e2 ∧ ¬ Stored e3) ∨ OS s evs) s.buf evs r

theorem Made.imp {P Q : Name → Name → List Ev → List Ev → Prop} {b : Buf X} {evs : List Ev} {r : Request} (h : Made P b evs r)
    (hpq : ∀ tg src e2 e3, P tg src e2 e3 → Q tg src e2 e3) : Made Q b evs r := by
  obtain ⟨t, tg, src, e1, e2, e3, h1, h2, h3, h4⟩ := h
  exact ⟨t, tg, src, e1, e2, e3, h1, h2, h3, hpq _ _ _ _ h4⟩

theorem Good.known {s : Sys X} {evs : List Ev} {r : Request} (h : Good s evs r) : Known s evs r :=
  Made.imp h fun _ _ _ _ _ => trivial

theorem Known.good {s : Sys X} {evs : List Ev} {r : Request} (h : Known s evs r) (ho : OS s evs) : Good s evs r :=
  Made.imp h fun _ _ _ _ _ => .inr (.inr ho)

theorem AddedBy.append {evs e1 e2 e3 new : List Ev} {t h cb : Nat} {tg src : Name} {tm : Time}
    (ha : AddedBy evs t h cb tg src tm e1 e2 e3) : AddedBy (evs ++ new) t h cb tg src tm e1 e2 (e3 ++ new) := by
  obtain ⟨rfl, h2⟩ := ha
  exact ⟨by simp, h2⟩

theorem Known.mono {s s' : Sys X} {evs new : List Ev} {r : Request} (h : Known s evs r)
    (hb : ∀ n i, s.buf.frameIDs n = some i → s'.buf.frameIDs n = some i) : Known s' (evs ++ new) r := by
  obtain ⟨t, tg, src, e1, e2, e3, h1, h2, h3, _⟩ := h
  exact ⟨t, tg, src, e1, e2, e3 ++ new, h1.append, h2, h3.mono hb, trivial⟩

/-- What a step must do for requests to stay as they should be. -/
def Keeps (s s' : Sys X) (evs new : List Ev) : Prop :=
  (s'.buf = s.buf ∧ ¬ Stored new ∧ (OS s evs → OS s' (evs ++ new))) ∨ OS s' (evs ++ new)

theorem Good.keep {s s' : Sys X} {evs new : List Ev} {r : Request} (h : Good s evs r)
    (hb : ∀ n i, s.buf.frameIDs n = some i → s'.buf.frameIDs n = some i) (hk : Keeps s s' evs new) : Good s' (evs ++ new) r := by
  rcases hk with ⟨hbuf, hns, hos⟩ | hos
  · obtain ⟨t, tg, src, e1, e2, e3, h1, h2, h3, h4⟩ := h
    refine ⟨t, tg, src, e1, e2, e3 ++ new, h1.append, h2, h3.mono hb, ?_⟩
    rcases h4 with h4 | ⟨h4, h5⟩ | h4
    · rw [hbuf]; exact .inl h4
    · exact .inr (.inl ⟨h4, fun h => (Stored.append.1 h).elim h5 hns⟩)
    · exact .inr (.inr (hos h4))
  · exact (h.known.mono hb).good hos

theorem Known.resolve {s : Sys X} {evs : List Ev} {r : Request} (h : Known s evs r) : Known s evs (r.resolve s.buf) := by
  obtain ⟨t, tg, src, e1, e2, e3, h1, h2, h3, _⟩ := h
  exact ⟨t, tg, src, e1, e2, e3, h1, h2, h3.resolve, trivial⟩

theorem resolve_idem [Rigid X] {b : Buf X} {r : Request} {tg src : Name} (h : ReqFor b r tg src) : (r.resolve b).resolve b = r.resolve b := by
  obtain ⟨a1, a2⟩ := h.resolve_tid
  obtain ⟨b1, b2⟩ := h.resolve.resolve_tid
  have c1 : ((r.resolve b).resolve b).tid = (r.resolve b).tid := by rw [a1, b1]
  have c2 : ((r.resolve b).resolve b).sid = (r.resolve b).sid := by rw [a2, b2]
  have : (r.resolve b).resolve b =
      { r.resolve b with tid := ((r.resolve b).resolve b).tid, sid := ((r.resolve b).resolve b).sid } := rfl
  rw [this, c1, c2]

/-! ### The invariant -/

/-- What is known of a thread that tests. -/
structure Testing (s : Sys X) (evs : List Ev) (u : Nat) (t : TestState) : Prop where
  owner : s.owner = some u
  len : t.size ≤ t.mem.length
  pos : t.i ≤ t.size
  done : ∀ r ∈ t.mem.take t.i, Good s evs r
  all : ∀ r ∈ t.mem.take t.size, Known s evs r

/-- What is known of a thread that makes a request. -/
structure Asking (s : Sys X) (evs : List Ev) (u : Nat) (tg src : Name) (tid sid : Nat) (P : Prop) : Prop where
  ne : tg ≠ src
  tgt : tid ≠ 0 → s.buf.frameIDs tg = some tid
  srcs : sid ≠ 0 → s.buf.frameIDs src = some sid
  since : ∃ e2, LastAsk evs u e2 ∧ (Quiet e2 → tid = s.buf.lookupFrameNumber tg ∧ sid = s.buf.lookupFrameNumber src ∧ P)

/-- What is known of a thread. -/
def StageOK (s : Sys X) (evs : List Ev) (u : Nat) : Option (Stage X) → Prop
  | some (.look t) => Testing s evs u t
  | some (.found t r) => Testing s evs u t ∧ t.i < t.size ∧ t.mem[t.i]? = some r ∧ (OS s evs ∨ r.resolve s.buf = r)
  | some (.young t r) => Testing s evs u t ∧ t.i < t.size ∧ t.mem[t.i]? = some r ∧
      (OS s evs ∨ (r.resolve s.buf = r ∧ ∃ l, s.buf.latestOrZero r.tid r.sid = .ok l ∧ s.buf.tooOldFor l r.time = .ok false))
  | some (.asked _ tg src _ tid sid) => Asking s evs u tg src tid sid True
  | some (.cannot _ tg src tm tid sid) => Asking s evs u tg src tid sid (s.buf.canTransformNoLock tid sid tm = .ok false)
  | some (.fresh _ tg src tm tid sid) => Asking s evs u tg src tid sid (MustWait s.buf tid sid tm)
  | some (.counted _ tg src tm tid sid _) => Asking s evs u tg src tid sid (MustWait s.buf tid sid tm)
  | some (.numbered _ tg src tm tid sid _) => Asking s evs u tg src tid sid (MustWait s.buf tid sid tm)
  | _ => True

/-- The thread tests. -/
def isTest : Option (Stage X) → Prop
  | some (.look _) => True
  | some (.found _ _) => True
  | some (.young _ _) => True
  | _ => False

structure Inv (D : Duration) (s : Sys X) (evs : List Ev) : Prop where
  wf : WF D s.buf
  free : s.owner = none → ∀ r ∈ s.reqs, Good s evs r
  own : ∀ u, s.owner = some u → isTest (s.thr u)
  stages : ∀ u, StageOK s evs u (s.thr u)
  fine : ∀ u, Ev.undefined u ∉ evs

theorem Inv.init (D : Duration) : Inv D (Sys.init D : Sys X) [] where
  wf := WF.init D
  free := by intro _ r h; cases h
  own := by intro u h; cases h
  stages := by intro u; trivial
  fine := by intro u h; cases h

theorem Testing.keep {s s' : Sys X} {evs new : List Ev} {u : Nat} {t : TestState} (h : Testing s evs u t)
    (hb : ∀ n i, s.buf.frameIDs n = some i → s'.buf.frameIDs n = some i) (hk : Keeps s s' evs new) (ho : s'.owner = some u) :
    Testing s' (evs ++ new) u t :=
  ⟨ho, h.len, h.pos, fun r hr => (h.done r hr).keep hb hk, fun r hr => (h.all r hr).mono hb⟩

theorem Asking.keep {s s' : Sys X} {evs new : List Ev} {u : Nat} {tg src : Name} {tid sid : Nat} {P Q : Prop}
    (h : Asking s evs u tg src tid sid P) (hb : ∀ n i, s.buf.frameIDs n = some i → s'.buf.frameIDs n = some i)
    (hq : Quiet new → s'.buf = s.buf) (hn : Ev.asked u ∉ new)
    (hpq : Quiet new → tid = s.buf.lookupFrameNumber tg → sid = s.buf.lookupFrameNumber src → P → Q) :
    Asking s' (evs ++ new) u tg src tid sid Q := by
  obtain ⟨e2, h1, h2⟩ := h.since
  refine ⟨h.ne, fun h0 => hb _ _ (h.tgt h0), fun h0 => hb _ _ (h.srcs h0), e2 ++ new, h1.append hn, ?_⟩
  intro hq2
  obtain ⟨q1, q2⟩ := Quiet.append.1 hq2
  obtain ⟨a, b, c⟩ := h2 q1
  rw [hq q2]
  exact ⟨a, b, hpq q2 a b c⟩

/-- A step of thread `u`. -/
theorem Inv.next [Rigid X] {D : Duration} {s s' : Sys X} {evs new : List Ev} (h : Inv D s evs) (u : Nat)
    (hthr : ∀ v, v ≠ u → s'.thr v = s.thr v) (hask : ∀ v, v ≠ u → Ev.asked v ∉ new) (hwf : WF D s'.buf)
    (hb : ∀ n i, s.buf.frameIDs n = some i → s'.buf.frameIDs n = some i) (hq : Quiet new → s'.buf = s.buf)
    (hk : (∃ v, v ≠ u ∧ s.owner = some v) → Keeps s s' evs new)
    (hown : ∀ v, v ≠ u → (s.owner = some v ↔ s'.owner = some v))
    (hmine : s'.owner = some u → isTest (s'.thr u))
    (hstage : StageOK s' (evs ++ new) u (s'.thr u))
    (hfree : s'.owner = none → ∀ r ∈ s'.reqs, Good s' (evs ++ new) r)
    (hfine : ∀ v, Ev.undefined v ∉ new) : Inv D s' (evs ++ new) where
  wf := hwf
  free := hfree
  own := by
    intro v hv
    by_cases hvu : v = u
    · subst hvu; exact hmine hv
    · rw [hthr v hvu]; exact h.own v ((hown v hvu).2 hv)
  stages := by
    intro v
    by_cases hvu : v = u
    · subst hvu; exact hstage
    · rw [hthr v hvu]
      have hs := h.stages v
      have ask : ∀ {tg src : Name} {tid sid : Nat} {P Q : Prop}, Asking s evs v tg src tid sid P → (s'.buf = s.buf → P → Q) →
          Asking s' (evs ++ new) v tg src tid sid Q := by
        intro tg src tid sid P Q ha hpq
        exact ha.keep hb hq (hask v hvu) (fun q _ _ p => hpq (hq q) p)
      have keepOS : ∀ {A B : Prop}, s.owner = some v → (s'.buf = s.buf → A → B) → OS s evs ∨ A → OS s' (evs ++ new) ∨ B := by
        intro A B ho hab h
        rcases hk ⟨v, hvu, ho⟩ with ⟨h1, _, h2⟩ | h1
        · rcases h with h | h
          · exact .inl (h2 h)
          · exact .inr (hab h1 h)
        · exact .inl h1
      cases hst : s.thr v with
      | none => trivial
      | some p =>
        rw [hst] at hs
        cases p with
        | look t => exact Testing.keep hs hb (hk ⟨v, hvu, hs.owner⟩) ((hown v hvu).1 hs.owner)
        | found t r =>
          refine ⟨Testing.keep hs.1 hb (hk ⟨v, hvu, hs.1.owner⟩) ((hown v hvu).1 hs.1.owner), hs.2.1, hs.2.2.1, ?_⟩
          refine keepOS hs.1.owner ?_ hs.2.2.2
          intro e; rw [e]; exact id
        | young t r =>
          refine ⟨Testing.keep hs.1 hb (hk ⟨v, hvu, hs.1.owner⟩) ((hown v hvu).1 hs.1.owner), hs.2.1, hs.2.2.1, ?_⟩
          refine keepOS hs.1.owner ?_ hs.2.2.2
          intro e; rw [e]; exact id
        | asked => exact ask hs fun _ _ => trivial
        | cannot => exact ask hs fun e => by rw [e]; exact id
        | fresh => exact ask hs fun e => by rw [e]; exact id
        | counted => exact ask hs fun e => by rw [e]; exact id
        | numbered => exact ask hs fun e => by rw [e]; exact id
        | _ => trivial
  fine := by
    intro v hv
    rcases List.mem_append.1 hv with hv | hv
    · exact h.fine v hv
    · exact hfine v hv

/-! ### Steps -/

theorem OS.mono {s s' : Sys X} {evs new : List Ev} (hns : ¬ Stored new) (hv : ∀ v, s.thr v = some .owing → s'.thr v = some .owing)
    (h : OS s evs) : OS s' (evs ++ new) := by
  rcases h with ⟨v, h⟩ | h
  · exact .inl ⟨v, hv v h⟩
  · exact .inr (h.append hns)

theorem Keeps.same {s s' : Sys X} {evs new : List Ev} (hb : s'.buf = s.buf) (hns : ¬ Stored new)
    (hv : ∀ v, s.thr v = some .owing → s'.thr v = some .owing) : Keeps s s' evs new :=
  .inl ⟨hb, hns, OS.mono hns hv⟩

/-- A step that changes neither the buffer nor the requests nor the owner of the mutex. -/
theorem Inv.move [Rigid X] {D : Duration} {s s' : Sys X} {evs new : List Ev} (h : Inv D s evs) (u : Nat)
    (hu : s.thr u ≠ some .owing) (hbuf : s'.buf = s.buf) (hreqs : s'.reqs = s.reqs) (howner : s'.owner = s.owner)
    (hthr : ∀ v, v ≠ u → s'.thr v = s.thr v) (hask : ∀ v, v ≠ u → Ev.asked v ∉ new) (hns : ¬ Stored new)
    (hfine : ∀ v, Ev.undefined v ∉ new) (hmine : s.owner = some u → isTest (s'.thr u))
    (hstage : StageOK s' (evs ++ new) u (s'.thr u)) : Inv D s' (evs ++ new) := by
  have hk : Keeps s s' evs new := by
    refine .same hbuf hns ?_
    intro v hv
    by_cases hvu : v = u
    · subst hvu; exact absurd hv hu
    · rw [hthr v hvu]; exact hv
  have hb : ∀ n i, s.buf.frameIDs n = some i → s'.buf.frameIDs n = some i := by rw [hbuf]; exact fun _ _ h => h
  refine h.next u hthr hask (by rw [hbuf]; exact h.wf) hb (fun _ => hbuf) (fun _ => hk) (fun v _ => by rw [howner])
    (by rw [howner]; exact hmine) hstage ?_ hfine
  intro ho r hr
  rw [hreqs] at hr
  rw [howner] at ho
  exact (h.free ho r hr).keep hb hk

theorem Inv.not_owner [Rigid X] {D : Duration} {s : Sys X} {evs : List Ev} (h : Inv D s evs) {u : Nat} (hu : ¬ isTest (s.thr u)) :
    s.owner ≠ some u := fun ho => hu (h.own u ho)

/-- What `testTransformableRequests` needs for its texts. -/
theorem Known.names [Rigid X] {D : Duration} {s : Sys X} {evs : List Ev} (hw : WF D s.buf) {r : Request} (h : Known s evs r)
    (h0 : ¬ (r.tid = 0 ∨ r.sid = 0)) :
    (∃ n, s.buf.lookupFrameString r.tid = .ok n) ∧ ∃ n, s.buf.lookupFrameString r.sid = .ok n := by
  obtain ⟨t, tg, src, e1, e2, e3, h1, h2, h3, _⟩ := h
  have a1 := (hw.ids _ _).1 (h3.2.1 (fun h => h0 (.inl h)))
  have a2 := (hw.ids _ _).1 (h3.2.2.2 (fun h => h0 (.inr h)))
  unfold Buf.lookupFrameString
  rw [a1, a2]
  exact ⟨⟨_, rfl⟩, ⟨_, rfl⟩⟩

/-- The vector after an answer. -/
def shrink (t : TestState) (back : Request) : List Request := if t.size > 1 then t.mem.set t.i back else t.mem

theorem shrink_mem {t : TestState} {back r : Request} (hlen : t.size ≤ t.mem.length) (hi : t.i < t.size)
    (hback : t.mem[t.size - 1]? = some back) (hr : r ∈ (shrink t back).take (t.size - 1)) : r ∈ t.mem.take t.size := by
  have hbk : back ∈ t.mem.take t.size := by
    rw [List.mem_iff_getElem?]
    refine ⟨t.size - 1, ?_⟩
    rw [List.getElem?_take]
    rw [if_pos (by omega)]
    exact hback
  rw [List.mem_iff_getElem?] at hr
  obtain ⟨k, hk⟩ := hr
  rw [List.getElem?_take] at hk
  split at hk
  · next hlt =>
    unfold shrink at hk
    split at hk
    · rw [List.getElem?_set] at hk
      split at hk
      · split at hk
        · injection hk with hk
          subst hk
          exact hbk
        · cases hk
      · rw [List.mem_iff_getElem?]
        exact ⟨k, by rw [List.getElem?_take, if_pos (by omega)]; exact hk⟩
    · omega
  · cases hk

theorem shrink_take (t : TestState) (back : Request) : (shrink t back).take t.i = t.mem.take t.i := by
  unfold shrink
  split
  · rw [List.take_set_of_le (by omega)]
  · rfl

theorem shrink_length (t : TestState) (back : Request) : (shrink t back).length = t.mem.length := by
  unfold shrink
  split <;> simp

theorem Testing.shrunk {s s' : Sys X} {evs new : List Ev} {u : Nat} {t : TestState} (h : Testing s evs u t)
    (hi : t.i < t.size) {back : Request} (hback : t.mem[t.size - 1]? = some back)
    (hb : ∀ n i, s.buf.frameIDs n = some i → s'.buf.frameIDs n = some i) (hk : Keeps s s' evs new) (ho : s'.owner = some u)
    (cs : List Call) (ls : List (Option Bool)) :
    Testing s' (evs ++ new) u { t with mem := shrink t back, size := t.size - 1, calls := cs, locals := ls } := by
  refine ⟨ho, ?_, ?_, ?_, ?_⟩
  · have := h.len
    have := shrink_length t back
    simp only
    omega
  · simp only; omega
  · intro r hr
    simp only [shrink_take] at hr
    exact (h.done r hr).keep hb hk
  · intro r hr
    exact (h.all r (shrink_mem h.len hi hback hr)).mono hb

/-- A request is answered. -/
theorem Inv.answer [Rigid X] {D : Duration} {s : Sys X} {evs : List Ev} (h : Inv D s evs) {u : Nat} {t : TestState} {r : Request}
    (ht : Testing s evs u t) (hi : t.i < t.size) (hr : t.mem[t.i]? = some r) (hu : s.thr u ≠ some .owing)
    (h0 : ¬ (r.tid = 0 ∨ r.sid = 0)) (av : Bool) : Inv D (answer s u t r av).1 (evs ++ (answer s u t r av).2) := by
  have hkn : Known s evs r := by
    refine ht.all r ?_
    rw [List.mem_iff_getElem?]
    exact ⟨t.i, by rw [List.getElem?_take, if_pos hi]; exact hr⟩
  obtain ⟨⟨n1, hn1⟩, ⟨n2, hn2⟩⟩ := hkn.names h.wf h0
  have hlt : t.size - 1 < t.mem.length := by have := ht.len; omega
  have hback : t.mem[t.size - 1]? = some t.mem[t.size - 1] := List.getElem?_eq_getElem hlt
  have go : ∀ (cs : List Call) (ls : List (Option Bool)) (e : Ev), e.quiet = true → (∀ v, e ≠ .asked v) → (∀ v, e ≠ .undefined v) →
      Inv D (s.at u (some (.look { t with mem := shrink t t.mem[t.size - 1], size := t.size - 1, calls := cs, locals := ls })))
        (evs ++ [e]) := by
    intro cs ls e hq ha hf
    have hns : ¬ Stored [e] := by
      rintro ⟨v, hv⟩
      rw [List.mem_singleton] at hv
      subst hv
      cases hq
    refine h.move u hu rfl rfl rfl (fun v hv => at_other s _ hv) ?_ hns ?_ ?_ ?_
    · intro v _ hv; rw [List.mem_singleton] at hv; exact ha v hv.symm
    · intro v hv; rw [List.mem_singleton] at hv; exact hf v hv.symm
    · intro _; rw [at_same]; trivial
    · rw [at_same]
      refine Testing.shrunk (s' := s.at u _) ht hi hback (fun _ _ h => h) (.same rfl hns ?_) ht.owner cs ls
      intro v hv
      by_cases hvu : v = u
      · subst hvu; exact absurd hv hu
      · rw [at_other _ _ hvu]; exact hv
  unfold Par.answer
  rw [hback]
  simp only [hn1, hn2]
  split
  · exact go _ _ _ rfl (fun _ h => nomatch h) (fun _ h => nomatch h)
  · exact go _ _ _ rfl (fun _ h => nomatch h) (fun _ h => nomatch h)

/-- A test is broken off. -/
theorem Inv.giveUp [Rigid X] {D : Duration} {s : Sys X} {evs : List Ev} (h : Inv D s evs) {u : Nat} {t : TestState}
    (ht : Testing s evs u t) : Inv D (giveUp s u t).1 (evs ++ (giveUp s u t).2) := by
  have hsp : Spoiled (evs ++ [Ev.testThrew u]) := ⟨evs, .testThrew u, [], rfl, rfl, not_stored_nil⟩
  unfold Par.giveUp
  refine h.next u (fun v hv => at_other _ _ hv) ?_ h.wf (fun _ _ h => h) (fun _ => rfl) (fun _ => .inr (.inr hsp)) ?_ ?_ ?_ ?_ ?_
  · intro v _ hv; rw [List.mem_singleton] at hv; cases hv
  · intro v hv
    simp only [at_owner, ht.owner]
    constructor
    · intro h; injection h with h; exact absurd h.symm hv
    · intro h; cases h
  · intro ho; cases ho
  · rw [at_same]; trivial
  · intro _ r hr
    refine Known.good (Known.mono (s := s) (ht.all r hr) ?_) (.inr hsp)
    exact fun _ _ h => h
  · intro v hv; rw [List.mem_singleton] at hv; cases hv

/-- The test goes on. -/
theorem Inv.goTest [Rigid X] {D : Duration} {s : Sys X} {evs : List Ev} (h : Inv D s evs) {u : Nat} (hu : s.thr u ≠ some .owing)
    {p : Stage X} (hown : isTest (some p)) (hp : StageOK s (evs ++ []) u (some p)) : Inv D (s.at u (some p)) (evs ++ []) := by
  refine h.move u hu rfl rfl rfl (fun v hv => at_other s _ hv) (fun _ _ h => nomatch h) not_stored_nil (fun _ h => nomatch h) ?_ ?_
  · intro _; rw [at_same]; exact hown
  · rw [at_same]
    have hk : Keeps s (s.at u (some p)) evs [] := by
      refine .same rfl not_stored_nil ?_
      intro v hv
      by_cases hvu : v = u
      · subst hvu; exact absurd hv hu
      · rw [at_other _ _ hvu]; exact hv
    rw [List.append_nil] at hp
    have os : OS s evs → OS (s.at u (some p)) (evs ++ []) := by
      rcases hk with ⟨_, _, h⟩ | h
      · exact h
      · exact fun _ => h
    cases p with
    | look t => exact Testing.keep hp (fun _ _ h => h) hk hp.owner
    | found t r => exact ⟨Testing.keep hp.1 (fun _ _ h => h) hk hp.1.owner, hp.2.1, hp.2.2.1, hp.2.2.2.imp os id⟩
    | young t r => exact ⟨Testing.keep hp.1 (fun _ _ h => h) hk hp.1.owner, hp.2.1, hp.2.2.1, hp.2.2.2.imp os id⟩
    | _ => exact hown.elim

/-- A thread that does not test goes on and changes neither buffer nor requests. -/
theorem Inv.goElse [Rigid X] {D : Duration} {s s' : Sys X} {evs new : List Ev} (h : Inv D s evs) {u : Nat} {p : Option (Stage X)}
    (hu : s.thr u ≠ some .owing) (ht : ¬ isTest (s.thr u)) (hbuf : s'.buf = s.buf) (hreqs : s'.reqs = s.reqs)
    (howner : s'.owner = s.owner) (hthr : s'.thr = put s.thr u p)
    (hask : ∀ v, v ≠ u → Ev.asked v ∉ new) (hns : ¬ Stored new) (hfine : ∀ v, Ev.undefined v ∉ new)
    (hstage : StageOK s' (evs ++ new) u p) : Inv D s' (evs ++ new) := by
  have hs : s'.thr u = p := by rw [hthr]; simp [put]
  refine h.move u hu hbuf hreqs howner (fun v hv => by rw [hthr]; simp [put, hv]) hask hns hfine
    (fun ho => absurd ho (h.not_owner ht)) ?_
  rw [hs]; exact hstage

theorem not_stored_one {e : Ev} (h : ∀ v, e ≠ .stored v) : ¬ Stored [e] := by
  rintro ⟨v, hv⟩
  rw [List.mem_singleton] at hv
  exact h v hv.symm

theorem not_mem_one {e e' : Ev} (h : e' ≠ e) : e' ∉ [e] := by
  rw [List.mem_singleton]; exact h

/-- A transform is put into the buffer, or it is changed otherwise. -/
theorem Inv.goChange [Rigid X] {D : Duration} {s : Sys X} {evs : List Ev} (h : Inv D s evs) {u : Nat} (ht : ¬ isTest (s.thr u))
    {b : Buf X} (hwf : WF D b) (hb : ∀ n i, s.buf.frameIDs n = some i → b.frameIDs n = some i) {p : Option (Stage X)} {e : Ev}
    (hq : e.quiet = false) (hask : ∀ v, e ≠ .asked v) (hfine : ∀ v, e ≠ .undefined v) (hp : p = some .owing ∨ (p = none ∧ e.spoils = true)) :
    Inv D ({ s with buf := b }.at u p) (evs ++ [e]) := by
  have hos : OS ({ s with buf := b }.at u p) (evs ++ [e]) := by
    rcases hp with rfl | ⟨_, hp⟩
    · exact .inl ⟨u, at_same _ _ _⟩
    · exact .inr ⟨evs, e, [], rfl, hp, not_stored_nil⟩
  have hst : ∀ s' evs', StageOK (X := X) s' evs' u p := by
    intro s' evs'
    rcases hp with rfl | ⟨rfl, _⟩ <;> trivial
  refine h.next u (fun v hv => at_other _ _ hv) (fun v _ => not_mem_one (hask v).symm) hwf hb ?_ (fun _ => .inr hos) (fun _ _ => Iff.rfl)
    (fun ho => absurd ho (h.not_owner ht)) ?_ ?_ (fun v => not_mem_one (hfine v).symm)
  · intro hq'
    have := hq' e (List.mem_singleton.2 rfl)
    rw [hq] at this; cases this
  · rw [at_same]; exact hst _ _
  · intro ho r hr
    exact Known.good (Known.mono (s := s) (h.free ho r hr).known hb) hos

/-- Some requests are removed. -/
theorem Inv.goFilter [Rigid X] {D : Duration} {s : Sys X} {evs : List Ev} (h : Inv D s evs) {u : Nat} (hu : s.thr u ≠ some .owing)
    (ht : ¬ isTest (s.thr u)) {e : Ev} (hs : ∀ v, e ≠ .stored v) (hask : ∀ v, e ≠ .asked v) (hfine : ∀ v, e ≠ .undefined v)
    (hq : e.quiet = true) (f : Request → Bool) :
    Inv D ({ s with reqs := s.reqs.filter f }.at u none) (evs ++ [e]) := by
  have hk : Keeps s ({ s with reqs := s.reqs.filter f }.at u none) evs [e] := by
    refine .same rfl (not_stored_one hs) ?_
    intro v hv
    by_cases hvu : v = u
    · subst hvu; exact absurd hv hu
    · rw [at_other _ _ hvu]; exact hv
  refine h.next u (fun v hv => at_other _ _ hv) (fun v _ => not_mem_one (hask v).symm) h.wf (fun _ _ h => h) (fun _ => rfl)
    (fun _ => hk) (fun _ _ => Iff.rfl) (fun ho' => absurd ho' (h.not_owner ht)) ?_ ?_ (fun v => not_mem_one (hfine v).symm)
  · rw [at_same]; trivial
  · intro ho r hr
    exact Good.keep (s := s) (h.free ho r ((List.mem_filter.1 hr).1)) (fun _ _ h => h) hk

theorem take_succ_of {α : Type} {l : List α} {i : Nat} {r : α} (h : l[i]? = some r) : l.take (i + 1) = l.take i ++ [r] := by
  rw [List.take_add_one, h]; rfl

theorem Inv.go [Rigid X] {D : Duration} {s : Sys X} {evs : List Ev} (h : Inv D s evs) (u : Nat) :
    Inv D (s.go u).1 (evs ++ (s.go u).2) := by
  have hs := h.stages u
  have stay : Inv D s (evs ++ []) := by rw [List.append_nil]; exact h
  cases hst : s.thr u with
  | none => simp only [Sys.go, hst]; exact stay
  | some p =>
    rw [hst] at hs
    have hno : ∀ {q : Stage X}, s.thr u = some q → q ≠ .owing → s.thr u ≠ some .owing := by
      intro q he hq h; rw [he] at h; injection h with h; exact hq h
    cases p with
    | store m a st =>
      have ht : ¬ isTest (s.thr u) := by rw [hst]; exact fun h => h
      have hw := h.wf.setTransform m a st
      have hb : ∀ n i, s.buf.frameIDs n = some i → (s.buf.setTransform m a st).1.frameIDs n = some i :=
        fun n i hn => frameIDs_step h.wf (.set m a st) hn
      have hub := set_ne_ub h.wf m a st
      simp only [Sys.go, hst]
      generalize s.buf.setTransform m a st = br at *
      obtain ⟨b, r⟩ := br
      cases r with
      | accepted => exact h.goChange ht hw hb rfl (fun _ h => nomatch h) (fun _ h => nomatch h) (.inl rfl)
      | invalid =>
        exact h.goElse (p := none) (hno hst (fun h => nomatch h)) ht rfl rfl rfl rfl (fun v _ => not_mem_one (fun h => nomatch h))
          (not_stored_one (fun v h => nomatch h)) (fun v => not_mem_one (fun h => nomatch h)) trivial
      | ub => exact absurd rfl hub
      | tooOld => exact h.goChange ht hw hb rfl (fun _ h => nomatch h) (fun _ h => nomatch h) (.inr ⟨rfl, rfl⟩)
      | repeated => exact h.goChange ht hw hb rfl (fun _ h => nomatch h) (fun _ h => nomatch h) (.inr ⟨rfl, rfl⟩)
      | threw => exact h.goChange ht hw hb rfl (fun _ h => nomatch h) (fun _ h => nomatch h) (.inr ⟨rfl, rfl⟩)
    | owing =>
      simp only [Sys.go, hst]
      split
      · exact stay
      · next ho =>
        have ho : s.owner = none := by cases h : s.owner with | none => rfl | some _ => rw [h] at ho; exact absurd rfl ho
        refine h.next u (fun v hv => at_other _ _ hv) (fun _ _ h => nomatch h) h.wf (fun _ _ h => h) (fun _ => rfl) ?_ ?_ ?_ ?_ ?_
          (fun _ h => nomatch h)
        · rintro ⟨v, _, hv⟩; rw [ho] at hv; cases hv
        · intro v hv
          simp only [at_owner, ho]
          constructor
          · intro h; cases h
          · intro h; injection h with h; exact absurd h.symm hv
        · intro _; rw [at_same]; trivial
        · rw [at_same]
          refine ⟨rfl, Nat.le_refl _, Nat.zero_le _, fun r hr => ?_, fun r hr => ?_⟩
          · simp at hr
          · simp only [List.take_length] at hr
            exact Known.mono (s := s) (h.free ho r hr).known (fun _ _ h => h)
        · intro ho'; cases ho'
    | look t =>
      have hs : Testing s evs u t := hs
      have hu := hno hst (fun h => nomatch h)
      simp only [Sys.go, hst]
      split
      · next hi =>
        have hlt : t.i < t.mem.length := Nat.lt_of_lt_of_le hi hs.len
        rw [List.getElem?_eq_getElem hlt]
        have hr0 : t.mem[t.i] ∈ t.mem.take t.size := by
          rw [List.mem_iff_getElem?]
          exact ⟨t.i, by rw [List.getElem?_take, if_pos hi]; exact List.getElem?_eq_getElem hlt⟩
        generalize hrr : t.mem[t.i] = r0 at hr0
        simp only
        have hk := hs.all r0 hr0
        refine h.goTest hu trivial ?_
        rw [List.append_nil]
        refine ⟨⟨hs.owner, by simpa using hs.len, hs.pos, ?_, ?_⟩, hi, ?_, .inr ?_⟩
        · intro r hr
          simp only [List.take_set_of_le (Nat.le_refl _)] at hr
          exact hs.done r hr
        · intro r hr
          simp only [List.take_set] at hr
          rcases List.mem_or_eq_of_mem_set hr with hr | rfl
          · exact hs.all r hr
          · exact hk.resolve
        · simp [hlt]
        · obtain ⟨_, tg, src, _, _, _, _, _, h3, _⟩ := hk
          exact resolve_idem h3
      · next hi =>
        have hi : t.i = t.size := by have := hs.pos; omega
        have hns : ¬ Stored [Ev.tested u] := not_stored_one (fun v h => nomatch h)
        refine h.next u (fun v hv => at_other _ _ hv) (fun v _ => not_mem_one (fun h => nomatch h)) h.wf (fun _ _ h => h) (fun _ => rfl)
          ?_ ?_ ?_ ?_ ?_ (fun v => not_mem_one (fun h => nomatch h))
        · rintro ⟨v, hv, hv'⟩; rw [hs.owner] at hv'; injection hv' with hv'; exact absurd hv'.symm hv
        · intro v hv
          simp only [at_owner, hs.owner]
          constructor
          · intro h; injection h with h; exact absurd h.symm hv
          · intro h; cases h
        · intro ho; cases ho
        · rw [at_same]; trivial
        · intro _ r hr
          have hr : r ∈ t.mem.take t.size := hr
          rw [← hi] at hr
          refine Good.keep (s := s) (hs.done r hr) (fun _ _ h => h) (.same rfl hns ?_)
          intro v hv
          by_cases hvu : v = u
          · subst hvu; exact absurd hv hu
          · rw [at_other _ _ hvu]; exact hv
    | found t r =>
      obtain ⟨ht, hi, hr, hos⟩ := hs
      have hu := hno hst (fun h => nomatch h)
      obtain ⟨l, hl⟩ := latestOrZero_cases h.wf r.tid r.sid
      simp only [Sys.go, hst, hl]
      cases hto : s.buf.tooOldFor l r.time with
      | ub => exact absurd hto (tooOldFor_ne_ub _ _ _)
      | throw e => exact h.giveUp ht
      | ok v =>
        cases v with
        | true =>
          refine h.answer ht hi hr hu ?_ false
          intro h0
          rw [latestOrZero_zero h0] at hl
          injection hl with hl
          subst hl
          rw [tooOldFor_zero] at hto
          cases hto
        | false =>
          refine h.goTest hu trivial ?_
          rw [List.append_nil]
          exact ⟨ht, hi, hr, hos.imp id (fun h => ⟨h, l, hl, hto⟩)⟩
    | young t r =>
      obtain ⟨ht, hi, hr, hos⟩ := hs
      have hu := hno hst (fun h => nomatch h)
      obtain ⟨v, hv⟩ := canNoLock_ne_ub h.wf r.tid r.sid r.time
      simp only [Sys.go, hst, hv]
      cases v with
      | true =>
        refine h.answer ht hi hr hu ?_ true
        intro h0
        rw [canNoLock_zero h0] at hv
        cases hv
      | false =>
        refine h.goTest hu trivial ?_
        rw [List.append_nil]
        refine ⟨ht.owner, ht.len, hi, ?_, ht.all⟩
        intro r' hr'
        simp only [take_succ_of hr, List.mem_append, List.mem_singleton] at hr'
        rcases hr' with hr' | rfl
        · exact ht.done r' hr'
        · have hk : Known s evs r' := by
            refine ht.all r' ?_
            rw [List.mem_iff_getElem?]
            exact ⟨t.i, by rw [List.getElem?_take, if_pos hi]; exact hr⟩
          rcases hos with hos | ⟨hres, l, hl, hto⟩
          · exact hk.good hos
          · obtain ⟨t', tg, src, e1, e2, e3, h1, h2, h3, _⟩ := hk
            refine ⟨t', tg, src, e1, e2, e3, h1, h2, h3, .inl ?_⟩
            obtain ⟨a1, a2⟩ := h3.resolve_tid
            rw [hres] at a1 a2
            unfold NameWait
            rw [← a1, ← a2]
            exact ⟨hv, l, hl, hto⟩
    | calling cs =>
      have hu := hno hst (fun h => nomatch h)
      have ht : ¬ isTest (s.thr u) := by rw [hst]; exact fun h => h
      cases cs with
      | nil =>
        simp only [Sys.go, hst]
        exact h.goElse (p := none) hu ht rfl rfl rfl rfl (fun _ _ h => nomatch h) not_stored_nil (fun _ h => nomatch h) trivial
      | cons c cs =>
        simp only [Sys.go, hst]
        split
        · exact h.goElse (p := some (.calling cs)) hu ht rfl rfl rfl rfl (fun v _ => not_mem_one (fun h => nomatch h))
            (not_stored_one (fun v h => nomatch h)) (fun v => not_mem_one (fun h => nomatch h)) trivial
        · exact h.goElse (p := some (.calling cs)) hu ht rfl rfl rfl rfl (fun v _ => not_mem_one (fun h => nomatch h))
            (not_stored_one (fun v h => nomatch h)) (fun v => not_mem_one (fun h => nomatch h)) trivial
    | ask cb tg src tm =>
      have hu := hno hst (fun h => nomatch h)
      have ht : ¬ isTest (s.thr u) := by rw [hst]; exact fun h => h
      simp only [Sys.go, hst]
      split
      · exact h.goElse (p := none) hu ht rfl rfl rfl rfl (fun v _ => not_mem_one (fun h => nomatch h))
          (not_stored_one (fun v h => nomatch h)) (fun v => not_mem_one (fun h => nomatch h)) trivial
      · next hne =>
        refine h.goElse (p := some _) hu ht rfl rfl rfl rfl (fun v hv => not_mem_one (fun h => by injection h with h; exact hv h))
          (not_stored_one (fun v h => nomatch h)) (fun v => not_mem_one (fun h => nomatch h)) ?_
        exact ⟨hne, fun h0 => (isFrame_of_lookup h0).2, fun h0 => (isFrame_of_lookup h0).2, [], ⟨evs, rfl, fun h => nomatch h⟩,
          fun _ => ⟨rfl, rfl, trivial⟩⟩
    | asked cb tg src tm tid sid =>
      have hu := hno hst (fun h => nomatch h)
      have ht : ¬ isTest (s.thr u) := by rw [hst]; exact fun h => h
      obtain ⟨v, hv⟩ := canNoLock_ne_ub h.wf tid sid tm
      simp only [Sys.go, hst, hv]
      cases v with
      | true =>
        exact h.goElse (p := none) hu ht rfl rfl rfl rfl (fun v _ => not_mem_one (fun h => nomatch h))
          (not_stored_one (fun v h => nomatch h)) (fun v => not_mem_one (fun h => nomatch h)) trivial
      | false =>
        refine h.goElse (p := some _) hu ht rfl rfl rfl rfl (fun _ _ h => nomatch h) not_stored_nil (fun _ h => nomatch h) ?_
        exact Asking.keep (s := s) hs (fun _ _ h => h) (fun _ => rfl) (fun h => nomatch h) (fun _ _ _ _ => hv)
    | cannot cb tg src tm tid sid =>
      have hu := hno hst (fun h => nomatch h)
      have ht : ¬ isTest (s.thr u) := by rw [hst]; exact fun h => h
      obtain ⟨l, hl⟩ := latestOrZero_cases h.wf tid sid
      simp only [Sys.go, hst, hl]
      split
      · cases hto : s.buf.tooOldFor l tm with
        | ub => exact absurd hto (tooOldFor_ne_ub _ _ _)
        | throw e =>
          exact h.goElse (p := none) hu ht rfl rfl rfl rfl (fun v _ => not_mem_one (fun h => nomatch h))
            (not_stored_one (fun v h => nomatch h)) (fun v => not_mem_one (fun h => nomatch h)) trivial
        | ok v =>
          cases v with
          | true =>
            exact h.goElse (p := none) hu ht rfl rfl rfl rfl (fun v _ => not_mem_one (fun h => nomatch h))
              (not_stored_one (fun v h => nomatch h)) (fun v => not_mem_one (fun h => nomatch h)) trivial
          | false =>
            refine h.goElse (p := some _) hu ht rfl rfl rfl rfl (fun _ _ h => nomatch h) not_stored_nil (fun _ h => nomatch h) ?_
            exact Asking.keep (s := s) hs (fun _ _ h => h) (fun _ => rfl) (fun h => nomatch h) (fun _ _ _ hc => ⟨hc, l, hl, hto⟩)
      · next h0 =>
        refine h.goElse (p := some _) hu ht rfl rfl rfl rfl (fun _ _ h => nomatch h) not_stored_nil (fun _ h => nomatch h) ?_
        exact Asking.keep (s := s) hs (fun _ _ h => h) (fun _ => rfl) (fun h => nomatch h)
          (fun _ _ _ _ => MustWait.zero (by omega))
    | fresh cb tg src tm tid sid =>
      have hu := hno hst (fun h => nomatch h)
      have ht : ¬ isTest (s.thr u) := by rw [hst]; exact fun h => h
      simp only [Sys.go, hst]
      refine h.goElse (p := some _) hu ht rfl rfl rfl rfl (fun _ _ h => nomatch h) not_stored_nil (fun _ h => nomatch h) ?_
      exact Asking.keep (s := s) hs (fun _ _ h => h) (fun _ => rfl) (fun h => nomatch h) (fun _ _ _ hc => hc)
    | counted cb tg src tm tid sid c =>
      have hu := hno hst (fun h => nomatch h)
      have ht : ¬ isTest (s.thr u) := by rw [hst]; exact fun h => h
      simp only [Sys.go, hst]
      refine h.goElse (p := some _) hu ht rfl rfl rfl rfl (fun _ _ h => nomatch h) not_stored_nil (fun _ h => nomatch h) ?_
      exact Asking.keep (s := s) hs (fun _ _ h => h) (fun _ => rfl) (fun h => nomatch h) (fun _ _ _ hc => hc)
    | numbered cb tg src tm tid sid hd =>
      have hu := hno hst (fun h => nomatch h)
      have ht : ¬ isTest (s.thr u) := by rw [hst]; exact fun h => h
      have hs : Asking s evs u tg src tid sid (MustWait s.buf tid sid tm) := hs
      simp only [Sys.go, hst]
      split
      · exact stay
      · next ho =>
        have ho : s.owner = none := by cases h : s.owner with | none => rfl | some _ => rw [h] at ho; exact absurd rfl ho
        have hns : ¬ Stored [Ev.added u hd cb tg src tm] := not_stored_one (fun v h => nomatch h)
        have keep : ∀ (s' : Sys X), s'.buf = s.buf → s'.thr = put s.thr u none → Keeps s s' evs [Ev.added u hd cb tg src tm] := by
          intro s' hb hth
          refine .same hb hns ?_
          intro v hv
          by_cases hvu : v = u
          · subst hvu; exact absurd hv hu
          · rw [hth]; simp [put, hvu, hv]
        refine h.next u (fun v hv => at_other _ _ hv) (fun v _ => not_mem_one (fun h => nomatch h)) h.wf (fun _ _ h => h) (fun _ => rfl)
          (fun _ => keep _ rfl rfl) (fun _ _ => Iff.rfl) (fun ho' => absurd ho' (h.not_owner ht)) ?_ ?_
          (fun v => not_mem_one (fun h => nomatch h))
        · rw [at_same]; trivial
        · intro _ r hr
          rcases List.mem_append.1 hr with hr | hr
          · exact Good.keep (s := s) (h.free ho r hr) (fun _ _ h => h) (keep _ rfl rfl)
          · rw [List.mem_singleton] at hr
            subst hr
            obtain ⟨e2, ⟨e1, hev, hn2⟩, hq⟩ := hs.since
            refine ⟨u, tg, src, e1, e2, [], ⟨by rw [hev], hn2⟩, hs.ne, ⟨?_, hs.tgt, ?_, hs.srcs⟩, ?_⟩
            · intro h0; simp only at h0 ⊢; rw [if_pos h0]
            · intro h0; simp only at h0 ⊢; rw [if_pos h0]
            · by_cases hqu : Quiet e2
              · obtain ⟨a, b, c⟩ := hq hqu
                left
                show MustWait s.buf (s.buf.lookupFrameNumber tg) (s.buf.lookupFrameNumber src) tm
                rw [← a, ← b]; exact c
              · right
                by_cases hst2 : Stored e2
                · exact .inl ⟨hst2, not_stored_nil⟩
                · right; right
                  have : ∃ e ∈ e2, e.quiet = false := by
                    apply Classical.byContradiction
                    intro hc
                    apply hqu
                    intro e he
                    cases hqe : e.quiet with
                    | true => rfl
                    | false => exact absurd ⟨e, he, hqe⟩ hc
                  obtain ⟨e, he, hqe⟩ := this
                  obtain ⟨f1, f2, rfl⟩ := List.append_of_mem he
                  refine ⟨e1 ++ .asked u :: f1, e, f2 ++ [Ev.added u hd cb tg src tm], by rw [hev]; simp, ?_, ?_⟩
                  · cases e <;> first | rfl | cases hqe | skip
                    next v => exact absurd ⟨v, he⟩ hst2
                  · rintro ⟨v, hv⟩
                    rcases List.mem_append.1 hv with hv | hv
                    · exact hst2 ⟨v, List.mem_append_right _ (List.mem_cons_of_mem _ hv)⟩
                    · rw [List.mem_singleton] at hv; cases hv
    | clear =>
      have ht : ¬ isTest (s.thr u) := by rw [hst]; exact fun h => h
      simp only [Sys.go, hst]
      exact h.goChange ht h.wf.clear (fun n i hn => frameIDs_step h.wf .clear hn) rfl (fun _ h => nomatch h) (fun _ h => nomatch h)
        (.inr ⟨rfl, rfl⟩)
    | addCallback =>
      have hu := hno hst (fun h => nomatch h)
      have ht : ¬ isTest (s.thr u) := by rw [hst]; exact fun h => h
      simp only [Sys.go, hst]
      split
      · exact h.goElse (p := some .addCallback) hu ht rfl rfl rfl (by funext v; simp only [put]; split <;> simp_all)
          (fun v _ => not_mem_one (fun h => nomatch h)) (not_stored_one (fun v h => nomatch h))
          (fun v => not_mem_one (fun h => nomatch h)) trivial
      · exact h.goElse (p := none) hu ht rfl rfl rfl rfl (fun v _ => not_mem_one (fun h => nomatch h))
          (not_stored_one (fun v h => nomatch h)) (fun v => not_mem_one (fun h => nomatch h)) trivial
    | remove cb =>
      have hu := hno hst (fun h => nomatch h)
      have ht : ¬ isTest (s.thr u) := by rw [hst]; exact fun h => h
      simp only [Sys.go, hst]
      exact h.goElse (p := some _) hu ht rfl rfl rfl rfl (fun _ _ h => nomatch h) not_stored_nil (fun _ h => nomatch h) trivial
    | removed cb =>
      have hu := hno hst (fun h => nomatch h)
      have ht : ¬ isTest (s.thr u) := by rw [hst]; exact fun h => h
      simp only [Sys.go, hst]
      split
      · exact stay
      · exact h.goFilter (e := .removedCb u cb) hu ht (fun v h => nomatch h) (fun v h => nomatch h) (fun v h => nomatch h) rfl _
    | cancel hd =>
      have hu := hno hst (fun h => nomatch h)
      have ht : ¬ isTest (s.thr u) := by rw [hst]; exact fun h => h
      simp only [Sys.go, hst]
      split
      · exact stay
      · exact h.goFilter (e := .cancelled u hd) hu ht (fun v h => nomatch h) (fun v h => nomatch h) (fun v h => nomatch h) rfl _

theorem Inv.step [Rigid X] {D : Duration} {s : Sys X} {evs : List Ev} (h : Inv D s evs) (o : Op X) :
    Inv D (s.step o).1 (evs ++ (s.step o).2) := by
  cases o with
  | go t => exact h.go t
  | call t op =>
    simp only [Sys.step]
    split
    · rw [List.append_nil]; exact h
    · next ht =>
      refine h.goElse (p := start op) (by rw [ht]; exact fun h => nomatch h) (by rw [ht]; exact fun h => h) rfl rfl rfl rfl
        (fun _ _ h => nomatch h) not_stored_nil (fun _ h => nomatch h) ?_
      cases op <;> trivial

theorem Inv.run [Rigid X] {D : Duration} (sched : List (Op X)) : ∀ {s : Sys X} {evs : List Ev}, Inv D s evs →
    Inv D (Sys.run sched s evs).1 (Sys.run sched s evs).2 := by
  induction sched with
  | nil => intro s evs h; exact h
  | cons o r ih => intro s evs h; exact ih (h.step o)

end Tf2.Par
