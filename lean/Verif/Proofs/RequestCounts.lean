import Verif.Proofs.RequestThreads

/-!
# Requests with several threads: counting answers
-/
namespace Tf2.Par

variable {X : Type}

/-- The calls a thread still has to make. -/
def callsIn : Option (Stage X) → List Call
  | some (.look t) => t.calls
  | some (.found t _) => t.calls
  | some (.young t _) => t.calls
  | some (.calling cs) => cs
  | _ => []

/-- The test a thread is in. -/
def held : Option (Stage X) → Option TestState
  | some (.look t) => some t
  | some (.found t _) => some t
  | some (.young t _) => some t
  | _ => none

/-- Requests with a handle. -/
abbrev cnt (h : Nat) (l : List Request) : Nat := pends h l

/-- Calls for a handle. -/
def ccnt (h : Nat) (l : List Call) : Nat := l.countP (fun c => c.handle == h)

def ext (h : Nat) (evs : List Ev) : Nat := evs.countP (fun | .extracted _ h' _ => h' = h | _ => false)
def extOf (u h : Nat) (evs : List Ev) : Nat := evs.countP (fun | .extracted u' h' _ => u' = u ∧ h' = h | _ => false)
def callsOf (u h : Nat) (evs : List Ev) : Nat :=
  evs.countP (fun | .invoked u' _ h' _ _ => u' = u ∧ h' = h | .dangling u' _ h' => u' = u ∧ h' = h | _ => false)

theorem gives_append (h : Nat) (a b : List Ev) : gives h (a ++ b) = gives h a + gives h b := List.countP_append
theorem ext_append (h : Nat) (a b : List Ev) : ext h (a ++ b) = ext h a + ext h b := List.countP_append
theorem extOf_append (u h : Nat) (a b : List Ev) : extOf u h (a ++ b) = extOf u h a + extOf u h b := List.countP_append
theorem callsOf_append (u h : Nat) (a b : List Ev) : callsOf u h (a ++ b) = callsOf u h a + callsOf u h b := List.countP_append

theorem drops_append (h : Nat) (a b : List Ev) : drops h (a ++ b) = drops h a + drops h b := List.countP_append

theorem Kept.left {h : Nat} {a b : List Ev} (k : Kept h (a ++ b)) : Kept h a :=
  ⟨fun t c hc => k.1 t c (List.mem_append_left _ hc),
   fun t cb hc t' tg src tm ha => k.2 t cb (List.mem_append_left _ hc) t' tg src tm (List.mem_append_left _ ha)⟩

/-- The requests with a handle that are pending, answered, given out. -/
def AccIf (kept : Prop) (h : Nat) (l : List Request) (evs : List Ev) : Prop :=
  cnt h l + ext h evs + drops h evs ≤ gives h evs ∧ (kept → cnt h l + ext h evs + drops h evs = gives h evs)

/-- ... all of them if none was taken away. -/
abbrev Acc (h : Nat) (l : List Request) (evs : List Ev) : Prop := AccIf (Kept h evs) h l evs

theorem AccIf.imp {k k' : Prop} {h : Nat} {l : List Request} {evs : List Ev} (a : AccIf k h l evs) (hk : k' → k) : AccIf k' h l evs :=
  ⟨a.1, fun h => a.2 (hk h)⟩

/-- The calls a thread has made and those it has to make, its answers. -/
def Due (u h : Nat) (cs : List Call) (evs : List Ev) : Prop :=
  callsOf u h evs + ccnt h cs ≤ extOf u h evs ∧ (Ev.testThrew u ∉ evs → callsOf u h evs + ccnt h cs = extOf u h evs)

/-- Neither pending nor answered nor called: events that do not count. -/
def Ev.idle : Ev → Bool
  | .added _ _ _ _ _ _ => false
  | .extracted _ _ _ => false
  | .dropped _ _ => false
  | .invoked _ _ _ _ _ => false
  | .dangling _ _ _ => false
  | _ => true

/-- The request behind a call. -/
def Asked (evs : List Ev) (cb h : Nat) (tg src : Name) : Prop := ∃ t tm, Ev.added t h cb tg src tm ∈ evs

theorem Asked.append {evs new : List Ev} {cb h : Nat} {tg src : Name} (a : Asked evs cb h tg src) : Asked (evs ++ new) cb h tg src := by
  obtain ⟨t, tm, a⟩ := a
  exact ⟨t, tm, List.mem_append_left _ a⟩

structure CInv (s : Sys X) (evs : List Ev) : Prop where
  free : s.owner = none → ∀ h, Acc h s.reqs evs
  test : ∀ u t, held (s.thr u) = some t → ∀ h, Acc h (t.mem.take t.size) evs
  thr : ∀ u h, Due u h (callsIn (s.thr u)) evs
  named : ∀ u, ∀ c ∈ callsIn (s.thr u), Asked evs c.cb c.handle c.target c.source
  order : ∀ e1 e2 t cb h tg src, evs = e1 ++ Ev.invoked t cb h tg src :: e2 → Asked e1 cb h tg src

theorem CInv.init (D : Duration) : CInv (Sys.init D : Sys X) [] where
  free := by intro _ h; exact ⟨Nat.le_refl _, fun _ => rfl⟩
  test := by intro u t h; cases h
  thr := by intro u h; exact ⟨Nat.le_refl _, fun _ => rfl⟩
  named := by intro u c h; cases h
  order := by intro e1 e2 t cb h tg src he; simp at he

/-- A step of thread `u`. -/
theorem CInv.next {s s' : Sys X} {evs new : List Ev} (h : CInv s evs) (u : Nat)
    (hthr : ∀ v, v ≠ u → s'.thr v = s.thr v) (hc : ∀ v, v ≠ u → ∀ k, callsOf v k new = 0 ∧ extOf v k new = 0)
    (hmine : ∀ k, callsOf u k new + ccnt k (callsIn (s'.thr u)) ≤ ccnt k (callsIn (s.thr u)) + extOf u k new ∧
      (Ev.testThrew u ∉ new → callsOf u k new + ccnt k (callsIn (s'.thr u)) = ccnt k (callsIn (s.thr u)) + extOf u k new))
    (hnamed : ∀ c ∈ callsIn (s'.thr u), Asked evs c.cb c.handle c.target c.source)
    (hfree : s'.owner = none → ∀ k, Acc k s'.reqs (evs ++ new))
    (htest : ∀ t, held (s'.thr u) = some t → ∀ k, Acc k (t.mem.take t.size) (evs ++ new))
    (hothers : ∀ v, v ≠ u → ∀ t, held (s.thr v) = some t → ∀ k, ext k new = 0 ∧ drops k new = 0 ∧ gives k new = 0)
    (hnew : ∀ e1 e2 t cb h tg src, new = e1 ++ Ev.invoked t cb h tg src :: e2 → Asked evs cb h tg src) :
    CInv s' (evs ++ new) where
  free := hfree
  test := by
    intro v t hv k
    by_cases hvu : v = u
    · subst hvu; exact htest t hv k
    · rw [hthr v hvu] at hv
      obtain ⟨h1, h2⟩ := h.test v t hv k
      obtain ⟨z1, z2, z3⟩ := hothers v hvu t hv k
      refine ⟨?_, fun hk => ?_⟩
      · rw [ext_append, drops_append, gives_append, z1, z2, z3]
        omega
      · have := h2 hk.left
        rw [ext_append, drops_append, gives_append, z1, z2, z3]
        omega
  thr := by
    intro v k
    unfold Due
    rw [callsOf_append, extOf_append]
    obtain ⟨a1, a2⟩ := h.thr v k
    have left : Ev.testThrew v ∉ evs ++ new → Ev.testThrew v ∉ evs ∧ Ev.testThrew v ∉ new :=
      fun hn => ⟨fun h => hn (List.mem_append_left _ h), fun h => hn (List.mem_append_right _ h)⟩
    by_cases hvu : v = u
    · subst hvu
      obtain ⟨b1, b2⟩ := hmine k
      refine ⟨by omega, fun hn => ?_⟩
      have := a2 (left hn).1
      have := b2 (left hn).2
      omega
    · obtain ⟨c1, c2⟩ := hc v hvu k
      rw [hthr v hvu, c1, c2]
      exact ⟨by omega, fun hn => by have := a2 (left hn).1; omega⟩
  named := by
    intro v c hv
    by_cases hvu : v = u
    · subst hvu; exact (hnamed c hv).append
    · rw [hthr v hvu] at hv; exact (h.named v c hv).append
  order := by
    intro e1 e2 t cb hd tg src he
    rcases split_append he.symm with ⟨d, h1⟩ | ⟨d, h1, h2⟩
    · exact h.order _ _ _ _ _ _ _ h1
    · rw [h2]; exact (hnew _ _ _ _ _ _ _ h1).append

theorem idle_zero {new : List Ev} (h : ∀ e ∈ new, e.idle = true) (u k : Nat) :
    callsOf u k new = 0 ∧ ext k new = 0 ∧ extOf u k new = 0 ∧ gives k new = 0 ∧ drops k new = 0 := by
  refine ⟨?_, ?_, ?_, ?_, ?_⟩ <;>
  · refine List.countP_eq_zero.2 ?_
    intro e he
    have := h e he
    cases e <;> simp_all [Ev.idle]

theorem idle_named {new : List Ev} (h : ∀ e ∈ new, e.idle = true) :
    ∀ e1 e2 t cb h tg src, new = e1 ++ Ev.invoked t cb h tg src :: e2 → False := by
  intro e1 e2 t cb hd tg src he
  have := h (.invoked t cb hd tg src) (by rw [he]; simp)
  cases this

theorem idle_one {e : Ev} (h : e.idle = true) : ∀ x ∈ [e], x.idle = true := by
  intro x hx; rw [List.mem_singleton] at hx; rw [hx]; exact h

theorem idle_none : ∀ x ∈ ([] : List Ev), x.idle = true := fun _ h => nomatch h

/-- A step of which the counts take no notice. -/
theorem CInv.rest {s s' : Sys X} {evs new : List Ev} (h : CInv s evs) (u : Nat)
    (hthr : ∀ v, v ≠ u → s'.thr v = s.thr v) (hi : ∀ e ∈ new, e.idle = true)
    (hcalls : callsIn (s'.thr u) = callsIn (s.thr u) ∨ (callsIn (s'.thr u) = [] ∧ Ev.testThrew u ∈ new))
    (hfree : s'.owner = none → ∀ k, AccIf (Kept k (evs ++ new)) k s'.reqs evs)
    (htest : ∀ t, held (s'.thr u) = some t → ∀ k, AccIf (Kept k (evs ++ new)) k (t.mem.take t.size) evs) :
    CInv s' (evs ++ new) := by
  have z := fun v k => idle_zero hi v k
  have acc : ∀ {k : Nat} {l : List Request}, AccIf (Kept k (evs ++ new)) k l evs → Acc k l (evs ++ new) := by
    intro k l ⟨h1, h2⟩
    obtain ⟨_, z1, _, z2, z3⟩ := z 0 k
    unfold Acc AccIf
    rw [ext_append, gives_append, drops_append, z1, z2, z3]
    exact ⟨by omega, fun hk => by have := h2 hk; omega⟩
  refine h.next u hthr (fun v _ k => ⟨(z v k).1, (z v k).2.2.1⟩) ?_ ?_ (fun ho k => acc (hfree ho k)) (fun t ht k => acc (htest t ht k))
    (fun v _ t _ k => ⟨(z v k).2.1, (z v k).2.2.2.2, (z v k).2.2.2.1⟩)
    (fun a b c d e f g he => (idle_named hi a b c d e f g he : False).elim)
  · intro k
    rw [(z u k).1, (z u k).2.2.1]
    rcases hcalls with e | ⟨e, e'⟩ <;> rw [e]
    · exact ⟨by omega, fun _ => by omega⟩
    · exact ⟨by simp [ccnt], fun hn => absurd e' hn⟩
  · intro c hc
    rcases hcalls with e | ⟨e, _⟩
    · rw [e] at hc; exact h.named u c hc
    · rw [e] at hc; cases hc

/-- ... and which leaves the requests and their mutex. -/
theorem CInv.pass {s s' : Sys X} {evs new : List Ev} (h : CInv s evs) (u : Nat) {p : Option (Stage X)}
    (hthr : s'.thr = put s.thr u p) (hi : ∀ e ∈ new, e.idle = true) (hr : s'.reqs = s.reqs) (ho : s'.owner = s.owner)
    (hcalls : callsIn p = callsIn (s.thr u))
    (htest : ∀ t, held p = some t → ∀ k, Acc k (t.mem.take t.size) evs) : CInv s' (evs ++ new) := by
  have hs : s'.thr u = p := by rw [hthr]; simp [put]
  refine h.rest u (fun v hv => by rw [hthr]; simp [put, hv]) hi (.inl (by rw [hs]; exact hcalls)) ?_ ?_
  · intro h' k
    rw [ho] at h'
    rw [hr]
    exact (h.free h' k).imp Kept.left
  · rw [hs]
    intro t ht k
    exact (htest t ht k).imp Kept.left

theorem cnt_filter (k : Nat) (f : Request → Bool) (l : List Request) : cnt k (l.filter f) ≤ cnt k l :=
  List.filter_sublist.countP_le

theorem cnt_filter_eq {k : Nat} {f : Request → Bool} {l : List Request} (h : ∀ r ∈ l, r.handle = k → f r = true) :
    cnt k (l.filter f) = cnt k l := by
  simp only [cnt, pends, List.countP_filter]
  refine List.countP_congr fun r hr => ?_
  simp only [Bool.and_eq_true, beq_iff_eq]
  exact ⟨fun h => h.1, fun hk => ⟨hk, h r hr hk⟩⟩

theorem cnt_set {l : List Request} {i : Nat} {r r' : Request} (hr : l[i]? = some r) (hh : r'.handle = r.handle) (k : Nat) :
    cnt k (l.set i r') = cnt k l := by
  induction l generalizing i with
  | nil => rfl
  | cons a l ih =>
    cases i with
    | zero =>
      simp only [List.getElem?_cons_zero, Option.some.injEq] at hr
      subst hr
      simp [cnt, pends, List.countP_cons, hh]
    | succ i =>
      simp only [List.getElem?_cons_succ] at hr
      have := ih hr
      simp only [cnt, pends, List.set_cons_succ, List.countP_cons] at this ⊢
      omega

theorem cnt_replace {l : List Request} {i : Nat} {r b : Request} (hr : l[i]? = some r) (k : Nat) :
    cnt k (l.set i b) + cnt k [r] = cnt k l + cnt k [b] := by
  induction l generalizing i with
  | nil => cases hr
  | cons a l ih =>
    cases i with
    | zero =>
      simp only [List.getElem?_cons_zero, Option.some.injEq] at hr
      subst hr
      simp [cnt, pends, List.countP_cons]
      omega
    | succ i =>
      simp only [List.getElem?_cons_succ] at hr
      have := ih hr
      simp only [cnt, pends, List.set_cons_succ, List.countP_cons, List.countP_nil] at this ⊢
      omega

/-- Answering takes one request out. -/
theorem cnt_shrink {t : TestState} {back r : Request} (hlen : t.size ≤ t.mem.length) (hi : t.i < t.size) (hr : t.mem[t.i]? = some r)
    (hback : t.mem[t.size - 1]? = some back) (k : Nat) :
    cnt k ((shrink t back).take (t.size - 1)) + cnt k [r] = cnt k (t.mem.take t.size) := by
  have hsz : t.size = (t.size - 1) + 1 := by omega
  have htk : t.mem.take t.size = t.mem.take (t.size - 1) ++ [back] := by
    conv => lhs; rw [hsz]
    exact take_succ_of hback
  have h2 : cnt k (t.mem.take t.size) = cnt k (t.mem.take (t.size - 1)) + cnt k [back] := by
    rw [htk]; exact List.countP_append
  rw [h2]
  unfold shrink
  split
  · rw [List.take_set]
    by_cases he : t.i < t.size - 1
    · exact cnt_replace (by rw [List.getElem?_take, if_pos he]; exact hr) k
    · have he : t.i = t.size - 1 := by omega
      rw [List.set_eq_of_length_le (by rw [List.length_take]; omega)]
      rw [← he] at hback
      rw [hr] at hback
      injection hback with hback
      rw [hback]
  · have he : t.i = t.size - 1 := by omega
    rw [← he] at hback
    rw [hr] at hback
    injection hback with hback
    rw [hback]

theorem held_isTest {p : Option (Stage X)} {t : TestState} (h : held p = some t) : isTest p := by
  unfold held at h
  split at h <;> first | trivial | cases h

theorem StageOK.held {s : Sys X} {evs : List Ev} {u : Nat} {p : Option (Stage X)} {t : TestState} (h : StageOK s evs u p)
    (ht : held p = some t) : Testing s evs u t := by
  unfold Par.held at ht
  split at ht
  · injection ht with ht; subst ht; exact h
  · injection ht with ht; subst ht; exact h.1
  · injection ht with ht; subst ht; exact h.1
  · cases ht

theorem Known.asked [Rigid X] {D : Duration} {s : Sys X} {evs : List Ev} (hw : WF D s.buf) {r : Request} (h : Known s evs r)
    (h0 : ¬ (r.tid = 0 ∨ r.sid = 0)) {n1 n2 : Name} (h1 : s.buf.lookupFrameString r.tid = .ok n1)
    (h2 : s.buf.lookupFrameString r.sid = .ok n2) : Asked evs r.cb r.handle n1 n2 := by
  obtain ⟨t, tg, src, e1, e2, e3, ha, _, h3, _⟩ := h
  have a1 := (hw.ids _ _).1 (h3.2.1 (fun h => h0 (.inl h)))
  have a2 := (hw.ids _ _).1 (h3.2.2.2 (fun h => h0 (.inr h)))
  unfold Buf.lookupFrameString at h1 h2
  rw [a1] at h1
  rw [a2] at h2
  injection h1 with h1
  injection h2 with h2
  subst h1 h2
  refine ⟨t, r.time, ?_⟩
  rw [ha.1]
  simp

theorem CInv.answer [Rigid X] {D : Duration} {s : Sys X} {evs : List Ev} (hi : Inv D s evs) (h : CInv s evs) {u : Nat} {t : TestState}
    {r : Request} (hh : held (s.thr u) = some t) (hc : callsIn (s.thr u) = t.calls) (hlt : t.i < t.size) (hr : t.mem[t.i]? = some r)
    (h0 : ¬ (r.tid = 0 ∨ r.sid = 0)) (av : Bool) : CInv (answer s u t r av).1 (evs ++ (answer s u t r av).2) := by
  have hst := hi.stages u
  have ht := hst.held hh
  have hkn : Known s evs r := by
    refine ht.all r ?_
    rw [List.mem_iff_getElem?]
    exact ⟨t.i, by rw [List.getElem?_take, if_pos hlt]; exact hr⟩
  obtain ⟨⟨n1, hn1⟩, ⟨n2, hn2⟩⟩ := hkn.names hi.wf h0
  have hlt' : t.size - 1 < t.mem.length := by have := ht.len; omega
  have hback : t.mem[t.size - 1]? = some t.mem[t.size - 1] := List.getElem?_eq_getElem hlt'
  have hcnt := fun k => cnt_shrink ht.len hlt hr hback k
  have hpre := h.test u t hh
  have other : ∀ v, v ≠ u → ∀ t', held (s.thr v) = some t' → False := by
    intro v hv t' ht'
    have h1 := (hi.stages v).held ht'
    have h2 := h1.owner
    rw [ht.owner] at h2
    injection h2 with h2
    exact hv h2.symm
  have acc : ∀ (k : Nat) (e : Ev), ext k [e] + drops k [e] = cnt k [r] → gives k [e] = 0 →
      Acc k ((shrink t t.mem[t.size - 1]).take (t.size - 1)) (evs ++ [e]) := by
    intro k e h1 h2
    have h3 := hcnt k
    obtain ⟨h4, h5⟩ := hpre k
    unfold Acc AccIf
    rw [ext_append, drops_append, gives_append]
    exact ⟨by omega, fun hk => by have := h5 hk.left; omega⟩
  have noinv : ∀ (e : Ev) (P : Prop), (∀ t cb h tg src, e ≠ .invoked t cb h tg src) → ∀ e1 e2 t cb h tg src,
      [e] = e1 ++ Ev.invoked t cb h tg src :: e2 → P := by
    intro e P hne e1 e2 t cb hd tg src he
    have hm : Ev.invoked t cb hd tg src ∈ [e] := by rw [he]; simp
    rw [List.mem_singleton] at hm
    exact absurd hm.symm (hne _ _ _ _ _)
  unfold Par.answer
  rw [hback]
  simp only [hn1, hn2]
  split
  · refine h.next u (fun v hv => at_other _ _ hv) ?_ ?_ ?_ ?_ ?_ (fun v hv t' ht' => (other v hv t' ht').elim) ?_
    · intro v hv k; simp [callsOf, extOf, Ne.symm hv]
    · intro k
      rw [at_same, hc]
      simp only [callsIn, ccnt, callsOf, extOf, List.countP_append, List.countP_cons, List.countP_nil]
      by_cases hk : r.handle = k <;> simp [hk]
    · rw [at_same]
      intro c hcm
      rcases List.mem_append.1 hcm with hcm | hcm
      · exact h.named u c (by rw [hc]; exact hcm)
      · rw [List.mem_singleton] at hcm
        subst hcm
        exact hkn.asked hi.wf h0 hn1 hn2
    · intro ho; rw [at_owner, ht.owner] at ho; cases ho
    · rw [at_same]
      intro t' ht' k
      simp only [held, Option.some.injEq] at ht'
      subst ht'
      exact acc k _ (by by_cases hk : r.handle = k <;> simp [ext, drops, cnt, pends, hk]) (by simp [gives])
    · intro e1 e2 t cb hd tg src he
      exact noinv (.extracted u r.handle av) _ (fun _ _ _ _ _ h => nomatch h) e1 e2 t cb hd tg src he
  · refine h.next u (fun v hv => at_other _ _ hv) ?_ ?_ ?_ ?_ ?_ (fun v hv t' ht' => (other v hv t' ht').elim) ?_
    · intro v hv k; simp [callsOf, extOf]
    · intro k
      rw [at_same, hc]
      simp [callsIn, callsOf, extOf]
    · rw [at_same]
      intro c hcm
      exact h.named u c (by rw [hc]; exact hcm)
    · intro ho; rw [at_owner, ht.owner] at ho; cases ho
    · rw [at_same]
      intro t' ht' k
      simp only [held, Option.some.injEq] at ht'
      subst ht'
      exact acc k _ (by by_cases hk : r.handle = k <;> simp [ext, drops, cnt, pends, hk]) (by simp [gives])
    · intro e1 e2 t cb hd tg src he
      exact noinv (.dropped u r.handle) _ (fun _ _ _ _ _ h => nomatch h) e1 e2 t cb hd tg src he

theorem CInv.giveUp {s : Sys X} {evs : List Ev} (h : CInv s evs) {u : Nat} {t : TestState} (hh : held (s.thr u) = some t) :
    CInv (giveUp s u t).1 (evs ++ (giveUp s u t).2) := by
  unfold Par.giveUp
  refine h.rest u (fun v hv => at_other _ _ hv) (idle_one rfl) (.inr ?_) (fun _ k => (h.test u t hh k).imp Kept.left) ?_
  · rw [at_same]; exact ⟨rfl, List.mem_singleton.2 rfl⟩
  · rw [at_same]; intro t' ht'; cases ht'

theorem CInv.go [Rigid X] {D : Duration} {s : Sys X} {evs : List Ev} (hi : Inv D s evs) (h : CInv s evs) (u : Nat) :
    CInv (s.go u).1 (evs ++ (s.go u).2) := by
  have stay : CInv s (evs ++ []) := by rw [List.append_nil]; exact h
  have hs := hi.stages u
  cases hst : s.thr u with
  | none => simp only [Sys.go, hst]; exact stay
  | some p =>
    rw [hst] at hs
    cases p with
    | store m a st =>
      simp only [Sys.go, hst]
      have hnub := set_ne_ub hi.wf m a st
      generalize s.buf.setTransform m a st = x at *
      obtain ⟨b, x⟩ := x
      cases x <;> first | exact absurd rfl hnub | exact h.pass u rfl (idle_one rfl) rfl rfl (by rw [hst]; rfl) (fun t ht => nomatch ht)
    | owing =>
      simp only [Sys.go, hst]
      split
      · exact stay
      · next ho =>
        have ho : s.owner = none := by cases h : s.owner with | none => rfl | some _ => rw [h] at ho; exact absurd rfl ho
        refine h.rest u (fun v hv => at_other _ _ hv) idle_none (.inl ?_) (fun h => nomatch h) ?_
        · rw [at_same, hst]; rfl
        · rw [at_same]
          intro t ht k
          simp only [held, Option.some.injEq] at ht
          subst ht
          simp only [List.take_length]
          exact (h.free ho k).imp Kept.left
    | look t =>
      have hs : Testing s evs u t := hs
      have hh : held (s.thr u) = some t := by rw [hst]; rfl
      simp only [Sys.go, hst]
      split
      · next hlt =>
        have hl : t.i < t.mem.length := Nat.lt_of_lt_of_le hlt hs.len
        rw [List.getElem?_eq_getElem hl]
        simp only
        refine h.pass u rfl idle_none rfl rfl (by rw [hst]; rfl) ?_
        intro t' ht' k
        simp only [held, Option.some.injEq] at ht'
        subst ht'
        simp only [List.take_set]
        unfold Acc AccIf
        rw [cnt_set (r := t.mem[t.i]) (r' := Request.resolve s.buf t.mem[t.i]) (by rw [List.getElem?_take, if_pos hlt]; exact List.getElem?_eq_getElem hl) rfl]
        exact h.test u t hh k
      · refine h.rest u (fun v hv => at_other _ _ hv) (idle_one rfl) (.inl ?_) (fun _ k => (h.test u t hh k).imp Kept.left) ?_
        · rw [at_same, hst]; rfl
        · rw [at_same]; intro t' ht'; cases ht'
    | found t r =>
      obtain ⟨ht, hlt, hr, hos⟩ := hs
      have hh : held (s.thr u) = some t := by rw [hst]; rfl
      obtain ⟨l, hl⟩ := latestOrZero_cases hi.wf r.tid r.sid
      simp only [Sys.go, hst, hl]
      cases hto : s.buf.tooOldFor l r.time with
      | ub => exact absurd hto (tooOldFor_ne_ub _ _ _)
      | throw e => exact h.giveUp hh
      | ok v =>
        cases v with
        | true =>
          refine h.answer hi hh (by rw [hst]; rfl) hlt hr ?_ false
          intro h0
          rw [latestOrZero_zero h0] at hl
          injection hl with hl
          subst hl
          rw [tooOldFor_zero] at hto
          cases hto
        | false =>
          refine h.pass u rfl idle_none rfl rfl (by rw [hst]; rfl) ?_
          intro t' ht' k
          simp only [held, Option.some.injEq] at ht'
          subst ht'
          exact h.test u t hh k
    | young t r =>
      obtain ⟨ht, hlt, hr, hos⟩ := hs
      have hh : held (s.thr u) = some t := by rw [hst]; rfl
      obtain ⟨v, hv⟩ := canNoLock_ne_ub hi.wf r.tid r.sid r.time
      simp only [Sys.go, hst, hv]
      cases v with
      | true =>
        refine h.answer hi hh (by rw [hst]; rfl) hlt hr ?_ true
        intro h0
        rw [canNoLock_zero h0] at hv
        cases hv
      | false =>
        refine h.pass u rfl idle_none rfl rfl (by rw [hst]; rfl) ?_
        intro t' ht' k
        simp only [held, Option.some.injEq] at ht'
        subst ht'
        exact h.test u t hh k
    | calling cs =>
      cases cs with
      | nil =>
        simp only [Sys.go, hst]
        exact h.pass u rfl idle_none rfl rfl (by rw [hst]; rfl) (fun t ht => nomatch ht)
      | cons c cs =>
        simp only [Sys.go, hst]
        have one : ∀ (e : Ev), e = .invoked u c.cb c.handle c.target c.source ∨ e = .dangling u c.cb c.handle →
            CInv (s.at u (some (.calling cs))) (evs ++ [e]) := by
          intro e he
          refine h.next u (fun v hv => at_other _ _ hv) ?_ ?_ ?_ ?_ ?_ ?_ ?_
          · intro v hv k
            rcases he with rfl | rfl <;> simp [callsOf, extOf, Ne.symm hv]
          · intro k
            rw [at_same, hst]
            rcases he with rfl | rfl <;> by_cases hk : c.handle = k <;>
              simp [callsIn, ccnt, callsOf, extOf, hk] <;> omega
          · rw [at_same]
            intro c' hc'
            exact h.named u c' (by rw [hst]; exact List.mem_cons_of_mem _ hc')
          · intro ho k
            obtain ⟨h1, h2⟩ := h.free ho k
            have z : ext k [e] = 0 ∧ drops k [e] = 0 ∧ gives k [e] = 0 := by
              rcases he with rfl | rfl <;> exact ⟨rfl, rfl, rfl⟩
            unfold Acc AccIf
            rw [ext_append, drops_append, gives_append, z.1, z.2.1, z.2.2]
            exact ⟨h1, fun hk => h2 hk.left⟩
          · rw [at_same]; intro t ht; cases ht
          · intro v _ t _ k
            rcases he with rfl | rfl <;> exact ⟨rfl, rfl, rfl⟩
          · intro e1 e2 t cb hd tg src hne
            have hm : Ev.invoked t cb hd tg src ∈ [e] := by rw [hne]; simp
            rw [List.mem_singleton] at hm
            rcases he with rfl | rfl
            · injection hm with h1 h2 h3 h4 h5
              subst h2 h3 h4 h5
              exact h.named u c (by rw [hst]; exact List.mem_cons_self)
            · cases hm
        split
        · exact one _ (.inl rfl)
        · exact one _ (.inr rfl)
    | ask cb tg src tm =>
      simp only [Sys.go, hst]
      split
      · exact h.pass u rfl (idle_one rfl) rfl rfl (by rw [hst]; rfl) (fun t ht => nomatch ht)
      · exact h.pass u rfl (idle_one rfl) rfl rfl (by rw [hst]; rfl) (fun t ht => nomatch ht)
    | asked cb tg src tm tid sid =>
      obtain ⟨v, hv⟩ := canNoLock_ne_ub hi.wf tid sid tm
      simp only [Sys.go, hst, hv]
      cases v with
      | true => exact h.pass u rfl (idle_one rfl) rfl rfl (by rw [hst]; rfl) (fun t ht => nomatch ht)
      | false => exact h.pass u rfl idle_none rfl rfl (by rw [hst]; rfl) (fun t ht => nomatch ht)
    | cannot cb tg src tm tid sid =>
      obtain ⟨l, hl⟩ := latestOrZero_cases hi.wf tid sid
      simp only [Sys.go, hst, hl]
      split
      · cases hto : s.buf.tooOldFor l tm with
        | ub => exact absurd hto (tooOldFor_ne_ub _ _ _)
        | throw e => exact h.pass u rfl (idle_one rfl) rfl rfl (by rw [hst]; rfl) (fun t ht => nomatch ht)
        | ok v =>
          cases v with
          | true => exact h.pass u rfl (idle_one rfl) rfl rfl (by rw [hst]; rfl) (fun t ht => nomatch ht)
          | false => exact h.pass u rfl idle_none rfl rfl (by rw [hst]; rfl) (fun t ht => nomatch ht)
      · exact h.pass u rfl idle_none rfl rfl (by rw [hst]; rfl) (fun t ht => nomatch ht)
    | fresh cb tg src tm tid sid =>
      simp only [Sys.go, hst]
      exact h.pass u rfl idle_none rfl rfl (by rw [hst]; rfl) (fun t ht => nomatch ht)
    | counted cb tg src tm tid sid c =>
      simp only [Sys.go, hst]
      exact h.pass u rfl idle_none rfl rfl (by rw [hst]; rfl) (fun t ht => nomatch ht)
    | numbered cb tg src tm tid sid hd =>
      simp only [Sys.go, hst]
      split
      · exact stay
      · next ho =>
        have ho : s.owner = none := by cases h : s.owner with | none => rfl | some _ => rw [h] at ho; exact absurd rfl ho
        refine h.next u (fun v hv => at_other _ _ hv) ?_ ?_ ?_ ?_ ?_ ?_ ?_
        · intro v hv k; exact ⟨rfl, rfl⟩
        · intro k; rw [at_same, hst]; exact ⟨Nat.le_refl _, fun _ => rfl⟩
        · rw [at_same]; intro c hc; cases hc
        · intro _ k
          obtain ⟨h1, h2⟩ := h.free ho k
          unfold Acc AccIf
          rw [ext_append, drops_append, gives_append]
          have e1 : ext k [Ev.added u hd cb tg src tm] = 0 := rfl
          have e2 : drops k [Ev.added u hd cb tg src tm] = 0 := rfl
          have e3 : ∀ r : Request, r.handle = hd → cnt k (s.reqs ++ [r]) = cnt k s.reqs + gives k [Ev.added u hd cb tg src tm] := by
            intro r hr
            simp only [cnt, pends, List.countP_append]
            by_cases hk : hd = k <;> simp [gives, hr, hk]
          simp only [at_reqs]
          rw [e1, e2, e3 _ rfl]
          exact ⟨by omega, fun hk => by have := h2 hk.left; omega⟩
        · rw [at_same]; intro t ht; cases ht
        · intro v hv t ht k
          have := ((hi.stages v).held ht).owner
          rw [ho] at this
          cases this
        · intro e1 e2 t cb' hd' tg' src' he
          change [_] = _ at he
          have hm : Ev.invoked t cb' hd' tg' src' ∈ [Ev.added u hd cb tg src tm] := by rw [he]; simp
          rw [List.mem_singleton] at hm
          cases hm
    | clear =>
      simp only [Sys.go, hst]
      exact h.pass u rfl (idle_one rfl) rfl rfl (by rw [hst]; rfl) (fun t ht => nomatch ht)
    | addCallback =>
      simp only [Sys.go, hst]
      split
      · exact h.pass u (p := some .addCallback) (by funext v; simp only [put]; split <;> simp_all) (idle_one rfl) rfl rfl (by rw [hst])
          (fun t ht => nomatch ht)
      · exact h.pass u rfl (idle_one rfl) rfl rfl (by rw [hst]; rfl) (fun t ht => nomatch ht)
    | remove cb =>
      simp only [Sys.go, hst]
      exact h.pass u rfl idle_none rfl rfl (by rw [hst]; rfl) (fun t ht => nomatch ht)
    | removed cb =>
      simp only [Sys.go, hst]
      split
      · exact stay
      · next ho =>
        have ho : s.owner = none := by cases h : s.owner with | none => rfl | some _ => rw [h] at ho; exact absurd rfl ho
        refine h.rest u (fun v hv => at_other _ _ hv) (idle_one rfl) (.inl ?_) ?_ ?_
        · rw [at_same, hst]; rfl
        · intro _ k
          obtain ⟨h1, h2⟩ := h.free ho k
          have h3 := cnt_filter k (fun r => decide (r.cb ≠ cb)) s.reqs
          unfold AccIf
          simp only [at_reqs]
          refine ⟨by omega, fun hk => ?_⟩
          rw [cnt_filter_eq]
          · exact h2 hk.left
          · intro r hr hrk
            have hkn := (hi.free ho r hr).known
            obtain ⟨t, tg, src, e1, e2, e3, ha, _⟩ := hkn
            refine decide_eq_true fun hcb => ?_
            refine hk.2 u cb (by simp) t tg src r.time ?_
            rw [ha.1, ← hrk, ← hcb]
            simp
        · rw [at_same]; intro t ht; cases ht
    | cancel hd =>
      simp only [Sys.go, hst]
      split
      · exact stay
      · next ho =>
        have ho : s.owner = none := by cases h : s.owner with | none => rfl | some _ => rw [h] at ho; exact absurd rfl ho
        refine h.rest u (fun v hv => at_other _ _ hv) (idle_one rfl) (.inl ?_) ?_ ?_
        · rw [at_same, hst]; rfl
        · intro _ k
          obtain ⟨h1, h2⟩ := h.free ho k
          have h3 := cnt_filter k (fun r => decide (r.handle ≠ hd % 2 ^ 32)) s.reqs
          unfold AccIf
          simp only [at_reqs]
          refine ⟨by omega, fun hk => ?_⟩
          rw [cnt_filter_eq]
          · exact h2 hk.left
          · intro r hr hrk
            refine decide_eq_true fun he => ?_
            exact hk.1 u hd (by simp) (by rw [← hrk, he])
        · rw [at_same]; intro t ht; cases ht

theorem CInv.step [Rigid X] {D : Duration} {s : Sys X} {evs : List Ev} (hi : Inv D s evs) (h : CInv s evs) (o : Op X) :
    CInv (s.step o).1 (evs ++ (s.step o).2) := by
  cases o with
  | go t => exact h.go hi t
  | call t op =>
    simp only [Sys.step]
    split
    · rw [List.append_nil]; exact h
    · next hst =>
      refine h.pass t rfl idle_none rfl rfl ?_ ?_
      · rw [hst]; cases op <;> rfl
      · intro t' ht'; cases op <;> cases ht'

theorem CInv.run [Rigid X] {D : Duration} (sched : List (Op X)) : ∀ {s : Sys X} {evs : List Ev}, Inv D s evs → CInv s evs →
    CInv (Sys.run sched s evs).1 (Sys.run sched s evs).2 := by
  induction sched with
  | nil => intro s evs _ h; exact h
  | cons o r ih => intro s evs hi h; exact ih (hi.step o) (h.step hi o)

/-! ### Adding up over the threads -/

theorem length_le_of_count : ∀ (a b : List Nat), (∀ x, a.count x ≤ b.count x) → a.length ≤ b.length
  | [], _, _ => Nat.zero_le _
  | x :: a, b, h => by
    have hx : x ∈ b := by
      have := h x
      rw [List.count_cons_self] at this
      exact List.count_pos_iff.1 (by omega)
    have := length_le_of_count a (b.erase x) (by
      intro y
      have h1 := h y
      rw [List.count_cons] at h1
      rw [List.count_erase]
      split at h1 <;> simp_all <;> omega)
    rw [List.length_erase_of_mem hx] at this
    have := List.length_pos_of_mem hx
    simp only [List.length_cons]
    omega

/-- The thread that made a call for a handle. -/
def callerOf (h : Nat) : Ev → Option Nat
  | .invoked u _ h' _ _ => if h' = h then some u else none
  | .dangling u _ h' => if h' = h then some u else none
  | _ => none

/-- The thread that answered a request with a handle. -/
def answererOf (h : Nat) : Ev → Option Nat
  | .extracted u h' _ => if h' = h then some u else none
  | _ => none

theorem filterMap_facts (f : Ev → Option Nat) (evs : List Ev) : (evs.filterMap f).length = evs.countP (fun e => (f e).isSome) ∧
    ∀ u, (evs.filterMap f).count u = evs.countP (fun e => f e == some u) := by
  induction evs with
  | nil => exact ⟨rfl, fun _ => rfl⟩
  | cons e evs ih =>
    obtain ⟨h1, h2⟩ := ih
    cases he : f e with
    | none => simp [he, h1, h2]
    | some v => simp [he, h1, h2, List.countP_cons, List.count_cons]

theorem tally (k : Nat) (evs : List Ev) : ((evs.filterMap (callerOf k)).length = calls k evs ∧
    ∀ u, (evs.filterMap (callerOf k)).count u = callsOf u k evs) ∧ (evs.filterMap (answererOf k)).length = ext k evs ∧
    ∀ u, (evs.filterMap (answererOf k)).count u = extOf u k evs := by
  obtain ⟨a1, a2⟩ := filterMap_facts (callerOf k) evs
  obtain ⟨b1, b2⟩ := filterMap_facts (answererOf k) evs
  have e1 : calls k evs = evs.countP (fun e => (callerOf k e).isSome) := by
    unfold calls
    congr 1
    funext e
    cases e <;> simp only [callerOf, Option.isSome] <;> split <;> simp_all
  have e2 : ext k evs = evs.countP (fun e => (answererOf k e).isSome) := by
    unfold ext
    congr 1
    funext e
    cases e <;> simp only [answererOf, Option.isSome] <;> split <;> simp_all
  have e3 : ∀ u, callsOf u k evs = evs.countP (fun e => callerOf k e == some u) := by
    intro u
    unfold callsOf
    congr 1
    funext e
    cases e <;> simp only [callerOf] <;> first | rfl | (rw [Bool.eq_iff_iff]; split <;> simp_all)
  have e4 : ∀ u, extOf u k evs = evs.countP (fun e => answererOf k e == some u) := by
    intro u
    unfold extOf
    congr 1
    funext e
    cases e <;> simp only [answererOf] <;> first | rfl | (rw [Bool.eq_iff_iff]; split <;> simp_all)
  exact ⟨⟨a1.trans e1.symm, fun u => (a2 u).trans (e3 u).symm⟩, b1.trans e2.symm, fun u => (b2 u).trans (e4 u).symm⟩

theorem calls_le_ext {s : Sys X} {evs : List Ev} (h : CInv s evs) (k : Nat) : calls k evs ≤ ext k evs := by
  obtain ⟨⟨a1, a2⟩, b1, b2⟩ := tally k evs
  rw [← a1, ← b1]
  refine length_le_of_count _ _ fun u => ?_
  rw [a2, b2]
  exact Nat.le_trans (Nat.le_add_right _ _) (h.thr u k).1

theorem calls_eq_ext {s : Sys X} {evs : List Ev} (h : CInv s evs) (hi : ∀ u, callsIn (s.thr u) = []) (ht : ∀ u, Ev.testThrew u ∉ evs)
    (k : Nat) : calls k evs = ext k evs := by
  refine Nat.le_antisymm (calls_le_ext h k) ?_
  obtain ⟨⟨a1, a2⟩, b1, b2⟩ := tally k evs
  rw [← a1, ← b1]
  refine length_le_of_count _ _ fun u => ?_
  rw [a2, b2]
  have := (h.thr u k).2 (ht u)
  rw [hi u] at this
  exact Nat.le_of_eq this.symm

theorem CInv.once {s : Sys X} {evs : List Ev} {D : Duration} (hi : Inv D s evs) (h : CInv s evs) (k : Nat) : calls k evs ≤ gives k evs := by
  have h1 := calls_le_ext h k
  cases ho : s.owner with
  | none => have := (h.free ho k).1; omega
  | some u =>
    have ht := hi.own u ho
    cases hst : s.thr u with
    | none => rw [hst] at ht; exact ht.elim
    | some p =>
      rw [hst] at ht
      cases p with
      | look t => have := h.test u t (by rw [hst]; rfl) k; have := this.1; omega
      | found t r => have := h.test u t (by rw [hst]; rfl) k; have := this.1; omega
      | young t r => have := h.test u t (by rw [hst]; rfl) k; have := this.1; omega
      | _ => exact ht.elim

end Tf2.Par
