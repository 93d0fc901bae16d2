import Verif.Proofs.MessageFilter
import Verif.Props.Requests

/-!
# Message filter: what passes was transformable
-/
namespace Tf2

variable {X : Type}

/-- What a call of `add` in progress knows, for constant targets `T` and tolerance `tol`; `W` is "was
transformable at some moment". -/
structure AddKnows (W : Name → Name → Time → Prop) (T : List Name) (tol : Duration) (a : Adding) : Prop where
  split : ∃ done, T = done ++ a.rest ∧
    a.success + a.handles.length = done.length * Filt.perTarget tol + (if a.second then 1 else 0) ∧
    (a.handles = [] → ∀ t ∈ done, W t a.msg.frame a.msg.stamp ∧
      (tol ≠ 0 → ∃ t2, timeAdd a.msg.stamp tol = some t2 ∧ W t a.msg.frame t2))
  second : a.second = true → tol ≠ 0 ∧ ∃ t ts, a.rest = t :: ts ∧ (a.handles = [] → W t a.msg.frame a.msg.stamp)

theorem AddKnows.mono {W W' : Name → Name → Time → Prop} (hw : ∀ t f m, W t f m → W' t f m) {T : List Name}
    {tol : Duration} {a : Adding} (h : AddKnows W T tol a) : AddKnows W' T tol a := by
  obtain ⟨⟨done, h1, h2, h3⟩, h4⟩ := h
  refine ⟨⟨done, h1, h2, fun he t ht => ⟨hw _ _ _ (h3 he t ht).1, fun hn => ?_⟩⟩, fun hs => ?_⟩
  · obtain ⟨t2, e1, e2⟩ := (h3 he t ht).2 hn
    exact ⟨t2, e1, hw _ _ _ e2⟩
  · obtain ⟨e1, t, ts, e2, e3⟩ := h4 hs
    exact ⟨e1, t, ts, e2, fun he => hw _ _ _ (e3 he)⟩

/-- All done and all immediate. -/
theorem AddKnows.all {W : Name → Name → Time → Prop} {T : List Name} {tol : Duration} {a : Adding}
    (h : AddKnows W T tol a) (hr : a.rest = []) (hs : a.success = T.length * Filt.perTarget tol) :
    ∀ t ∈ T, W t a.msg.frame a.msg.stamp ∧ (tol ≠ 0 → ∃ t2, timeAdd a.msg.stamp tol = some t2 ∧ W t a.msg.frame t2) := by
  obtain ⟨⟨done, h1, h2, h3⟩, h4⟩ := h
  have hsec : a.second = false := by
    cases hb : a.second with
    | false => rfl
    | true => obtain ⟨_, t, ts, e, _⟩ := h4 hb; rw [hr] at e; cases e
  rw [hr, List.append_nil] at h1
  subst h1
  rw [hsec] at h2
  simp only [Bool.false_eq_true, if_false] at h2
  exact h3 (List.eq_nil_of_length_eq_zero (by omega))

/-- The answer to one request, seen from `add`. -/
def Counts (W : Name → Name → Time → Prop) (a b : Adding) (t : Name) (tm : Time) : Prop :=
  (b.success = a.success + 1 ∧ b.handles = a.handles ∧ W t a.msg.frame tm) ∨
  (b.success = a.success ∧ ∃ h, b.handles = a.handles ++ [h])

theorem AddKnows.ask1 {W : Name → Name → Time → Prop} {T : List Name} {tol : Duration} {a b : Adding}
    (h : AddKnows W T tol a) {t : Name} {ts : List Name} (hr : a.rest = t :: ts) (hs : a.second = false)
    (hm : b.msg = a.msg) (hc : Counts W a b t a.msg.stamp)
    (hb : (tol = 0 ∧ b.rest = ts ∧ b.second = false) ∨ (tol ≠ 0 ∧ b.rest = t :: ts ∧ b.second = true)) :
    AddKnows W T tol b := by
  obtain ⟨⟨done, h1, h2, h3⟩, h4⟩ := h
  rw [hs] at h2
  simp only [Bool.false_eq_true, if_false, Nat.add_zero] at h2
  have hcnt : b.success + b.handles.length = a.success + a.handles.length + 1 := by
    rcases hc with ⟨e1, e2, _⟩ | ⟨e1, h', e2⟩
    · rw [e1, e2]; omega
    · rw [e1, e2]; simp; omega
  have hnil : b.handles = [] → a.handles = [] ∧ W t a.msg.frame a.msg.stamp := by
    intro e
    rcases hc with ⟨_, e2, e3⟩ | ⟨_, h', e2⟩
    · exact ⟨by rw [← e2]; exact e, e3⟩
    · rw [e2] at e; simp at e
  rcases hb with ⟨t0, b1, b2⟩ | ⟨t0, b1, b2⟩
  · refine ⟨⟨done ++ [t], by rw [b1, h1, hr]; simp, ?_, ?_⟩, fun e => by rw [b2] at e; cases e⟩
    · rw [b2]; simp only [Filt.perTarget, t0, if_true, List.length_append, List.length_singleton] at *
      simp; omega
    · intro e x hx
      rw [hm]
      rcases List.mem_append.1 hx with hx | hx
      · exact h3 (hnil e).1 x hx
      · rw [List.mem_singleton.1 hx]; exact ⟨(hnil e).2, fun hne => absurd t0 hne⟩
  · refine ⟨⟨done, by rw [b1, h1, hr], ?_, ?_⟩, fun _ => ⟨t0, t, ts, b1, fun e => by rw [hm]; exact (hnil e).2⟩⟩
    · rw [b2]; simp; omega
    · intro e; rw [hm]; exact h3 (hnil e).1

theorem AddKnows.ask2 {W : Name → Name → Time → Prop} {T : List Name} {tol : Duration} {a b : Adding}
    (h : AddKnows W T tol a) {t : Name} {ts : List Name} (hr : a.rest = t :: ts) (hs : a.second = true)
    {t2 : Time} (h2' : timeAdd a.msg.stamp tol = some t2)
    (hm : b.msg = a.msg) (hc : Counts W a b t t2) (b1 : b.rest = ts) (b2 : b.second = false) :
    AddKnows W T tol b := by
  obtain ⟨⟨done, h1, h2, h3⟩, h4⟩ := h
  obtain ⟨t0, t', ts', e, h5⟩ := h4 hs
  rw [hr] at e
  injection e with e1 e2
  subst e1 e2
  rw [hs] at h2
  simp only [if_true] at h2
  have hcnt : b.success + b.handles.length = a.success + a.handles.length + 1 := by
    rcases hc with ⟨e1, e2, _⟩ | ⟨e1, h', e2⟩
    · rw [e1, e2]; omega
    · rw [e1, e2]; simp; omega
  have hnil : b.handles = [] → a.handles = [] ∧ W t a.msg.frame t2 := by
    intro e
    rcases hc with ⟨_, e2, e3⟩ | ⟨_, h', e2⟩
    · exact ⟨by rw [← e2]; exact e, e3⟩
    · rw [e2] at e; simp at e
  refine ⟨⟨done ++ [t], by rw [b1, h1, hr]; simp, ?_, ?_⟩, fun e => by rw [b2] at e; cases e⟩
  · rw [b2]; simp only [Filt.perTarget, t0, if_false, List.length_append, List.length_singleton] at *
    simp; omega
  · intro e x hx
    rw [hm]
    rcases List.mem_append.1 hx with hx | hx
    · exact h3 (hnil e).1 x hx
    · rw [List.mem_singleton.1 hx]; exact ⟨h5 (hnil e).1, fun _ => ⟨t2, h2', (hnil e).2⟩⟩

/-- What a step of `add` does to the calls in progress and which messages it passes. -/
theorem NextOut.ready [Rigid X] {D : Duration} {s : Filt X} {i : Nat} {r : Filt X × List FEv} (ho : NextOut D s i r)
    {W : Name → Name → Time → Prop}
    (hW : ∀ t f m, t ∈ s.targets → s.rb.buf.canTransformNoLock (s.rb.buf.lookupFrameNumber t) (s.rb.buf.lookupFrameNumber f) m = .ok true ∨ t = f → W t f m)
    (hk : ∀ a ∈ s.adding, AddKnows W s.targets s.tol a)
    (he : s.expected = s.targets.length * Filt.perTarget s.tol) :
    (∀ a ∈ r.1.adding, AddKnows W s.targets s.tol a) ∧
    ∀ id, FEv.decided id none ∈ r.2 → ∃ m ∈ s.heads, m.id = id ∧ ∀ t ∈ s.targets, W t m.frame m.stamp ∧
      (s.tol ≠ 0 → ∃ t2, timeAdd m.stamp s.tol = some t2 ∧ W t m.frame t2) := by
  have herase : ∀ a ∈ s.adding.eraseIdx i, AddKnows W s.targets s.tol a :=
    fun a ha => hk a (List.mem_of_mem_eraseIdx ha)
  have nodec : ∀ (s1 : Filt X) (o : Out) (id : Nat), o.fail ≠ none → FEv.decided id none ∉ (s1.deliver o).2 := by
    intro s1 o id h hm
    unfold Filt.deliver at hm
    split at hm <;> simp at hm <;> exact h hm.2.symm
  have ans : ∀ (a a' : Adding) (t : Name) (tm : Time) (ro : RBuf X × List REv), s.adding[i]? = some a →
      a'.msg = a.msg → a'.success = a.success → a'.handles = a.handles → t ∈ s.targets →
      AddOut D s.rb s.cb t a.msg.frame tm ro.1 ro.2 →
      (∀ b : Adding, b.msg = a.msg → b.rest = a'.rest → b.second = a'.second → Counts W a b t tm →
        AddKnows W s.targets s.tol b) →
      (∀ x ∈ (s.addAnswer i a a' ro).1.adding, AddKnows W s.targets s.tol x) ∧
        ∀ id, FEv.decided id none ∉ (s.addAnswer i a a' ro).2 := by
    intro a a' t tm ro ha e1 e2 e3 ht hao hb
    have hset : ∀ b : Adding, AddKnows W s.targets s.tol b → ∀ x ∈ s.adding.set i b, AddKnows W s.targets s.tol x := by
      intro b hb x hx
      rcases List.mem_or_eq_of_mem_set hx with hx | hx
      · exact hk x hx
      · rw [hx]; exact hb
    obtain ⟨rb, evs⟩ := ro
    cases hao
    all_goals simp only [Filt.addAnswer]
    case same h => exact ⟨hset _ (hb _ e1 rfl rfl (.inl ⟨rfl, e3, hW _ _ _ ht (.inr h)⟩)), by simp⟩
    case now hc => exact ⟨hset _ (hb _ e1 rfl rfl (.inl ⟨rfl, e3, hW _ _ _ ht (.inl hc)⟩)), by simp⟩
    case never =>
      refine ⟨?_, fun id => nodec _ _ _ (by simp)⟩
      rw [(Filt.deliver_parts _ _).2.1]; exact herase
    case threw => exact ⟨herase, by simp⟩
    case pending => exact ⟨hset _ (hb _ e1 rfl rfl (.inr ⟨e2, _, rfl⟩)), by simp⟩
  cases ho with
  | idle => exact ⟨hk, by simp⟩
  | overflow => exact ⟨herase, by simp⟩
  | finish a ha hr r ho =>
    have hka := hk a (List.mem_of_getElem? ha)
    cases ho with
    | pass h =>
      refine ⟨by rw [(Filt.deliver_parts _ _).2.1]; exact herase, fun id hm => ?_⟩
      refine ⟨a.msg, mem_heads.2 (.inl ⟨a, List.mem_of_getElem? ha, rfl⟩), ?_, hka.all hr (h.trans he)⟩
      unfold Filt.deliver at hm
      split at hm <;> simp at hm <;> exact hm.symm
    | push h _ _ f r hm =>
      refine ⟨?_, fun id hd => absurd hd (nodec _ _ _ (by simp))⟩
      simp only [(Filt.deliver_parts _ _).2.1, (Filt.cancelAll_parts _ _).2.1]; exact herase
    | queue => exact ⟨herase, by simp⟩
  | ask1 a ha t ts hr hs ro hao =>
    have hka := hk a (List.mem_of_getElem? ha)
    have ht : t ∈ s.targets := by
      obtain ⟨⟨done, h1, -⟩, -⟩ := hka
      rw [h1, hr]; simp
    have := ans a (if s.tol = 0 then { a with rest := ts, second := false } else { a with rest := t :: ts, second := true })
      t a.msg.stamp ro ha (by split <;> rfl) (by split <;> rfl) (by split <;> rfl) ht hao ?_
    · exact ⟨this.1, fun id hd => absurd hd (this.2 id)⟩
    · intro b b1 b2 b3 hc
      refine hka.ask1 hr hs b1 hc ?_
      by_cases h0 : s.tol = 0
      · left; rw [if_pos h0] at b2 b3; exact ⟨h0, b2, b3⟩
      · right; rw [if_neg h0] at b2 b3; exact ⟨h0, b2, b3⟩
  | ask2 a ha t ts hr hs t2 h2 ro hao =>
    have hka := hk a (List.mem_of_getElem? ha)
    have ht : t ∈ s.targets := by
      obtain ⟨⟨done, h1, -⟩, -⟩ := hka
      rw [h1, hr]; simp
    have := ans a { a with rest := ts, second := false } t t2 ro ha rfl rfl rfl ht hao ?_
    · exact ⟨this.1, fun id hd => absurd hd (this.2 id)⟩
    · intro b b1 b2 b3 hc
      exact hka.ask2 hr hs h2 b1 hc b2 b3

theorem ready_step [Rigid X] {D : Duration} {s : Filt X} {evs : List FEv} (hf : FInv D s evs) (hh : HInv s evs)
    (op : FOp X) (h1 : ∀ ts, op ≠ .setTargets ts) (h2 : ∀ t, op ≠ .setTolerance t)
    {W : Name → Name → Time → Prop}
    (hW : ∀ t f m, t ∈ s.targets → s.rb.buf.canTransformNoLock (s.rb.buf.lookupFrameNumber t) (s.rb.buf.lookupFrameNumber f) m = .ok true ∨ t = f → W t f m)
    (hW2 : ∀ t f m, s.rb.buf.canTransform t f m = .ok true → W t f m)
    (hk : ∀ a ∈ s.adding, AddKnows W s.targets s.tol a) :
    (s.step op).1.targets = s.targets ∧ (s.step op).1.tol = s.tol ∧
    (∀ a ∈ (s.step op).1.adding, AddKnows W s.targets s.tol a) ∧
    ∀ id, FEv.decided id none ∈ (s.step op).2 → ∃ m ∈ s.heads, m.id = id ∧ ∀ t ∈ s.targets, W t m.frame m.stamp ∧
      (s.tol ≠ 0 → ∃ t2, timeAdd m.stamp s.tol = some t2 ∧ W t m.frame t2) := by
  cases op with
  | setTargets ts => exact absurd rfl (h1 ts)
  | setTolerance tol => exact absurd rfl (h2 tol)
  | setQueueSize n => exact ⟨rfl, rfl, hk, by simp [Filt.step]⟩
  | clear =>
    have k := keeps_step hf .clear (by simp) (by simp) (by simp)
    refine ⟨k.targets, k.tol, ?_, ?_⟩
    · simp only [Filt.step, Filt.clear, (Filt.register_parts _).2.1]; exact hk
    · intro id hm
      simp only [Filt.step, Filt.clear] at hm
      rcases List.mem_append.1 hm with hm | hm
      · obtain ⟨_, _, e⟩ := List.mem_map.1 hm; cases e
      · split at hm
        · obtain ⟨_, _, e⟩ := List.mem_map.1 hm; cases e
        · cases hm
  | addStart f t =>
    simp only [Filt.step, Filt.addStart]
    split
    · exact ⟨rfl, rfl, hk, by simp⟩
    · split
      · obtain ⟨q1, q2, q3, -, -, -, q7, q8, q9⟩ := ({ s with next := s.next + 1 } : Filt X).deliver_parts
          ⟨s.next, some .emptyFrameID⟩
        refine ⟨q7, q8, ?_, ?_⟩
        · simp only [q2]; exact hk
        · intro id hm
          have hm' := (List.mem_cons.1 hm).resolve_left (by simp)
          unfold Filt.deliver at hm'
          split at hm' <;> simp at hm'
      · refine ⟨rfl, rfl, ?_, by simp⟩
        intro a ha
        rcases List.mem_append.1 ha with ha | ha
        · exact hk a ha
        · rw [List.mem_singleton.1 ha]
          exact ⟨⟨[], rfl, by simp, fun _ t ht => by cases ht⟩, fun e => by cases e⟩
  | addNext i =>
    have ho := Filt.addNext_out hf.reach.wf hf.counted i
    have k := ho.keeps
    obtain ⟨a, b⟩ := ho.ready hW hk hh.expected
    exact ⟨k.targets, k.tol, a, b⟩
  | invoke j av =>
    have k := keeps_step hf (.invoke j av) (by simp) (by simp) (by simp)
    refine ⟨k.targets, k.tol, ?_⟩
    have hrb : (s.buf (s.rb.invoke j)).rb.buf = s.rb.buf := rinvoke_buf ..
    have hwf : WF D (s.buf (s.rb.invoke j)).rb.buf := by rw [hrb]; exact hf.reach.wf
    simp only [Filt.step, Filt.invoke]
    split
    · split
      · next c h _ _ _ hc =>
        have ho := Filt.transformable_out (s.buf (s.rb.invoke j)) h av hwf
        generalize (s.buf (s.rb.invoke j)).transformable h av = r at ho ⊢
        cases ho with
        | notFound _ => exact ⟨hk, by simp⟩
        | wait => exact ⟨hk, by simp⟩
        | threw => exact ⟨hk, by simp⟩
        | decided i m hm hin hlt v hv =>
          refine ⟨by rw [(Filt.deliver_parts _ _).2.1]; exact hk, fun id hd => ?_⟩
          have hvt : v = true ∧ m.msg.id = id := by
            cases v <;> unfold Filt.deliver at hd <;> split at hd <;> simp at hd <;> exact ⟨rfl, hd.symm⟩
          obtain ⟨-, hr⟩ := hv.1 hvt.1
          refine ⟨m.msg, mem_heads.2 (.inr ⟨m, List.mem_of_getElem? hm, rfl⟩), hvt.2, fun t ht => ?_⟩
          obtain ⟨r1, r2⟩ := hr t ht
          rw [hrb] at r1
          refine ⟨hW2 _ _ _ r1, fun hne => ?_⟩
          obtain ⟨t2, e1, e2⟩ := r2 hne
          rw [hrb] at e2
          exact ⟨t2, e1, hW2 _ _ _ e2⟩
      · exact ⟨hk, by simp⟩
    · exact ⟨hk, by simp⟩
    · exact ⟨hk, by simp⟩
  | runQueued =>
    unfold Filt.step Filt.runQueued
    simp only
    split
    · exact ⟨rfl, rfl, hk, by simp⟩
    · exact ⟨rfl, rfl, hk, by simp⟩
  | buffer op =>
    cases op <;> exact ⟨rfl, rfl, hk, by simp [Filt.step]⟩

theorem frun_append [Rigid X] (p q : List (FOp X)) : ∀ (s : Filt X) (evs : List FEv),
    Filt.run (p ++ q) s evs = Filt.run q (Filt.run p s evs).1 (Filt.run p s evs).2 := by
  induction p with
  | nil => intro s evs; rfl
  | cons op r ih => intro s evs; exact ih _ _

theorem frun_evs [Rigid X] (p : List (FOp X)) : ∀ (s : Filt X) (evs : List FEv),
    Filt.run p s evs = ((Filt.run p s []).1, evs ++ (Filt.run p s []).2) := by
  induction p with
  | nil => intro s evs; simp [Filt.run]
  | cons op r ih =>
    intro s evs
    simp only [Filt.run]
    rw [ih (s.step op).1 (evs ++ (s.step op).2), ih (s.step op).1 ([] ++ (s.step op).2)]
    simp

theorem wasReady_mono [Rigid X] {s : Filt X} {ops : List (FOp X)} {t f : Name} {m : Time} (h : s.WasReady ops t f m)
    (l : List (FOp X)) : s.WasReady (ops ++ l) t f m := by
  obtain ⟨p, q, e, h⟩ := h
  exact ⟨p, q ++ l, by rw [e]; simp, h⟩

/-- The claim for a prefix of the steps. -/
theorem ready_prefix [Rigid X] {D : Duration} {s0 : Filt X} {evs0 : List FEv} (hf : FInv D s0 evs0) (hh : HInv s0 evs0)
    (ha : s0.adding = []) (hl : ∀ t ∈ s0.targets, LegalName t) (ops : List (FOp X)) (hc : ConstantTargets ops) (n : Nat) :
    (Filt.run (ops.take n) s0 evs0).1.targets = s0.targets ∧ (Filt.run (ops.take n) s0 evs0).1.tol = s0.tol ∧
    (∀ a ∈ (Filt.run (ops.take n) s0 evs0).1.adding,
      AddKnows (fun t f m => LegalName f → s0.WasReady (ops.take n) t f m) s0.targets s0.tol a) ∧
    ∀ id, FEv.decided id none ∈ (Filt.run (ops.take n) s0 []).2 →
      ∃ f stamp, FEv.received id f stamp ∈ (Filt.run (ops.take n) s0 evs0).2 ∧ (LegalName (stripSlash f) →
        ∀ t ∈ s0.targets, s0.WasReady (ops.take n) t (stripSlash f) stamp ∧
          (s0.tol ≠ 0 → ∃ t2, timeAdd stamp s0.tol = some t2 ∧ s0.WasReady (ops.take n) t (stripSlash f) t2)) := by
  induction n with
  | zero =>
    simp only [List.take_zero, Filt.run]
    exact ⟨trivial, trivial, by rw [ha]; simp, by simp⟩
  | succ n ih =>
    obtain ⟨i1, i2, i3, i4⟩ := ih
    by_cases hn : n < ops.length
    case neg =>
      rw [List.take_of_length_le (by omega)] at i1 i2 i3 i4 ⊢
      exact ⟨i1, i2, i3, i4⟩
    obtain ⟨op, hop⟩ : ∃ op, ops[n]? = some op := ⟨ops[n], List.getElem?_eq_getElem hn⟩
    have htk : ops.take (n + 1) = ops.take n ++ [op] := by rw [List.take_add_one, hop]; rfl
    rw [htk]
    have hmem : op ∈ ops := List.mem_of_getElem? hop
    generalize hp : ops.take n = p at *
    have hfp := FInv.run p hf
    have hhp := HInv.run p hf hh
    have hbuf : (Filt.run p s0 []).1 = (Filt.run p s0 evs0).1 := by rw [frun_evs p s0 evs0]
    have heq : (Filt.run (p ++ [op]) s0 evs0) = (((Filt.run p s0 evs0).1.step op).1,
        (Filt.run p s0 evs0).2 ++ ((Filt.run p s0 evs0).1.step op).2) := by rw [frun_append]; rfl
    have heq0 : (Filt.run (p ++ [op]) s0 []).2 =
        (Filt.run p s0 []).2 ++ ((Filt.run p s0 evs0).1.step op).2 := by rw [frun_append, ← hbuf]; rfl
    have now : ∀ t f m, (Filt.run p s0 evs0).1.rb.buf.canTransform t f m = .ok true → s0.WasReady (p ++ [op]) t f m := by
      intro t f m h
      exact ⟨p, [op], rfl, by rw [hbuf]; exact h⟩
    obtain ⟨r1, r2, r3, r4⟩ := ready_step (W := fun t f m => LegalName f → s0.WasReady (p ++ [op]) t f m) hfp hhp op
      (fun ts e => hc.1 ts (by rw [← e]; exact hmem)) (fun ts e => hc.2 ts (by rw [← e]; exact hmem))
      (by
        intro t f m ht h hlf
        refine now t f m ?_
        rcases h with h | h
        · by_cases hne : t = f
          · unfold Buf.canTransform; rw [if_pos hne]
          · rw [canTransform_noLock hne (hl t (by rw [← i1]; exact ht)) hlf]; exact h
        · unfold Buf.canTransform; rw [if_pos h])
      (fun t f m h _ => now t f m h)
      (fun a ha => by rw [i1, i2]; exact (i3 a ha).mono (fun t f m h hlf => wasReady_mono (h hlf) [op]))
    rw [heq, heq0]
    refine ⟨r1.trans i1, r2.trans i2, ?_, ?_⟩
    · intro a ha; have := r3 a ha; rw [i1, i2] at this; exact this
    · intro id hm
      rcases List.mem_append.1 hm with hm | hm
      · obtain ⟨f, st, e1, e2⟩ := i4 id hm
        refine ⟨f, st, List.mem_append_left _ e1, fun hlf t ht => ?_⟩
        obtain ⟨a, b⟩ := e2 hlf t ht
        exact ⟨wasReady_mono a _, fun hne => by obtain ⟨t2, c, d⟩ := b hne; exact ⟨t2, c, wasReady_mono d _⟩⟩
      · obtain ⟨m, hmh, e, e2⟩ := r4 id hm
        obtain ⟨f, e3, e4⟩ := hhp.heads m hmh
        refine ⟨f, m.stamp, List.mem_append_left _ (by rw [← e]; exact e3), fun hlf t ht => ?_⟩
        rw [i1, i2] at e2
        obtain ⟨a, b⟩ := e2 t ht
        rw [← e4] at hlf ⊢
        exact ⟨a hlf, fun hne => by obtain ⟨t2, c, d⟩ := b hne; exact ⟨t2, c, d hlf⟩⟩

/-! ### An uninterrupted `add` -/

theorem addRest_ready [Rigid X] {D : Duration} {b : Buf X} {T : List Name} {tol : Duration}
    {W : Name → Name → Time → Prop}
    (hW : ∀ t f m, t ∈ T → b.canTransformNoLock (b.lookupFrameNumber t) (b.lookupFrameNumber f) m = .ok true ∨ t = f → W t f m)
    (i k : Nat) : ∀ (s : Filt X) (evs : List FEv) (evs' : List FEv), FInv D s evs' → s.rb.buf = b → s.targets = T → s.tol = tol →
    s.expected = T.length * Filt.perTarget tol → (∀ a ∈ s.adding, AddKnows W T tol a) →
    ∀ id, FEv.decided id none ∈ (Filt.addRest k i s evs).2 → FEv.decided id none ∈ evs ∨
      ∃ m ∈ s.heads, m.id = id ∧ ∀ t ∈ T, W t m.frame m.stamp ∧
        (tol ≠ 0 → ∃ t2, timeAdd m.stamp tol = some t2 ∧ W t m.frame t2) := by
  induction k with
  | zero => intro s evs evs' _ _ _ _ _ _ id h; exact .inl h
  | succ k ih =>
    intro s evs evs' hf h1 h2 h3 h4 h5 id hm
    subst h1 h2 h3
    have ho := Filt.addNext_out hf.reach.wf hf.counted i
    have kp := ho.keeps
    obtain ⟨r1, r2⟩ := ho.ready hW h5 h4
    have hb := (Filt.addNext_rb s i hf.reach.wf).1
    rcases ih (s.addNext i).1 _ _ (hf.step (.addNext i)).1 hb kp.targets kp.tol (kp.expected.trans h4) r1 id hm with h | h
    · rcases List.mem_append.1 h with h | h
      · exact .inl h
      · obtain ⟨m, q1, q2, q3⟩ := r2 id h
        exact .inr ⟨m, q1, q2, q3⟩
    · obtain ⟨m, q1, q2, q3⟩ := h
      exact .inr ⟨m, kp.heads m q1, q2, q3⟩

theorem addRest_idle (k : Nat) : ∀ (s : Filt X) (evs : List FEv), s.adding = [] → Filt.addRest k 0 s evs = (s, evs) := by
  induction k with
  | zero => intro s evs _; rfl
  | succ k ih =>
    intro s evs h
    have : s.addNext 0 = (s, []) := by unfold Filt.addNext; rw [h]; rfl
    simp only [Filt.addRest, this, List.append_nil]
    exact ih s evs h

/-- How many steps a call of `add` still takes. -/
def Adding.left (a : Adding) : Nat := 2 * a.rest.length + 1 - (if a.second then 1 else 0)

/-- One step of the only call in progress: it ends, or gets shorter. -/
theorem addNext_progress [Rigid X] {D : Duration} {s : Filt X} {evs : List FEv} (hf : FInv D s evs) {a : Adding}
    (ha : s.adding = [a]) (hs : a.second = true → a.rest ≠ []) :
    (s.addNext 0).1.adding = [] ∨ ∃ a', (s.addNext 0).1.adding = [a'] ∧ a'.left < a.left ∧ (a'.second = true → a'.rest ≠ []) := by
  have ho := Filt.addNext_out hf.reach.wf hf.counted 0
  have h0 : s.adding[0]? = some a := by rw [ha]; rfl
  have her : s.adding.eraseIdx 0 = [] := by rw [ha]; rfl
  have hset : ∀ b, s.adding.set 0 b = [b] := by intro b; rw [ha]; rfl
  have ans : ∀ (a' : Adding) (t : Name) (tm : Time) (ro : RBuf X × List REv),
      AddOut D s.rb s.cb t a.msg.frame tm ro.1 ro.2 → 
      (s.addAnswer 0 a a' ro).1.adding = [] ∨ ∃ b : Adding, (s.addAnswer 0 a a' ro).1.adding = [b] ∧ b.rest = a'.rest ∧
        b.second = a'.second := by
    intro a' t tm ro hao
    obtain ⟨rb, evs⟩ := ro
    cases hao
    all_goals simp only [Filt.addAnswer]
    case never => left; rw [(Filt.deliver_parts _ _).2.1]; exact her
    case threw => left; exact her
    all_goals exact .inr ⟨_, hset _, rfl, rfl⟩
  generalize s.addNext 0 = r at ho ⊢
  cases ho with
  | idle hi => rw [h0] at hi; cases hi
  | finish a1 h1 hr r ho =>
    left
    cases ho with
    | pass _ => rw [(Filt.deliver_parts _ _).2.1]; exact her
    | push _ _ _ f r hm => simp only [(Filt.deliver_parts _ _).2.1, (Filt.cancelAll_parts _ _).2.1]; exact her
    | queue => exact her
  | overflow => left; exact her
  | ask1 a1 h1 t ts hr hs1 ro hao =>
    rw [h0] at h1; injection h1 with h1; subst h1
    rcases ans _ _ _ _ hao with h | ⟨b, e1, e2, e3⟩
    · exact .inl h
    · refine .inr ⟨b, e1, ?_, ?_⟩
      · unfold Adding.left; rw [e2, e3, hr, hs1]
        by_cases h0 : s.tol = 0
        · simp [h0]
        · simp [h0]
      · intro hb; rw [e3] at hb; rw [e2]
        by_cases h0 : s.tol = 0
        · simp [h0] at hb
        · simp [h0]
  | ask2 a1 h1 t ts hr hs1 t2 h2 ro hao =>
    rw [h0] at h1; injection h1 with h1; subst h1
    rcases ans _ _ _ _ hao with h | ⟨b, e1, e2, e3⟩
    · exact .inl h
    · refine .inr ⟨b, e1, ?_, ?_⟩
      · unfold Adding.left; rw [e2, e3, hr, hs1]; simp; omega
      · intro hb; rw [e3] at hb; cases hb

theorem addRest_returns [Rigid X] {D : Duration} (k : Nat) : ∀ (s : Filt X) (evs evs' : List FEv) (a : Adding),
    FInv D s evs' → s.adding = [a] → (a.second = true → a.rest ≠ []) → a.left ≤ k →
    (Filt.addRest k 0 s evs).1.adding = [] := by
  induction k with
  | zero =>
    intro s evs evs' a _ _ hs hk
    unfold Adding.left at hk
    cases hb : a.second with
    | false => simp [hb] at hk
    | true => have := List.length_pos_iff.2 (hs hb); simp [hb] at hk; omega
  | succ k ih =>
    intro s evs evs' a hf ha hs hk
    simp only [Filt.addRest]
    rcases addNext_progress hf ha hs with h | ⟨a', h1, h2, h3⟩
    · rw [addRest_idle k _ _ h]; exact h
    · exact ih _ _ _ a' (hf.step (.addNext 0)).1 h1 h3 (by omega)

theorem addOut_ready [Rigid X] {D : Duration} {s : RBuf X} {cb : Nat} {t f : Name} {tm : Time} {ro : RBuf X × List REv}
    (ho : AddOut D s cb t f tm ro.1 ro.2) (hr : s.buf.canTransform t f tm = .ok true) (lt : LegalName t)
    (lf : LegalName f) : ro.2 = [.immediate t f tm] := by
  obtain ⟨rb, evs⟩ := ro
  cases ho with
  | same => rfl
  | now => rfl
  | never h hc => rw [canTransform_noLock h lt lf, hc] at hr; cases hr
  | threw h hc => rw [canTransform_noLock h lt lf, hc] at hr; cases hr
  | pending h hc => rw [canTransform_noLock h lt lf, hc] at hr; cases hr

/-- If everything asked for is available, `add` passes the message. -/
theorem addRest_pass [Rigid X] {D : Duration} {b : Buf X} {T : List Name} {tol : Duration} (hl : ∀ t ∈ T, LegalName t)
    (k : Nat) : ∀ (s : Filt X) (evs evs' : List FEv) (a : Adding), FInv D s evs' → s.rb.buf = b → s.targets = T → s.tol = tol →
    s.expected = T.length * Filt.perTarget tol → s.adding = [a] → LegalName a.msg.frame →
    AllReady b T tol a.msg.frame a.msg.stamp → AddKnows (fun _ _ _ => True) T tol a → a.handles = [] → a.left ≤ k →
    FEv.decided a.msg.id none ∈ (Filt.addRest k 0 s evs).2 := by
  have keep : ∀ (k : Nat) (s : Filt X) (evs : List FEv) (e : FEv), e ∈ evs → e ∈ (Filt.addRest k 0 s evs).2 := by
    intro k
    induction k with
    | zero => intro s evs e h; exact h
    | succ k ih => intro s evs e h; exact ih _ _ e (List.mem_append_left _ h)
  induction k with
  | zero =>
    intro s evs evs' a _ _ _ _ _ _ _ _ hk _ hle
    unfold Adding.left at hle
    cases hb : a.second with
    | false => simp [hb] at hle
    | true =>
      obtain ⟨-, t, ts, e, -⟩ := hk.second hb
      simp [hb, e] at hle
  | succ k ih =>
    intro s evs evs' a hf h1 h2 h3 h4 ha lf hr hk hh hle
    subst h1 h2 h3
    have ho := Filt.addNext_out hf.reach.wf hf.counted 0
    have hb := (Filt.addNext_rb s 0 hf.reach.wf).1
    have kp := ho.keeps
    have hf' := (hf.step (.addNext 0)).1
    have h0 : s.adding[0]? = some a := by rw [ha]; rfl
    simp only [Filt.addRest]
    have next : ∀ a' : Adding, (s.addNext 0).1.adding = [a'] → a'.msg = a.msg → a'.handles = [] → a'.left < a.left →
        AddKnows (fun _ _ _ => True) s.targets s.tol a' →
        FEv.decided a.msg.id none ∈ (Filt.addRest k 0 (s.addNext 0).1 (evs ++ (s.addNext 0).2)).2 := by
      intro a' e1 e2 e3 e4 e5
      rw [← e2]
      exact ih _ _ _ a' hf' hb kp.targets kp.tol (kp.expected.trans h4) e1 (by rw [e2]; exact lf) (by rw [e2]; exact hr)
        e5 e3 (by omega)
    have ht : ∀ t ts, a.rest = t :: ts → t ∈ s.targets := by
      intro t ts e
      obtain ⟨⟨done, q, -⟩, -⟩ := hk
      rw [q, e]; simp
    have ans : ∀ (a' : Adding) (t : Name) (tm : Time) (ro : RBuf X × List REv), t ∈ s.targets →
        s.rb.buf.canTransform t a.msg.frame tm = .ok true → AddOut D s.rb s.cb t a.msg.frame tm ro.1 ro.2 →
        (s.addAnswer 0 a a' ro).1.adding = [{ a' with success := a.success + 1 }] := by
      intro a' t tm ro htt hrd hao
      have := addOut_ready hao hrd (hl t htt) lf
      unfold Filt.addAnswer
      rw [this]
      simp only
      rw [ha]; rfl
    generalize s.addNext 0 = r at ho next
    cases ho with
    | idle hi => rw [h0] at hi; cases hi
    | overflow a1 e t ts hrest hsec h =>
      rw [h0] at e; injection e with e; subst e
      obtain ⟨t3, e3, -⟩ := (hr t (ht t ts hrest)).2 (hk.second hsec).1
      rw [h] at e3; cases e3
    | finish a1 e hrest r ho =>
      rw [h0] at e; injection e with e; subst e
      have hsucc : a.success = s.expected := by
        obtain ⟨⟨done, q1, q2, q3⟩, q4⟩ := hk
        have hsec : a.second = false := by
          cases hb : a.second with
          | false => rfl
          | true => obtain ⟨_, t, ts, e, _⟩ := q4 hb; rw [hrest] at e; cases e
        rw [hrest, List.append_nil] at q1
        rw [hh, hsec] at q2
        simp at q2
        rw [q2, ← q1, h4]
      refine keep _ _ _ _ (List.mem_append_right _ ?_)
      cases ho with
      | pass _ => unfold Filt.deliver; split <;> simp
      | push h => exact absurd hsucc h
      | queue h => exact absurd hsucc h
    | ask1 a1 e t ts hrest hsec ro hao =>
      rw [h0] at e; injection e with e; subst e
      refine next _ (ans _ t _ ro (ht t ts hrest) (hr t (ht t ts hrest)).1 hao) (by split <;> rfl) (by split <;> exact hh) ?_ ?_
      · unfold Adding.left; rw [hrest, hsec]; by_cases h0 : s.tol = 0
        · simp [h0]
        · simp [h0]
      · refine hk.ask1 hrest hsec (by split <;> rfl) (.inl ⟨rfl, by split <;> rfl, trivial⟩) ?_
        by_cases h0 : s.tol = 0
        · left; simp [h0]
        · right; simp [h0]
    | ask2 a1 e t ts hrest hsec t2 h2 ro hao =>
      rw [h0] at e; injection e with e; subst e
      have hne := (hk.second hsec).1
      obtain ⟨t3, e3, e4⟩ := (hr t (ht t ts hrest)).2 hne
      rw [h2] at e3; injection e3 with e3; subst e3
      refine next _ (ans _ t _ ro (ht t ts hrest) e4 hao) rfl hh ?_ ?_
      · unfold Adding.left; rw [hrest, hsec]; simp; omega
      · exact hk.ask2 hrest hsec h2 rfl (.inl ⟨rfl, rfl, trivial⟩) rfl rfl

end Tf2
