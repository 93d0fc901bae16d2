import Verif.Spec.FilterLeft
import Verif.Proofs.FilterWaitStep

/-! # What a message filter leaves in the buffer: the invariant -/
namespace Tf2

variable {X : Type}

/-- The request was made for a message that was given up. -/
def Abandoned (revs : List REv) (cb : Nat) (evs : List FEv) (h : Nat) : Prop :=
  ∃ id f st t tm, FEv.received id f st ∈ evs ∧ REv.added h cb t (stripSlash f) tm ∈ revs ∧ GivenUp evs id

theorem Abandoned.mono {revs revs' : List REv} {cb : Nat} {evs evs' : List FEv} {h : Nat}
    (a : Abandoned revs cb evs h) (h1 : ∀ e ∈ revs, e ∈ revs') (h2 : ∀ e ∈ evs, e ∈ evs') : Abandoned revs' cb evs' h := by
  obtain ⟨id, f, st, t, tm, a1, a2, a3⟩ := a
  exact ⟨id, f, st, t, tm, h2 _ a1, h1 _ a2, a3.imp (h2 _) (h2 _)⟩

structure LeftInv (s : Filt X) (evs : List FEv) : Prop where
  own : ∀ r ∈ s.rb.reqs, r.cb = s.cb → r.handle ∈ allHandles s.msgs s.adding ∨ Abandoned s.revs s.cb evs r.handle
  reg : ∀ r ∈ s.rb.reqs, r.cb ∈ s.rb.cbs

theorem LeftInv.sub {s s' : Filt X} {evs evs' : List FEv} (h : LeftInv s evs) (hcb : s'.cb = s.cb)
    (hreg : ∀ c ∈ s.rb.cbs, (∃ r ∈ s'.rb.reqs, r.cb = c) → c ∈ s'.rb.cbs)
    (hr : ∀ r ∈ s'.rb.reqs, ∃ r0 ∈ s.rb.reqs, r0.handle = r.handle ∧ r0.cb = r.cb)
    (hv : ∀ e ∈ s.revs, e ∈ s'.revs) (he : ∀ e ∈ evs, e ∈ evs')
    (hk : ∀ r ∈ s'.rb.reqs, r.handle ∈ allHandles s.msgs s.adding →
      r.handle ∈ allHandles s'.msgs s'.adding ∨ Abandoned s'.revs s'.cb evs' r.handle) : LeftInv s' evs' := by
  constructor
  · intro r hr' hc
    obtain ⟨r0, h0, e1, e2⟩ := hr r hr'
    rcases h.own r0 h0 (by rw [e2, hc, hcb]) with h1 | h1
    · exact hk r hr' (by rw [← e1]; exact h1)
    · right; rw [hcb, ← e1]; exact h1.mono hv he
  · intro r hr'
    obtain ⟨r0, h0, e1, e2⟩ := hr r hr'
    exact hreg _ (by rw [← e2]; exact h.reg r0 h0) ⟨r, hr', rfl⟩

theorem LeftInv.congr {s s' : Filt X} {evs evs' : List FEv} (h : LeftInv s evs) (h1 : s'.rb = s.rb) (h2 : s'.revs = s.revs)
    (h3 : s'.cb = s.cb) (h4 : s'.msgs = s.msgs) (h5 : s'.adding = s.adding) (he : ∀ e ∈ evs, e ∈ evs') : LeftInv s' evs' :=
  h.sub h3 (by rw [h1]; exact fun _ h _ => h) (by rw [h1]; exact fun r hr => ⟨r, hr, rfl, rfl⟩) (by rw [h2]; exact fun _ h => h)
    he (fun r _ h => .inl (by rw [h4, h5]; exact h))

theorem LeftInv.deliver {s : Filt X} {evs : List FEv} (h : LeftInv s evs) (o : Out) :
    LeftInv (s.deliver o).1 (evs ++ (s.deliver o).2) := by
  obtain ⟨-, q2, q3, -, -, q6, -, -, -⟩ := s.deliver_parts o
  obtain ⟨r1, r2⟩ := deliver_revs s o
  exact h.congr q6 r1 r2 q3 q2 (fun e he => List.mem_append_left _ he)

theorem allHandles_erase {msgs : List MInfo} {adding : List Adding} {i : Nat} {a : Adding} (ha : adding[i]? = some a)
    {k : Nat} : k ∈ allHandles msgs adding ↔ k ∈ a.handles ∨ k ∈ allHandles msgs (adding.eraseIdx i) := by
  have hp := fun x => (eraseIdx_perm ha).mem_iff (a := x)
  simp only [mem_allHandles, ← hp, List.mem_cons]
  constructor
  · rintro (⟨m, h1, h2⟩ | ⟨x, rfl | h1, h2⟩)
    · exact .inr (.inl ⟨m, h1, h2⟩)
    · exact .inl h2
    · exact .inr (.inr ⟨x, h1, h2⟩)
  · rintro (h | ⟨m, h1, h2⟩ | ⟨x, h1, h2⟩)
    · exact .inr ⟨a, .inl rfl, h⟩
    · exact .inl ⟨m, h1, h2⟩
    · exact .inr ⟨x, .inr h1, h2⟩

theorem allHandles_set {msgs : List MInfo} {adding : List Adding} {i : Nat} {a : Adding} (ha : adding[i]? = some a)
    (b : Adding) {k : Nat} : k ∈ allHandles msgs (adding.set i b) ↔ k ∈ b.handles ∨ k ∈ allHandles msgs (adding.eraseIdx i) := by
  have hp := fun x => (set_perm ha b).mem_iff (a := x)
  simp only [mem_allHandles, hp, List.mem_cons]
  constructor
  · rintro (⟨m, h1, h2⟩ | ⟨x, rfl | h1, h2⟩)
    · exact .inr (.inl ⟨m, h1, h2⟩)
    · exact .inl h2
    · exact .inr (.inr ⟨x, h1, h2⟩)
  · rintro (h | ⟨m, h1, h2⟩ | ⟨x, h1, h2⟩)
    · exact .inr ⟨b, .inl rfl, h⟩
    · exact .inl ⟨m, h1, h2⟩
    · exact .inr ⟨x, .inr h1, h2⟩

theorem allHandles_eraseM {msgs : List MInfo} {adding : List Adding} {i : Nat} {m : MInfo} (hm : msgs[i]? = some m)
    {k : Nat} : k ∈ allHandles msgs adding ↔ k ∈ m.handles ∨ k ∈ allHandles (msgs.eraseIdx i) adding := by
  have hp := fun x => (eraseIdx_perm hm).mem_iff (a := x)
  simp only [mem_allHandles, ← hp, List.mem_cons]
  constructor
  · rintro (⟨x, rfl | h1, h2⟩ | ⟨x, h1, h2⟩)
    · exact .inl h2
    · exact .inr (.inl ⟨x, h1, h2⟩)
    · exact .inr (.inr ⟨x, h1, h2⟩)
  · rintro (h | ⟨x, h1, h2⟩ | ⟨x, h1, h2⟩)
    · exact .inl ⟨m, .inl rfl, h⟩
    · exact .inl ⟨x, .inr h1, h2⟩
    · exact .inr ⟨x, h1, h2⟩

theorem allHandles_setM {msgs : List MInfo} {adding : List Adding} {i : Nat} {m : MInfo} (hm : msgs[i]? = some m)
    (n : Nat) {k : Nat} (h : k ∈ allHandles msgs adding) :
    k ∈ allHandles (msgs.set i { m with success := n }) adding := by
  have hp := fun x => (set_perm hm ({ m with success := n } : MInfo)).mem_iff (a := x)
  rcases (allHandles_eraseM hm).1 h with h | h
  · exact mem_allHandles.2 (.inl ⟨_, (hp _).2 (List.mem_cons_self ..), h⟩)
  · rcases mem_allHandles.1 h with ⟨x, h1, h2⟩ | h1
    · exact mem_allHandles.2 (.inl ⟨x, (hp _).2 (List.mem_cons_of_mem _ h1), h2⟩)
    · exact mem_allHandles.2 (.inr h1)

/-- The handles of a message in the hands of `add` become abandoned when it is given up. -/
theorem WInv.abandon [Rigid X] {D : Duration} {s : Filt X} {evs evs' : List FEv} (h : WInv D s) (hh : HInv s evs) {i : Nat}
    {a : Adding} (ha : s.adding[i]? = some a) {revs' : List REv} (hv : ∀ e ∈ s.revs, e ∈ revs') (he : ∀ e ∈ evs, e ∈ evs')
    (hg : GivenUp evs' a.msg.id) {k : Nat} (hk : k ∈ a.handles) : Abandoned revs' s.cb evs' k := by
  have hmem := List.mem_of_getElem? ha
  obtain ⟨t, tm, k1, -⟩ := h.waits.askedA a hmem k hk
  obtain ⟨f, e1, e2⟩ := hh.heads a.msg (mem_heads.2 (.inl ⟨a, hmem, rfl⟩))
  rw [e2] at k1
  exact ⟨a.msg.id, f, a.msg.stamp, t, tm, he _ e1, hv _ k1, hg⟩

theorem LeftInv.answer [Rigid X] {D : Duration} {s : Filt X} {evs : List FEv} (h : LeftInv s evs) (hw : WInv D s)
    (hh : HInv s evs) {i : Nat} {a a' : Adding} (ha : s.adding[i]? = some a) {t : Name} {tm : Time} {ro : RBuf X × List REv}
    (ho : AddOut D s.rb s.cb t a.msg.frame tm ro.1 ro.2) (ea : a'.handles = a.handles) :
    LeftInv (s.addAnswer i a a' ro).1 (evs ++ (s.addAnswer i a a' ro).2) := by
  obtain ⟨rb, new⟩ := ro
  simp only at ho
  have hv : ∀ e ∈ s.revs, e ∈ s.revs ++ new := fun e he => List.mem_append_left _ he
  have keep : ∀ evs' : List FEv, (∀ e ∈ evs, e ∈ evs') → rb = s.rb →
      LeftInv { s.buf (rb, new) with adding := s.adding.set i { a' with success := a.success + 1 } } evs' := by
    intro evs' he e
    subst e
    refine h.sub rfl (fun _ h _ => h) (fun r hr => ⟨r, hr, rfl, rfl⟩) hv he ?_
    intro r hr hk
    left
    refine (allHandles_set ha _).2 ?_
    simp only [ea]
    exact (allHandles_erase ha).1 hk
  have erase : ∀ evs' : List FEv, (∀ e ∈ evs, e ∈ evs') → rb = s.rb → GivenUp evs' a.msg.id →
      LeftInv { s.buf (rb, new) with adding := s.adding.eraseIdx i } evs' := by
    intro evs' he e hg
    subst e
    refine h.sub rfl (fun _ h _ => h) (fun r hr => ⟨r, hr, rfl, rfl⟩) hv he ?_
    intro r hr hk
    rcases (allHandles_erase ha).1 hk with hk | hk
    · exact .inr (hw.abandon hh ha hv he hg hk)
    · exact .inl hk
  have hl : ∀ x : List FEv, ∀ e ∈ evs, e ∈ evs ++ x := fun x e he => List.mem_append_left _ he
  cases ho with
  | same _ => exact keep _ (hl []) rfl
  | now _ _ => exact keep _ (hl []) rfl
  | never _ _ _ =>
    simp only [Filt.addAnswer]
    have hd : FEv.decided a.msg.id (some .outTheBack) ∈
        (({ s.buf (s.rb, [REv.never t a.msg.frame tm]) with adding := s.adding.eraseIdx i } : Filt X).deliver
          ⟨a.msg.id, some .outTheBack⟩).2 := by
      unfold Filt.deliver; split <;> simp
    have := erase (evs ++ (({ s.buf (s.rb, [REv.never t a.msg.frame tm]) with adding := s.adding.eraseIdx i } : Filt X).deliver
          ⟨a.msg.id, some .outTheBack⟩).2) (hl _) rfl (.inl (List.mem_append_right _ hd))
    obtain ⟨-, q2, q3, -, -, q6, -, -, -⟩ := Filt.deliver_parts
      ({ s.buf (s.rb, [REv.never t a.msg.frame tm]) with adding := s.adding.eraseIdx i } : Filt X) ⟨a.msg.id, some .outTheBack⟩
    obtain ⟨r1, r2⟩ := deliver_revs
      ({ s.buf (s.rb, [REv.never t a.msg.frame tm]) with adding := s.adding.eraseIdx i } : Filt X) ⟨a.msg.id, some .outTheBack⟩
    exact this.congr q6 r1 r2 q3 q2 (fun e he => he)
  | threw _ _ _ _ => exact erase _ (hl _) rfl (.inr (by simp [Filt.addAnswer]))
  | pending hne hc hno r hr =>
    simp only [Filt.addAnswer, List.append_nil]
    constructor
    · intro r' hr' hcb
      simp only [Filt.buf, List.mem_append, List.mem_singleton] at hr'
      rcases hr' with hr' | rfl
      · rcases h.own r' hr' hcb with h1 | h1
        · left
          refine (allHandles_set ha _).2 ?_
          rcases (allHandles_erase ha).1 h1 with h1 | h1
          · exact .inl (by simp [h1])
          · exact .inr h1
        · exact .inr (h1.mono hv (fun e he => he))
      · left
        refine (allHandles_set ha _).2 (.inl ?_)
        rw [hr]; simp
    · intro r' hr'
      simp only [Filt.buf, List.mem_append, List.mem_singleton] at hr'
      rcases hr' with hr' | rfl
      · exact h.reg r' hr'
      · rw [hr]; exact hw.cbIn

theorem cancelAll_reqs (hs : List Nat) : ∀ (s : Filt X) (r : Request), r ∈ (s.cancelAll hs).rb.reqs ↔
    r ∈ s.rb.reqs ∧ ∀ h ∈ hs, r.handle ≠ h % 2 ^ 32 := by
  induction hs with
  | nil => intro s r; simp [Filt.cancelAll]
  | cons h t ih =>
    intro s r
    rw [Filt.cancelAll, ih]
    simp only [Filt.buf, RBuf.cancelRequest, List.mem_filter, decide_eq_true_eq, List.mem_cons, forall_eq_or_imp, and_assoc]

theorem LeftInv.next [Rigid X] {D : Duration} {s : Filt X} {evs : List FEv} (h : LeftInv s evs) (hw : WInv D s)
    (hh : HInv s evs) (hc : Counted s) (i : Nat) (hsm : s.rb.reqCounter < 2 ^ 32) :
    LeftInv (s.addNext i).1 (evs ++ (s.addNext i).2) := by
  have ho := Filt.addNext_out hw.rinv.wf hc i
  generalize s.addNext i = r at ho
  have hl : ∀ x : List FEv, ∀ e ∈ evs, e ∈ evs ++ x := fun x e he => List.mem_append_left _ he
  cases ho with
  | idle _ => exact h.congr rfl rfl rfl rfl rfl (hl _)
  | overflow a ha t ts hr hs ht =>
    refine h.sub rfl (fun _ h _ => h) (fun r hr => ⟨r, hr, rfl, rfl⟩) (fun _ h => h) (hl _) ?_
    intro r hr hk
    rcases (allHandles_erase ha).1 hk with hk | hk
    · exact .inr (hw.abandon hh ha (fun _ h => h) (hl _) (.inr (by simp)) hk)
    · exact .inl hk
  | ask1 a ha t ts hr hs ro ho =>
    refine h.answer hw hh ha ho ?_
    split <;> rfl
  | ask2 a ha t ts hr hs t2 h2 ro ho => exact h.answer hw hh ha ho rfl
  | finish a ha hr r ho =>
    have hmem := List.mem_of_getElem? ha
    obtain ⟨done, e1, e2, e3, -⟩ := hw.waits.prog a hmem
    have hsec : a.second = false := by
      cases hb : a.second with
      | false => rfl
      | true => exact absurd hr (e3 hb).2
    rw [hr, List.append_nil] at e1
    rw [hsec] at e2
    simp only [Bool.false_eq_true, if_false, Nat.add_zero] at e2
    cases ho with
    | pass hp =>
      simp only at hp
      rw [hw.exp, e1] at hp
      have h0 : a.handles = [] := List.eq_nil_of_length_eq_zero (by omega)
      have : LeftInv { s with adding := s.adding.eraseIdx i } evs := by
        refine h.sub rfl (fun _ h _ => h) (fun r hr => ⟨r, hr, rfl, rfl⟩) (fun _ h => h) (fun _ h => h) ?_
        intro r hr hk
        rcases (allHandles_erase ha).1 hk with hk | hk
        · rw [h0] at hk; cases hk
        · exact .inl hk
      exact this.deliver _
    | queue _ _ =>
      refine h.sub rfl (fun _ h _ => h) (fun r hr => ⟨r, hr, rfl, rfl⟩) (fun _ h => h) (hl _) ?_
      intro r hr hk
      left
      rcases (allHandles_erase ha).1 hk with hk | hk
      · exact mem_allHandles.2 (.inl ⟨_, List.mem_append_right _ (List.mem_singleton.2 rfl), hk⟩)
      · rcases mem_allHandles.1 hk with ⟨m, h1, h2⟩ | h1
        · exact mem_allHandles.2 (.inl ⟨m, List.mem_append_left _ h1, h2⟩)
        · exact mem_allHandles.2 (.inr h1)
    | push _ _ _ f r0 hm =>
      simp only at hm
      obtain ⟨c1, c2, c3⟩ := cancelAll_rinv (D := D) f.handles ({ s with adding := s.adding.eraseIdx i } : Filt X) hw.rinv
      obtain ⟨-, p2, p3, -, -, -, -, -, p9, -⟩ :=
        Filt.cancelAll_parts f.handles ({ s with adding := s.adding.eraseIdx i } : Filt X)
      have preq := cancelAll_reqs f.handles ({ s with adding := s.adding.eraseIdx i } : Filt X)
      generalize hg : ({ s with adding := s.adding.eraseIdx i } : Filt X).cancelAll f.handles = g at *
      obtain ⟨-, q2, q3, -, -, q6, -, -, -⟩ := g.deliver_parts ⟨f.msg.id, some .unknown⟩
      obtain ⟨r1, r2⟩ := deliver_revs g ⟨f.msg.id, some .unknown⟩
      have : LeftInv { g with msgs := r0 ++ [{ msg := a.msg, handles := a.handles, success := a.success }] } evs := by
        refine h.sub c3 (fun c hc _ => by simp only [p9]; exact hc) (fun r hr => ⟨r, ((preq r).1 hr).1, rfl, rfl⟩) c2
          (fun _ h => h) ?_
        intro r hr hk
        left
        simp only [p2]
        rcases (allHandles_erase ha).1 hk with hk | hk
        · exact mem_allHandles.2 (.inl ⟨_, List.mem_append_right _ (List.mem_singleton.2 rfl), hk⟩)
        · rcases mem_allHandles.1 hk with ⟨m, h1, h2⟩ | h1
          · rw [hm] at h1
            rcases List.mem_cons.1 h1 with rfl | h1
            · obtain ⟨t', tm', k1, -⟩ := hw.waits.asked m (by rw [hm]; exact List.mem_cons_self ..) _ h2
              have := (hw.rinv.le_counter k1).2
              exact absurd (Nat.mod_eq_of_lt (by omega)).symm (((preq r).1 hr).2 _ h2)
            · exact mem_allHandles.2 (.inl ⟨m, List.mem_append_left _ h1, h2⟩)
          · exact mem_allHandles.2 (.inr h1)
      exact this.congr q6 r1 r2 rfl q2 (hl _)

theorem LeftInv.invoke [Rigid X] {D : Duration} {s : Filt X} {evs : List FEv} (h : LeftInv s evs) (hw : WInv D s)
    (_ : s.adding = []) (i : Nat) (av : Bool) : LeftInv (s.invoke i av).1 (evs ++ (s.invoke i av).2) := by
  have hl : ∀ x : List FEv, ∀ e ∈ evs, e ∈ evs ++ x := fun x e he => List.mem_append_left _ he
  unfold Filt.invoke RBuf.invoke
  cases hc : s.rb.inflight[i]? with
  | none => exact h.congr rfl (by simp [Filt.buf]) rfl rfl rfl (hl _)
  | some c =>
    simp only
    have other : ∀ (e : REv) (x : List FEv), LeftInv (s.buf ({ s.rb with inflight := s.rb.inflight.eraseIdx i }, [e])) (evs ++ x) := by
      intro e x
      exact h.sub rfl (fun _ h _ => h) (fun r hr => ⟨r, hr, rfl, rfl⟩) (fun _ h => List.mem_append_left _ h) (hl _)
        (fun r _ h => .inl h)
    by_cases hcb : c.cb ∈ s.rb.cbs
    · simp only [if_pos hcb]
      by_cases hcc : c.cb = s.cb
      · simp only [if_pos hcc]
        have ho := Filt.transformable_out (D := D) (s.buf ({ s.rb with inflight := s.rb.inflight.eraseIdx i },
          [REv.invoked c.cb c.handle c.target c.source])) c.handle av hw.rinv.wf
        have base := other (REv.invoked c.cb c.handle c.target c.source) []
        rw [List.append_nil] at base
        generalize hs' : s.buf ({ s.rb with inflight := s.rb.inflight.eraseIdx i },
          [REv.invoked c.cb c.handle c.target c.source]) = s' at *
        generalize s'.transformable c.handle av = r at ho
        have e1 : s'.msgs = s.msgs := by rw [← hs']; rfl
        have e2 : s'.expected = s.expected := by rw [← hs']; rfl
        have e3 : s'.rb.reqs = s.rb.reqs := by rw [← hs']; rfl
        cases ho with
        | notFound hn => exact base.congr rfl rfl rfl rfl rfl (hl _)
        | wait j m hm hh hlt =>
          exact base.sub rfl (fun _ h _ => h) (fun r hr => ⟨r, hr, rfl, rfl⟩) (fun _ h => h) (hl _)
            (fun r _ h => .inl (allHandles_setM hm _ h))
        | threw j m hm hh hlt ht =>
          exact base.sub rfl (fun _ h _ => h) (fun r hr => ⟨r, hr, rfl, rfl⟩) (fun _ h => h) (hl _)
            (fun r _ h => .inl (allHandles_setM hm _ h))
        | decided j m hm hh hlt v hv =>
          have hm0 : s.msgs[j]? = some m := by rw [← e1]; exact hm
          obtain ⟨o1, o2, -⟩ := hw.waits.open_ m (List.mem_of_getElem? hm0)
          have : LeftInv ({ s' with msgs := s'.msgs.eraseIdx j, count := s'.count - 1 } : Filt X) evs := by
            refine base.sub rfl (fun _ h _ => h) (fun r hr => ⟨r, hr, rfl, rfl⟩) (fun _ h => h) (fun _ h => h) ?_
            intro r hr hk
            left
            rcases (allHandles_eraseM hm).1 hk with hk | hk
            · -- another request of the message would be live
              exfalso
              rw [e2, hw.exp] at hlt
              have hlen : (m.handles.filter (fun x => decide (x ∈ s.rb.live))).length ≤ 1 := by omega
              have hin : c.handle ∈ s.rb.live := mem_live.2 (.inr ⟨c, List.mem_of_getElem? hc, rfl⟩)
              have hrr : r ∈ s.rb.reqs := by rw [← e3]; exact hr
              have h1 : c.handle ∈ m.handles.filter (fun x => decide (x ∈ s.rb.live)) :=
                List.mem_filter.2 ⟨hh, by simpa using hin⟩
              have h2 : r.handle ∈ m.handles.filter (fun x => decide (x ∈ s.rb.live)) :=
                List.mem_filter.2 ⟨hk, by simpa using mem_live.2 (.inl ⟨r, hrr, rfl⟩)⟩
              have heq : r.handle = c.handle := by
                revert hlen h1 h2
                generalize m.handles.filter (fun x => decide (x ∈ s.rb.live)) = l
                intro hlen h1 h2
                match l, hlen with
                | [], _ => cases h1
                | [x], _ => rw [List.mem_singleton.1 h1, List.mem_singleton.1 h2]
              exact ((invoke_live hw.rinv hc r.handle).1 (mem_live.2 (.inl ⟨r, hrr, rfl⟩))).2 heq
            · exact hk
          exact this.deliver _
      · simp only [if_neg hcc]; exact other _ _
    · simp only [if_neg hcb]; exact other _ _

theorem test_reqs [Rigid X] {D : Duration} {s : RBuf X} {evs : List REv} (h : RInv D s evs) :
    ∀ r ∈ s.test.1.reqs, ∃ r0 ∈ s.reqs, r0.handle = r.handle ∧ r0.cb = r.cb := by
  have o := test_out h.wf h.reqs
  generalize s.test.1 = s' at o ⊢
  generalize s.test.2 = new at o
  intro r hr
  cases o with
  | @done kept fired calls perm keptV firedV cf =>
    obtain ⟨r0, h0, rfl⟩ := List.mem_map.1 hr
    exact ⟨r0, perm.mem_iff.1 (List.mem_append_left _ h0), rfl, rfl⟩
  | @threw kept fired l r1 perm rV firedV =>
    rcases List.mem_append.1 hr with hr | hr
    · obtain ⟨r0, h0, rfl⟩ := List.mem_map.1 hr
      exact ⟨r0, perm.mem_iff.1 (List.mem_append_left _ (List.mem_append_left _ h0)), rfl, rfl⟩
    · rcases List.mem_cons.1 hr with rfl | hr
      · exact ⟨r1, perm.mem_iff.1 (List.mem_append_right _ (List.mem_cons_self ..)), rfl, rfl⟩
      · exact ⟨r, perm.mem_iff.1 (List.mem_append_right _ (List.mem_cons_of_mem _ hr)), rfl, rfl⟩

/-- A step of the buffer leaves requests as they are, except that `addRequest` may add one. -/
theorem rstep_reqs [Rigid X] {D : Duration} {s : RBuf X} {evs : List REv} (h : RInv D s evs) (op : ROp X) :
    ∀ r ∈ (s.step op).1.reqs, (∃ r0 ∈ s.reqs, r0.handle = r.handle ∧ r0.cb = r.cb) ∨ ∃ t src tm, op = .addRequest r.cb t src tm := by
  intro r hr
  cases op with
  | clear => exact .inl ⟨r, hr, rfl, rfl⟩
  | addCallback =>
    simp only [RBuf.step, RBuf.addCallback] at hr
    split at hr <;> exact .inl ⟨r, hr, rfl, rfl⟩
  | removeCallback c => exact .inl ⟨r, (List.mem_filter.1 hr).1, rfl, rfl⟩
  | cancelRequest x => exact .inl ⟨r, (List.mem_filter.1 hr).1, rfl, rfl⟩
  | invoke i =>
    simp only [RBuf.step, RBuf.invoke] at hr
    split at hr <;> exact .inl ⟨r, hr, rfl, rfl⟩
  | addRequest c t src tm =>
    have ho := addRequest_out h.wf c t src tm
    simp only [RBuf.step] at hr
    generalize (s.addRequest c t src tm).1 = s' at ho hr
    generalize (s.addRequest c t src tm).2 = n at ho
    cases ho with
    | pending _ _ _ r' hr' =>
      rcases List.mem_append.1 hr with hr | hr
      · exact .inl ⟨r, hr, rfl, rfl⟩
      · rw [List.mem_singleton.1 hr, hr']; exact .inr ⟨t, src, tm, rfl⟩
    | _ => exact .inl ⟨r, hr, rfl, rfl⟩
  | set m a st =>
    simp only [RBuf.step, RBuf.setTransform] at hr
    have hw : WF D (s.buf.setTransform m a st).1 := h.wf.setTransform m a st
    have hb : ∀ n i, s.buf.frameIDs n = some i → (s.buf.setTransform m a st).1.frameIDs n = some i :=
      fun n i hn => frameIDs_step h.wf (.set m a st) hn
    generalize hq : s.buf.setTransform m a st = q at *
    obtain ⟨b, q⟩ := q
    cases q with
    | accepted => exact .inl (test_reqs (s := { s with buf := b }) (h.rebuf hw hb) r hr)
    | _ => exact .inl ⟨r, hr, rfl, rfl⟩

/-- Callbacks stay registered, except the one that is removed, with its requests. -/
theorem rstep_registered [Rigid X] {D : Duration} {s : RBuf X} {evs : List REv} (h : RInv D s evs) (op : ROp X)
    (hreg : ∀ r ∈ s.reqs, r.cb ∈ s.cbs) (ho : s.AsksRegistered op) : ∀ r ∈ (s.step op).1.reqs, r.cb ∈ (s.step op).1.cbs := by
  intro r hr
  have hin : r.cb ∈ s.cbs := by
    rcases rstep_reqs h op r hr with ⟨r0, h0, -, e⟩ | ⟨t, src, tm, rfl⟩
    · rw [← e]; exact hreg r0 h0
    · exact ho
  refine rstep_cbs s op hin ?_
  rintro rfl
  have := (List.mem_filter.1 hr).2
  simp at this

/-- After a registration nothing is pending with the new callback. -/
theorem LeftInv.register {s : Filt X} {evs : List FEv} (hreg : ∀ r ∈ s.rb.reqs, r.cb ∈ s.rb.cbs)
    (hn : REv.registerHangs ∉ s.register.revs) :
    s.register.rb.reqs = s.rb.reqs ∧ (∀ r ∈ s.register.rb.reqs, r.cb ≠ s.register.cb) ∧ LeftInv s.register evs := by
  have key : s.register.rb.reqs = s.rb.reqs ∧ (∀ r ∈ s.register.rb.reqs, r.cb ≠ s.register.cb) ∧
      (∀ r ∈ s.register.rb.reqs, r.cb ∈ s.register.rb.cbs) := by
    unfold Filt.register RBuf.addCallback at *
    cases hx : RBuf.nextCb s.rb.cbs (s.rb.cbs.length + 1) s.rb.cbCounter with
    | none => simp [hx] at hn
    | some c =>
      simp only
      refine ⟨trivial, ?_, fun r hr => List.mem_append_left _ (hreg r hr)⟩
      rintro r hr e
      exact (nextCb_fresh _ _ _ _ hx).1 (e ▸ hreg r hr)
  exact ⟨key.1, key.2.1, fun r hr e => absurd e (key.2.1 r hr), key.2.2⟩

theorem LeftInv.step [Rigid X] {D : Duration} {s : Filt X} {evs : List FEv} (h : LeftInv s evs) (hw : WInv D s) (hh : HInv s evs)
    (hc : Counted s) (op : FOp X) (ho : s.Orderly op) (hp : s.AsksOwn op)
    (hlim : (addedHandles (s.step op).1.revs).length < 2 ^ 32) (hr : REv.registerHangs ∉ (s.step op).1.revs) :
    LeftInv (s.step op).1 (evs ++ (s.step op).2) := by
  have hl : ∀ x : List FEv, ∀ e ∈ evs, e ∈ evs ++ x := fun x e he => List.mem_append_left _ he
  cases op with
  | setTargets ts => exact h.congr rfl rfl rfl rfl rfl (hl _)
  | setTolerance tol => exact h.congr rfl rfl rfl rfl rfl (hl _)
  | setQueueSize n => exact h.congr rfl rfl rfl rfl rfl (hl _)
  | clear =>
    simp only [Filt.step, Filt.clear] at hr ⊢
    have hreg : ∀ r ∈ (s.buf (s.rb.removeCallback s.cb)).rb.reqs, r.cb ∈ (s.buf (s.rb.removeCallback s.cb)).rb.cbs := by
      intro r hr
      simp only [Filt.buf, RBuf.removeCallback, List.mem_filter, decide_eq_true_eq] at hr ⊢
      exact ⟨h.reg r hr.1, hr.2⟩
    obtain ⟨-, k2, k3⟩ := LeftInv.register (evs := evs) hreg hr
    exact ⟨fun r hr e => absurd e (k2 r hr), k3.reg⟩
  | addStart f t =>
    simp only [Filt.step, Filt.addStart]
    split
    · exact h.congr rfl rfl rfl rfl rfl (hl _)
    · split
      · have := LeftInv.deliver (s := { s with next := s.next + 1 }) (evs := evs ++ [.received s.next f t])
          (h.congr rfl rfl rfl rfl rfl (hl _)) ⟨s.next, some .emptyFrameID⟩
        rwa [List.append_assoc] at this
      · refine h.sub rfl (fun _ h _ => h) (fun r hr => ⟨r, hr, rfl, rfl⟩) (fun _ h => h) (hl _) ?_
        intro r _ hk
        left
        rcases mem_allHandles.1 hk with h1 | ⟨a, h1, h2⟩
        · exact mem_allHandles.2 (.inl h1)
        · exact mem_allHandles.2 (.inr ⟨a, List.mem_append_left _ h1, h2⟩)
  | addNext i =>
    refine h.next hw hh hc i ?_
    have : (addedHandles s.revs).length = s.rb.reqCounter := by rw [hw.rinv.added]; simp
    obtain ⟨n, e⟩ := revs_grow s (.addNext i)
    rw [e, addedHandles_append, List.length_append] at hlim
    omega
  | invoke k av => exact h.invoke hw ho k av
  | runQueued => simp only [Filt.step, Filt.runQueued]; split <;> exact h.congr rfl rfl rfl rfl rfl (hl _)
  | buffer op =>
    have gen : s.rb.AsksRegistered op → (∀ t src tm, op ≠ .addRequest s.cb t src tm) →
        LeftInv (s.buf (s.rb.step op)) (evs ++ []) := by
      intro g1 g2
      constructor
      · intro r hr hcb
        rcases rstep_reqs hw.rinv op r hr with ⟨r0, h0, e1, e2⟩ | ⟨t, src, tm, e⟩
        · rcases h.own r0 h0 (e2.trans hcb) with h1 | h1
          · left; rw [← e1]; exact h1
          · right; rw [← e1]; exact h1.mono (fun e he => List.mem_append_left _ he) (hl _)
        · rw [hcb] at e; exact absurd e (g2 t src tm)
      · exact rstep_registered hw.rinv op h.reg g1
    cases op with
    | invoke k => exact h.congr rfl rfl rfl rfl rfl (hl _)
    | addRequest c t src tm =>
      refine gen hp.1 ?_
      intro t' src' tm' e
      injection e with e
      exact hp.2 e
    | _ => exact gen trivial (by simp)

theorem LeftInv.run [Rigid X] {D : Duration} (ops : List (FOp X)) : ∀ {s : Filt X} {evs : List FEv}, LeftInv s evs → WInv D s →
    HInv s evs → FInv D s evs → OrderlyRun ops s → AskedOwn ops s → (addedHandles (Filt.run ops s evs).1.revs).length < 2 ^ 32 →
    (∀ e, REv.testThrew e ∉ (Filt.run ops s evs).1.revs) → REv.registerHangs ∉ (Filt.run ops s evs).1.revs →
    LeftInv (Filt.run ops s evs).1 (Filt.run ops s evs).2 := by
  induction ops with
  | nil => intro s evs h _ _ _ _ _ _ _ _; exact h
  | cons op r ih =>
    intro s evs h hw hh hf ho hp hlim hn hr
    obtain ⟨n, e⟩ := revs_run r (s.step op).1 (evs ++ (s.step op).2)
    simp only [Filt.run] at hlim hn hr ⊢
    have hlim' : (addedHandles (s.step op).1.revs).length < 2 ^ 32 := by
      rw [e, addedHandles_append, List.length_append] at hlim; omega
    have hr' : REv.registerHangs ∉ (s.step op).1.revs := by
      intro hx; exact hr (by rw [e]; exact List.mem_append_left _ hx)
    have hn' : ∀ x, REv.testThrew x ∉ (s.step op).1.revs := by
      intro x hx; exact hn x (by rw [e]; exact List.mem_append_left _ hx)
    exact ih (h.step hw hh hf.counted op ho.1 hp.1 hlim' hr') (hw.step hf.counted op ho.1 hlim' hn' hr') (HInv.step hf hh op)
      (hf.step op).1 ho.2 hp.2 hlim hn hr

theorem registered_run [Rigid X] {D : Duration} (ops : List (ROp X)) : ∀ {s : RBuf X} {evs : List REv}, RInv D s evs →
    (∀ r ∈ s.reqs, r.cb ∈ s.cbs) → RBuf.AskedRegistered ops s → (addedHandles (RBuf.run ops s evs).2).length < 2 ^ 64 - 1 →
    ∀ r ∈ (RBuf.run ops s evs).1.reqs, r.cb ∈ (RBuf.run ops s evs).1.cbs := by
  induction ops with
  | nil => intro s evs _ h _ _; exact h
  | cons op r ih =>
    intro s evs h hreg ha hlim
    simp only [RBuf.run] at hlim ⊢
    refine ih (h.step op ?_) (rstep_registered h op hreg ha.1) ha.2 hlim
    rw [run_eq_append, addedHandles_append, List.length_append] at hlim
    omega

theorem LeftInv.history [Rigid X] (D : Duration) (pre : List (ROp X)) (target : Name) (qsize : Nat) (queued : Bool)
    (ops : List (FOp X)) (hpre : RBuf.AskedRegistered pre (RBuf.init D))
    (ho : OrderlyRun ops (Filt.init (RBuf.history D pre).1 (RBuf.history D pre).2 target qsize queued))
    (hp : AskedOwn ops (Filt.init (RBuf.history D pre).1 (RBuf.history D pre).2 target qsize queued))
    (hh : (Filt.history D pre target qsize queued ops).1.Healthy) :
    LeftInv (Filt.history D pre target qsize queued ops).1 (Filt.history D pre target qsize queued ops).2 := by
  obtain ⟨hlim, hn, hr⟩ := hh
  unfold Filt.history at *
  obtain ⟨n1, e1⟩ := initRevs (RBuf.history D pre).1 (RBuf.history D pre).2 target qsize queued
  obtain ⟨n2, e2⟩ := revs_run ops (Filt.init (RBuf.history D pre).1 (RBuf.history D pre).2 target qsize queued) []
  have hlim0 : (addedHandles (RBuf.history D pre).2).length < 2 ^ 32 := by
    rw [e2, e1, addedHandles_append, addedHandles_append, List.length_append, List.length_append] at hlim; omega
  have hr0 : REv.registerHangs ∉ (Filt.init (RBuf.history D pre).1 (RBuf.history D pre).2 target qsize queued).revs := by
    intro h; exact hr (by rw [e2]; exact List.mem_append_left _ h)
  have hw := WInv.init D pre target qsize queued hlim0 hr0
  have hi := HInv.history D pre target qsize queued []
  simp only [Filt.history, Filt.run] at hi
  refine LeftInv.run ops ?_ hw hi (FInv.start D pre target qsize queued) ho hp hlim hn hr
  have hreg := registered_run pre (RInv.init D) (by simp [RBuf.init]) hpre (by unfold RBuf.history at hlim0; omega)
  unfold Filt.init at hr0 ⊢
  generalize hs : ({
                      rb := (RBuf.history D pre).1, revs := (RBuf.history D pre).2, targets := [], tol := 0, expected := 1
                      qsize := qsize, cb := 0, msgs := [], count := 0, adding := []
                      cbq := if queued then some [] else none, next := 0 } : Filt X) = s0 at hr0 ⊢
  have h0 : ∀ r ∈ s0.rb.reqs, r.cb ∈ s0.rb.cbs := by rw [← hs]; exact hreg
  obtain ⟨-, -, k⟩ := LeftInv.register (evs := []) h0 (by simpa [Filt.setTargets] using hr0)
  exact k.congr rfl rfl rfl rfl rfl (fun _ h => h)

/-! ### After the filter is gone -/

theorem register_inflight (s : Filt X) : s.register.rb.inflight = s.rb.inflight := by
  unfold Filt.register RBuf.addCallback
  cases RBuf.nextCb s.rb.cbs (s.rb.cbs.length + 1) s.rb.cbCounter <;> rfl

theorem test_inflight [Rigid X] {D : Duration} {s : RBuf X} {evs : List REv} (h : RInv D s evs) :
    ∀ c ∈ s.test.1.inflight, c ∈ s.inflight ∨ ∃ r ∈ s.reqs, r.cb = c.cb := by
  have o := test_out h.wf h.reqs
  generalize s.test.1 = s' at o ⊢
  generalize s.test.2 = new at o
  intro c hc
  cases o with
  | @done kept fired calls perm keptV firedV cf =>
    rcases List.mem_append.1 hc with hc | hc
    · exact .inl hc
    · obtain ⟨r, hr, h1⟩ := cf.2 c hc
      exact .inr ⟨r, perm.mem_iff.1 (List.mem_append_right _ hr), h1.1.symm⟩
  | threw _ _ _ => exact .inl hc

/-- A step schedules callbacks only of pending requests. -/
theorem rstep_inflight [Rigid X] {D : Duration} {s : RBuf X} {evs : List REv} (h : RInv D s evs) (op : ROp X) :
    ∀ c ∈ (s.step op).1.inflight, c ∈ s.inflight ∨ ∃ r ∈ s.reqs, r.cb = c.cb := by
  intro c hc
  cases op with
  | clear => exact .inl hc
  | addCallback => simp only [RBuf.step, RBuf.addCallback] at hc; split at hc <;> exact .inl hc
  | removeCallback _ => exact .inl hc
  | cancelRequest _ => exact .inl hc
  | addRequest cb t src tm =>
    have ho := addRequest_out h.wf cb t src tm
    simp only [RBuf.step] at hc
    generalize (s.addRequest cb t src tm).1 = s' at ho hc
    generalize (s.addRequest cb t src tm).2 = n at ho
    cases ho <;> exact .inl hc
  | invoke i =>
    simp only [RBuf.step, RBuf.invoke] at hc
    split at hc
    · exact .inl hc
    · exact .inl (List.mem_of_mem_eraseIdx hc)
  | set m a st =>
    simp only [RBuf.step, RBuf.setTransform] at hc
    have hw : WF D (s.buf.setTransform m a st).1 := h.wf.setTransform m a st
    have hb : ∀ n i, s.buf.frameIDs n = some i → (s.buf.setTransform m a st).1.frameIDs n = some i :=
      fun n i hn => frameIDs_step h.wf (.set m a st) hn
    generalize hq : s.buf.setTransform m a st = q at *
    obtain ⟨b, q⟩ := q
    cases q with
    | accepted => exact test_inflight (s := { s with buf := b }) (h.rebuf hw hb) c hc
    | _ => exact .inl hc

/-- Callbacks are made for what was scheduled. -/
theorem rstep_invoked [Rigid X] {D : Duration} {s : RBuf X} {evs : List REv} (hR : RInv D s evs) (op : ROp X) {cb h : Nat}
    {t src : Name} (hi : REv.invoked cb h t src ∈ (s.step op).2) : ∃ c ∈ s.inflight, c.cb = cb := by
  cases op with
  | invoke i =>
    simp only [RBuf.step, RBuf.invoke] at hi
    cases hc : s.inflight[i]? with
    | none => rw [hc] at hi; cases hi
    | some c =>
      rw [hc] at hi
      simp only [List.mem_singleton] at hi
      split at hi
      · injection hi with h1
        exact ⟨c, List.mem_of_getElem? hc, h1.symm⟩
      · cases hi
  | clear => cases hi
  | addCallback => simp only [RBuf.step, RBuf.addCallback] at hi; split at hi <;> simp at hi
  | removeCallback _ => simp [RBuf.step, RBuf.removeCallback] at hi
  | cancelRequest _ => simp [RBuf.step, RBuf.cancelRequest] at hi
  | addRequest cb t src tm =>
    simp only [RBuf.step, RBuf.addRequest] at hi
    repeat' split at hi
    all_goals simp at hi
  | set m a st =>
    exfalso
    simp only [RBuf.step, RBuf.setTransform] at hi
    have hw : WF D (s.buf.setTransform m a st).1 := hR.wf.setTransform m a st
    have hb : ∀ n i, s.buf.frameIDs n = some i → (s.buf.setTransform m a st).1.frameIDs n = some i :=
      fun n i hn => frameIDs_step hR.wf (.set m a st) hn
    generalize hq : s.buf.setTransform m a st = q at *
    obtain ⟨b, q⟩ := q
    cases q with
    | accepted =>
      have o := test_out (s := { s with buf := b }) (hR.rebuf hw hb).wf (hR.rebuf hw hb).reqs
      simp only [List.mem_cons, reduceCtorEq, false_or, List.mem_append, List.not_mem_nil, or_false] at hi
      generalize ({ s with buf := b } : RBuf X).test.1 = s' at o hi
      generalize ({ s with buf := b } : RBuf X).test.2 = new at o hi
      cases o with
      | done _ _ _ _ => exact (fired_no_undefined _ _ _).2 _ _ _ _ hi
      | threw _ _ _ =>
        rcases List.mem_append.1 hi with hi | hi
        · obtain ⟨r, -, hr⟩ := List.mem_map.1 hi; cases hr
        · simp at hi
    | _ => simp at hi

/-- A callback that nobody asks with, has no pending requests and is not due is never called. -/
theorem uncalled_run [Rigid X] {D : Duration} {cb : Nat} (later : List (ROp X)) : ∀ {s : RBuf X} {evs : List REv}, RInv D s evs →
    (∀ r ∈ s.reqs, r.cb ≠ cb) → (∀ c ∈ s.inflight, c.cb ≠ cb) → (∀ t src tm, ROp.addRequest cb t src tm ∉ later) →
    (addedHandles (evs ++ (RBuf.run later s []).2)).length < 2 ^ 64 - 1 →
    ∀ h t src, REv.invoked cb h t src ∉ (RBuf.run later s []).2 := by
  induction later with
  | nil => intro s evs _ _ _ _ _ h t src hi; cases hi
  | cons op r ih =>
    intro s evs hR hq hf ha hlim h t src hi
    simp only [RBuf.run, List.nil_append] at hi hlim
    rw [run_eq_append] at hi hlim
    have hl1 : (addedHandles (evs ++ (s.step op).2)).length < 2 ^ 64 - 1 := by
      simp only [addedHandles_append, List.length_append] at hlim ⊢; omega
    rcases List.mem_append.1 hi with hi | hi
    · obtain ⟨c, hc, e⟩ := rstep_invoked hR op hi
      exact hf c hc e
    · refine ih (hR.step op hl1) ?_ ?_ (fun t src tm hm => ha t src tm (List.mem_cons_of_mem _ hm)) ?_ h t src hi
      · intro q hqm e
        rcases rstep_reqs hR op q hqm with ⟨q0, h0, -, h2⟩ | ⟨t, src, tm, rfl⟩
        · exact hq q0 h0 (h2.trans e)
        · exact ha t src tm (by rw [← e]; exact List.mem_cons_self ..)
      · intro c hc e
        rcases rstep_inflight hR op c hc with hc | ⟨q, hqm, h2⟩
        · exact hf c hc e
        · exact hq q hqm (h2.trans e)
      · rw [List.append_assoc]; exact hlim

theorem rstep_added [Rigid X] {D : Duration} {s : RBuf X} {evs : List REv} (hR : RInv D s evs) (op : ROp X) :
    (addedHandles (s.step op).2).length ≤ 1 := by
  cases op with
  | clear => simp [RBuf.step, addedHandles]
  | addCallback => simp only [RBuf.step, RBuf.addCallback]; split <;> simp [addedHandles]
  | removeCallback _ => simp [RBuf.step, RBuf.removeCallback, addedHandles]
  | cancelRequest _ => simp [RBuf.step, RBuf.cancelRequest, addedHandles]
  | invoke i =>
    simp only [RBuf.step, RBuf.invoke]
    repeat' split
    all_goals simp [addedHandles]
  | addRequest cb t src tm =>
    simp only [RBuf.step, RBuf.addRequest]
    repeat' split
    all_goals simp [addedHandles]
  | set m a st =>
    simp only [RBuf.step, RBuf.setTransform]
    have hw : WF D (s.buf.setTransform m a st).1 := hR.wf.setTransform m a st
    have hb : ∀ n i, s.buf.frameIDs n = some i → (s.buf.setTransform m a st).1.frameIDs n = some i :=
      fun n i hn => frameIDs_step hR.wf (.set m a st) hn
    generalize hq : s.buf.setTransform m a st = q at *
    obtain ⟨b, q⟩ := q
    cases q with
    | accepted =>
      have o := test_out (s := { s with buf := b }) (hR.rebuf hw hb).wf (hR.rebuf hw hb).reqs
      have e := (o.cnt_eq (evs := []) 0).2.1
      have e1 : addedHandles (REv.setDone .accepted :: ({ s with buf := b } : RBuf X).test.2) =
        addedHandles ({ s with buf := b } : RBuf X).test.2 := rfl
      show (addedHandles (REv.setDone .accepted :: ({ s with buf := b } : RBuf X).test.2)).length ≤ 1
      rw [e1, e]; simp
    | _ => simp [addedHandles]

theorem added_run [Rigid X] (later : List (ROp X)) : ∀ {D : Duration} {s : RBuf X} {evs : List REv}, RInv D s evs →
    (addedHandles evs).length + later.length < 2 ^ 64 - 1 →
    (addedHandles (RBuf.run later s []).2).length ≤ later.length := by
  induction later with
  | nil => intro D s evs _ _; simp [RBuf.run, addedHandles]
  | cons op r ih =>
    intro D s evs hR hlim
    have h1 : (addedHandles (s.step op).2).length ≤ 1 := rstep_added hR op
    simp only [List.length_cons] at hlim ⊢
    have h2 := ih (hR.step op (by rw [addedHandles_append, List.length_append]; omega))
      (by rw [addedHandles_append, List.length_append]; omega)
    simp only [RBuf.run, List.nil_append]
    rw [run_eq_append, addedHandles_append, List.length_append]
    omega

end Tf2
