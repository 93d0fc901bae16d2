import Verif.Spec.FilterInTime
import Verif.Proofs.FilterPass
import Verif.Props.Arrival
import Verif.Props.FilterPass
import Verif.Props.Denote
import Verif.Props.Agreement
import Verif.Props.SameData
import Verif.Props.Origin

/-! # A message whose transforms are published in time: proofs -/
namespace Tf2

variable {X : Type}

theorem tells_eq (op : ROp X) : op.tells = Spin.dataOf op := by cases op <;> rfl

theorem transformable_rb (s : Filt X) (h : Nat) (av : Bool) : (s.transformable h av).1.rb = s.rb := by
  unfold Filt.transformable
  split
  · rfl
  · split
    · rfl
    · dsimp only
      split
      · rfl
      · split
        · rfl
        · rfl
        · rw [(Filt.deliver_parts _ _).2.2.2.2.2.1]

theorem fstep_buf [Rigid X] {D : Duration} {s : Filt X} (hw : WF D s.rb.buf) (op : FOp X) :
    (s.step op).1.rb.buf = s.rb.buf.run ([op].filterMap FOp.tells) := by
  cases op with
  | setTargets ts => rfl
  | setTolerance tol => rfl
  | setQueueSize n => rfl
  | clear =>
    show ((s.buf (s.rb.removeCallback s.cb)).register).rb.buf = s.rb.buf
    rw [Filt.register_rb]; rfl
  | addStart f t =>
    show (s.addStart f t).1.rb.buf = s.rb.buf
    unfold Filt.addStart
    dsimp only
    split
    · rfl
    · split
      · dsimp only; rw [(Filt.deliver_parts _ _).2.2.2.2.2.1]
      · rfl
  | addNext i => exact (Filt.addNext_rb s i hw).1
  | invoke k av =>
    show (s.invoke k av).1.rb.buf = s.rb.buf
    unfold Filt.invoke
    dsimp only
    split
    · split
      · rw [transformable_rb]; exact rinvoke_buf ..
      · exact rinvoke_buf ..
    · exact rinvoke_buf ..
    · exact rinvoke_buf ..
  | runQueued =>
    show (s.runQueued).1.rb.buf = s.rb.buf
    unfold Filt.runQueued; split <;> rfl
  | buffer op =>
    cases op with
    | invoke k => rfl
    | set m a st => exact Spin.rstep_buf s.rb (.set m a st)
    | clear => exact Spin.rstep_buf s.rb .clear
    | addCallback => exact Spin.rstep_buf s.rb .addCallback
    | removeCallback c => exact Spin.rstep_buf s.rb (.removeCallback c)
    | addRequest c t src tm => exact Spin.rstep_buf s.rb (.addRequest c t src tm)
    | cancelRequest h => exact Spin.rstep_buf s.rb (.cancelRequest h)

theorem frun_buf [Rigid X] {D : Duration} (ops : List (FOp X)) : ∀ {s : Filt X} {evs : List FEv}, FInv D s evs →
    (Filt.run ops s evs).1.rb.buf = s.rb.buf.run (ops.filterMap FOp.tells) := by
  induction ops with
  | nil => intro s evs _; rfl
  | cons op r ih =>
    intro s evs hf
    simp only [Filt.run]
    rw [ih (hf.step op).1, fstep_buf hf.reach.wf op]
    rw [show op :: r = [op] ++ r from rfl, List.filterMap_append, run_append]

/-- The buffer of a filter is what it was told. -/
theorem fhistory_buf [Rigid X] (D : Duration) (pre : List (ROp X)) (target : Name) (qsize : Nat) (queued : Bool)
    (ops : List (FOp X)) :
    (Filt.history D pre target qsize queued ops).1.rb.buf = (Buf.init D).run (toldBuffer pre ops) := by
  unfold Filt.history toldBuffer
  rw [frun_buf ops (FInv.start D pre target qsize queued), run_append]
  congr 1
  have h1 : (Filt.init (RBuf.history D pre).1 (RBuf.history D pre).2 target qsize queued).rb.buf = (RBuf.history D pre).1.buf := by
    unfold Filt.init Filt.setTargets
    exact Filt.register_rb _
  rw [h1]
  unfold RBuf.history
  rw [Spin.rrun_buf]
  have : (fun op : ROp X => op.tells) = Spin.dataOf := funext tells_eq
  rw [← this]; rfl

theorem toldBuffer_append (pre : List (ROp X)) (p q : List (FOp X)) :
    toldBuffer pre (p ++ q) = toldBuffer pre p ++ q.filterMap FOp.tells := by
  unfold toldBuffer
  rw [List.filterMap_append, List.append_assoc]

/-! ### What lasts -/

theorem Lasts.covered [Rigid X] {D : Duration} {told : List (Op X)} {t : Time} {n : Name} (hc : Op.clear ∉ told)
    (h : Lasts D told t n) : Covered D told t n := by
  have hr : ∀ m, m ∈ recentFor n told [] ↔ m ∈ (offersFor n told).map Prod.fst := by
    intro m; rw [recentFor_offers hc, List.nil_append]
  cases h with
  | @static m h h0 =>
    cases ho : offersFor n told with
    | nil => rw [ho] at h; cases h
    | cons x r =>
      have := h0 x (by rw [ho]; exact List.mem_cons_self)
      obtain ⟨m0, s⟩ := x
      simp only at this; subst this
      exact .inl ⟨m0, r, ho⟩
  | @moving m1 m2 h1 h2 h3 h4 h5 h6 h0 =>
    right
    constructor
    · cases ho : offersFor n told with
      | nil => rw [ho] at h1; cases h1
      | cons x r =>
        have := h0 x (by rw [ho]; exact List.mem_cons_self)
        obtain ⟨m0, s⟩ := x
        simp only at this; subst this
        exact ⟨m0, r, rfl⟩
    · refine ⟨m1, (hr _).2 (List.mem_map.2 ⟨_, h1, rfl⟩), m2, (hr _).2 (List.mem_map.2 ⟨_, h2, rfl⟩), h3, h4, ?_⟩
      intro a ha
      obtain ⟨x, hx, rfl⟩ := List.mem_map.1 ((hr _).1 ha)
      exact h5 x hx

theorem Lasts.stays [Rigid X] {D : Duration} {a c z : List (Op X)} {t : Time} {n : Name} (hcl : Op.clear ∉ a ++ c ++ z)
    (hs : Lasts D (a ++ c ++ z) t n) (hc : Covered D a t n) : Covered D (a ++ c) t n := by
  have hca : Op.clear ∉ a := fun h => hcl (by simp [h])
  have hcac : Op.clear ∉ a ++ c := fun h => hcl (List.mem_append_left _ h)
  have e1 : offersFor n (a ++ c) = offersFor n a ++ offersFor n c := offersFor_append n a c
  have e2 : offersFor n (a ++ c ++ z) = offersFor n (a ++ c) ++ offersFor n z := offersFor_append n _ _
  have hr : ∀ m, m ∈ recentFor n a [] ↔ m ∈ (offersFor n a).map Prod.fst := by
    intro m; rw [recentFor_offers hca, List.nil_append]
  have hr' : ∀ m, m ∈ recentFor n (a ++ c) [] ↔ m ∈ (offersFor n (a ++ c)).map Prod.fst := by
    intro m; rw [recentFor_offers hcac, List.nil_append]
  rcases hc with ⟨m0, r, h0⟩ | ⟨⟨m0, r, h0⟩, m1', hm1', m2', hm2', k1, k2, k3⟩
  · exact .inl ⟨m0, r ++ offersFor n c, by rw [e1, h0]; rfl⟩
  · cases hs with
    | static _ e =>
      exfalso
      have := e (m0, false) (by rw [e2, e1, h0]; simp)
      cases this
    | @moving m1 m2 h1 h2 h3 h4 h5 h6 e =>
      have sub : ∀ m, m ∈ recentFor n a [] → m ∈ recentFor n (a ++ c) [] := by
        intro m hm
        rw [hr', e1, List.map_append]
        exact List.mem_append_left _ ((hr m).1 hm)
      have all5 : ∀ m ∈ recentFor n (a ++ c) [], (m.stamp : Int) ≤ m1.stamp + D := by
        intro m hm
        obtain ⟨x, hx, rfl⟩ := List.mem_map.1 ((hr' m).1 hm)
        exact h5 x (by rw [e2]; exact List.mem_append_left _ hx)
      refine .inr ⟨⟨m0, r ++ offersFor n c, by rw [e1, h0]; rfl⟩, ?_⟩
      rcases Nat.lt_or_ge m1'.stamp m1.stamp with hlt | hge
      · by_cases hin : (m1, false) ∈ offersFor n (a ++ c)
        · exact ⟨m1, (hr' _).2 (List.mem_map.2 ⟨_, hin, rfl⟩), m2', sub _ hm2', h3, k2, all5⟩
        · rw [e2] at h1 h6
          have hq := (List.mem_append.1 h1).resolve_left hin
          obtain ⟨y, hy, hy2⟩ := List.mem_map.1 ((hr' m2').1 (sub _ hm2'))
          have hle := (List.pairwise_append.1 h6).2.2 y hy _ hq
          simp only at hle
          rw [hy2] at hle
          have hst : m2'.stamp = m1.stamp := Nat.le_antisymm hle (Nat.le_trans h3 k2)
          exact ⟨m2', sub _ hm2', m2', sub _ hm2', by omega, k2, fun m hm => by rw [hst]; exact all5 m hm⟩
      · exact ⟨m1', sub _ hm1', m2', sub _ hm2', k1, k2, fun m hm => by have := all5 m hm; omega⟩

theorem canTransform_self (b : Buf X) (f : Name) (t : Time) : b.canTransform f f t = .ok true := by
  unfold Buf.canTransform; rw [if_pos rfl]

section
variable [Rigid X] {D : Duration} {par : Name → Option Name} {depth : Name → Nat} {targets : List Name} {tol : Duration}
  {frame : Name} {stamp : Time}

theorem OnTime.available_iff {told a z : List (Op X)} (e : told = a ++ z) (h : OnTime D told par depth targets tol frame stamp)
    (hz : InterpZero X) (hl : LegalName frame) {t : Name} (ht : t ∈ targets) (hne : t ≠ frame) {tm : Time}
    (hw : WantedTime tol stamp tm) : ((Buf.init D).run a).canTransform t frame tm = .ok true ↔
      t ∈ mentions a ∧ frame ∈ mentions a ∧ ∃ c, UpTo par (Covered D a tm) frame c ∧ UpTo par (Covered D a tm) t c := by
  have hsub : ∀ x ∈ a, x ∈ told := fun x hx => by rw [e]; exact List.mem_append_left _ hx
  rw [C60_available (h.ordinary.of_mem hsub) hz (Spin.OneTree.of_mem h.tree hsub) (h.nonzero tm hw) hne (h.named.2 t ht).1
    h.named.1]
  exact ⟨fun ⟨_, _, h3⟩ => h3, fun h3 => ⟨(h.named.2 t ht).2, hl, h3⟩⟩

theorem OnTime.stays {told a c z : List (Op X)} (e : told = a ++ c ++ z) (h : OnTime D told par depth targets tol frame stamp)
    (hz : InterpZero X) (hl : LegalName frame) {t : Name} (ht : t ∈ targets) {tm : Time} (hw : WantedTime tol stamp tm)
    (hc : ((Buf.init D).run a).canTransform t frame tm = .ok true) :
    ((Buf.init D).run (a ++ c)).canTransform t frame tm = .ok true := by
  by_cases hne : t = frame
  · subst hne; exact canTransform_self _ _ _
  obtain ⟨h1, h2, c', k1, k2⟩ := (h.available_iff (by rw [e, List.append_assoc]) hz hl ht hne hw).1 hc
  have st : ∀ n, Lasts D told tm n → Covered D a tm n → Covered D (a ++ c) tm n := by
    intro n hn hcv
    have := h.noClear
    rw [e] at hn this
    exact hn.stays this hcv
  refine (h.available_iff e hz hl ht hne hw).2 ⟨?_, ?_, ?_⟩
  · rw [mentions_append]; exact List.mem_append_left _ h1
  · rw [mentions_append]; exact List.mem_append_left _ h2
  · obtain ⟨c0, s1, s2⟩ := h.ways t ht hne tm hw
    rcases Nat.le_total (depth c0) (depth c') with hd | hd
    · exact ⟨c', Spin.upTo_mono (fun n hn => st n hn.2 hn.1) (Spin.upTo_both h.tree.deeper k1 s1 hd),
        Spin.upTo_mono (fun n hn => st n hn.2 hn.1) (Spin.upTo_both h.tree.deeper k2 s2 hd)⟩
    · exact ⟨c0, Spin.upTo_mono (fun n hn => st n hn.1 hn.2) (Spin.upTo_both h.tree.deeper s1 k1 hd),
        Spin.upTo_mono (fun n hn => st n hn.1 hn.2) (Spin.upTo_both h.tree.deeper s2 k2 hd)⟩

theorem OnTime.young_all {told a z : List (Op X)} (e : told = a ++ z) (h : OnTime D told par depth targets tol frame stamp)
    {t : Name} {tm : Time} (hw : WantedTime tol stamp tm) : ¬ TooOld ((Buf.init D).run a) t frame tm := by
  rintro ⟨i, j, l, e', h1, h2, h3, h4, h5, h6⟩
  have hwf : WF D ((Buf.init D : Buf X).run a) := WF.run (WF.init D) a
  have hin : StampsIn (fun x => (x : Int) ≤ tm + D) ((Buf.init D : Buf X).run a) :=
    StampsIn.run a (WF.init D) (StampsIn.init _ D)
      (fun m au s hm hv => h.young m au s (by rw [e]; exact List.mem_append_left _ hm) hv tm hw)
  have hl : (l : Int) ≤ tm + D := (latestCommonTime_in hin h3).resolve_left h4
  rw [hwf.cacheTime] at h5
  unfold timeAdd at h5
  split at h5
  · injection h5 with h5; omega
  · cases h5

/-- At the end everything is there. -/
theorem OnTime.there {told : List (Op X)} (h : OnTime D told par depth targets tol frame stamp)
    (hz : InterpZero X) (hl : LegalName frame) {t : Name} (ht : t ∈ targets) {tm : Time} (hw : WantedTime tol stamp tm) :
    ((Buf.init D).run told).canTransform t frame tm = .ok true := by
  by_cases hne : t = frame
  · subst hne; exact canTransform_self _ _ _
  obtain ⟨c, k1, k2⟩ := h.ways t ht hne tm hw
  have c1 := Spin.upTo_mono (fun n hn => Lasts.covered h.noClear hn) k1
  have c2 := Spin.upTo_mono (fun n hn => Lasts.covered h.noClear hn) k2
  refine (h.available_iff (z := []) (by simp) hz hl ht hne hw).2 ⟨?_, ?_, c, c1, c2⟩
  · by_cases e : t = c
    · have := (Spin.mentions_of_upTo h.tree c1 (fun e' => hne (e.trans e'.symm))).2
      rwa [e]
    · exact (Spin.mentions_of_upTo h.tree c2 e).1
  · by_cases e : frame = c
    · have := (Spin.mentions_of_upTo h.tree c2 (fun e' => hne (e'.trans e.symm))).2
      rwa [e]
    · exact (Spin.mentions_of_upTo h.tree c1 e).1

end

end Tf2
