import Verif.Proofs.Arrival
import Verif.Props.Complement

/-!
# C96: a caller that waits gets the transform if what it needs arrives in time
-/
namespace Tf2.Spin

variable {X : Type}

/-! ### From the topics to the buffer -/

/-- C96. Every transform in a message that arrived has been given to the buffer when the thread has made `402 (L + 2) + 3`
further steps (messages of at most `L` transforms; nothing pushed out, no exception, not destroyed). More may arrive all
the time. -/
theorem C96_arrives [Rigid X] (D : Duration) (L : Nat) (ops later : List (Op X)) (st : Bool)
    (hL : ∀ st p, Op.arrive st p ∈ ops ++ later → p.msgs.length ≤ L)
    (hn : 402 * (L + 2) + 3 ≤ threadSteps later) (hd : Op.destroy ∉ ops ++ later)
    (he : LEv.escaped ∉ inner (history D (ops ++ later)).2) (hk : dropped st (history D (ops ++ later)).2 = [])
    (p : Packet X) (hp : p ∈ arrived st (history D ops).2) (m : Msg X) (hm : m ∈ p.msgs) :
    LEv.did (.set m p.auth st) ∈ inner (history D (ops ++ later)).2 := by
  obtain ⟨l1, l2, rfl, hl1, hl2⟩ := split_steps later (401 * (L + 2) + 3) (by omega)
  rw [← List.append_assoc] at hL hd he hk ⊢
  have hL1 : ∀ st p, Op.arrive st p ∈ ops ++ l1 → p.msgs.length ≤ L := fun st p h => hL st p (List.mem_append_left _ h)
  have hrun := history_append D (ops ++ l1) l2
  rw [hrun] at he hk ⊢
  dsimp only at he hk ⊢
  rw [inner_append] at he ⊢
  rw [dropped_append] at hk
  have he1 : LEv.escaped ∉ inner (history D (ops ++ l1)).2 := fun h => he (List.mem_append_left _ h)
  obtain ⟨more, h1, h2⟩ := C90_live D L ops l1 st hL1 (by omega) (fun h => hd (List.mem_append_left _ h)) he1
  rw [(List.append_eq_nil_iff.1 hk).1, List.append_nil] at h2
  have h3 : p ∈ handled st (history D (ops ++ l1)).2 := h2.subset (List.mem_append_left _ hp)
  obtain ⟨now, h4⟩ := (mem_handled st _ p).1 h3
  -- a call due
  have due : ∀ (l : List (LEv X)) (last : Time), LEv.received now p.msgs p.auth st ∈ l →
      ROp.set m p.auth st ∈ callsDue last l := by
    intro l
    induction l with
    | nil => intro _ h; cases h
    | cons e r ih =>
      intro last h
      rcases List.mem_cons.1 h with rfl | h'
      · simp only [callsDue, callsOf]
        exact List.mem_append_left _ (List.mem_append_right _ (List.mem_map.2 ⟨m, hm, rfl⟩))
      · cases e with
        | received => exact List.mem_append_right _ (ih _ h')
        | _ => exact ih _ h'
  have didOf : ∀ l : List (LEv X), ROp.set m p.auth st ∈ listenerCalls l → LEv.did (.set m p.auth st) ∈ l := by
    intro l
    induction l with
    | nil => intro h; cases h
    | cons e r ih =>
      intro h
      cases e with
      | did op =>
        rcases List.mem_cons.1 h with rfl | h
        · exact List.mem_cons_self
        · exact List.mem_cons_of_mem _ (ih h)
      | _ => exact List.mem_cons_of_mem _ (ih h)
  have h5 := due _ 0 h4
  rw [← (C90_calls D (ops ++ l1)).1 he1, List.mem_append] at h5
  rcases h5 with h5 | h5
  · exact List.mem_append_left _ (didOf _ h5)
  · refine List.mem_append_right _ (didOf _ (gives_all l2 (inv_history D (ops ++ l1))
      (fun h => he (List.mem_append_right _ h)) ?_ h5))
    have := (small_history D L (ops ++ l1) hL1).curCost_le
    omega

/-! ### From the buffer to the answer -/

/-- What the buffer was given is what arrived. -/
theorem Working.data_arrived [Rigid X] {D : Duration} {a c : List (Op X)} (h : Working D (a ++ c)) (x : Tf2.Op X)
    (hx : x ∈ dataCalls (history D a).2) : x ∈ deliveries (history D (a ++ c)).2 := by
  have ha := h.before
  have hr := hx
  unfold dataCalls at hr
  rw [List.mem_filterMap] at hr
  obtain ⟨r, hr, hxr⟩ := hr
  cases x with
  | clear => exact absurd hx ha.noClears
  | set m au st =>
    have h0 : (0 :: clocks (inner (history D a).2)).Pairwise (· ≤ ·) :=
      List.pairwise_cons.2 ⟨fun _ _ => Nat.zero_le _, ha.clock⟩
    cases r with
    | set m' au' st' =>
      cases hxr
      rw [mem_bufferCalls] at hr
      rcases hr with hr | hr
      · have : ROp.set m au st ∈ callsDue 0 (inner (history D a).2) := by
          rw [← (C90_calls D a).1 ha.fine]; exact List.mem_append_left _ hr
        obtain ⟨now, ms, a', st', m', h1, h2, e⟩ := (mem_callsDue 0 _ h0 _).1 this
        cases e
        have h3 : (⟨ms, au⟩ : Packet X) ∈ handled st (history D a).2 := (mem_handled _ _ _).2 ⟨now, h1⟩
        have h4 := (ha.handled_prefix st).subset h3
        have h5 : (⟨ms, au⟩ : Packet X) ∈ arrived st (history D (a ++ c)).2 := by
          rw [history_append]; dsimp only; rw [arrived_append]; exact List.mem_append_left _ h4
        have h6 : Tf2.Op.set m au st ∈ deliveriesOn st (history D (a ++ c)).2 :=
          List.mem_flatMap.2 ⟨_, h5, List.mem_map.2 ⟨m, h2, rfl⟩⟩
        unfold deliveries
        cases st
        · exact List.mem_append_left _ h6
        · exact List.mem_append_right _ h6
      · exact absurd hr (ha.noSet m au st)
    | clear => cases hxr
    | _ => cases hxr

theorem OneTree.of_mem [Rigid X] {ops ops' : List (Tf2.Op X)} {par : Name → Option Name} {depth : Name → Nat}
    (h : OneTree ops par depth) (hs : ∀ x ∈ ops', x ∈ ops) : OneTree ops' par depth :=
  ⟨fun m a s hm => h.agrees m a s (hs _ hm), h.deeper, h.bound, h.named⟩

/-- The story of one listener: it works through `ops`, the last `later` steps of which come after `mid`. -/
theorem Served.covered [Rigid X] {D : Duration} {ops : List (Op X)} {early : List (Ev X)} {t : Time} {n : Name}
    (h : Working D ops) (hs : Served D early (history D ops).2 t n)
    (hgot : ∀ m st, m ∈ arrivedFor st early n → (m, st) ∈ offersFor n (dataCalls (history D ops).2)) :
    Covered D (dataCalls (history D ops).2) t n := by
  cases hs with
  | @static m h1 h0 =>
    have h2 := hgot m true h1
    cases ho : offersFor n (dataCalls (history D ops).2) with
    | nil => rw [ho] at h2; cases h2
    | cons x r =>
      obtain ⟨m0, s⟩ := x
      cases s with
      | true => exact .inl ⟨m0, r, ho⟩
      | false =>
        exfalso
        have h3 := h.offer_arrived (n := n) (m := m0) (s := false) (by rw [ho]; exact List.mem_cons_self)
        rw [h0] at h3; cases h3
  | @moving m1 m2 h1 h2 h3 h4 h5 h6 h0 =>
    have g1 := hgot m1 false h1
    have g2 := hgot m2 false h2
    have hr : ∀ m, m ∈ recentFor n (dataCalls (history D ops).2) [] ↔
        m ∈ (offersFor n (dataCalls (history D ops).2)).map Prod.fst := by
      intro m; rw [recentFor_offers h.noClears, List.nil_append]
    right
    constructor
    · cases ho : offersFor n (dataCalls (history D ops).2) with
      | nil => rw [ho] at g1; cases g1
      | cons x r =>
        obtain ⟨m0, s⟩ := x
        cases s with
        | false => exact ⟨m0, r, rfl⟩
        | true =>
          exfalso
          have h3 := h.offer_arrived (n := n) (m := m0) (s := true) (by rw [ho]; exact List.mem_cons_self)
          rw [h0] at h3; cases h3
    · refine ⟨m1, (hr _).2 (List.mem_map.2 ⟨_, g1, rfl⟩), m2, (hr _).2 (List.mem_map.2 ⟨_, g2, rfl⟩), h3, h4,
        fun a ha => h5 a ?_⟩
      exact (h.offers_moving h0).subset ((hr _).1 ha)

theorem Served.less [Rigid X] {D : Duration} {a z : List (Op X)} {early : List (Ev X)} {t : Time} {n : Name}
    (hs : Served D early (history D (a ++ z)).2 t n) : Served D early (history D a).2 t n := by
  rw [history_append] at hs
  dsimp only at hs
  have hpre : ∀ st, arrivedFor st (history D a).2 n <+: arrivedFor st ((history D a).2 ++ (St.run z (history D a).1).2) n :=
    fun st => by rw [arrivedFor_append]; exact List.prefix_append _ _
  cases hs with
  | static h h0 => exact .static h (List.prefix_nil.1 (h0 ▸ hpre false))
  | moving h1 h2 h3 h4 h5 h6 h0 =>
    exact .moving h1 h2 h3 h4 (fun m hm => h5 m ((hpre false).subset hm)) (h6.sublist (hpre false).sublist)
      (List.prefix_nil.1 (h0 ▸ hpre true))

/-- What could be used stays usable for a frame that is published properly. -/
theorem Served.stays [Rigid X] {D : Duration} {a c z : List (Op X)} {early : List (Ev X)} {t : Time} {n : Name}
    (h : Working D (a ++ c ++ z)) (hs : Served D early (history D (a ++ c ++ z)).2 t n)
    (hearly : ∀ m ∈ arrivedFor false early n, m ∈ arrivedFor false (history D (a ++ c ++ z)).2 n)
    (hc : Covered D (dataCalls (history D a).2) t n) : Covered D (dataCalls (history D (a ++ c)).2) t n := by
  have hac := h.before
  have ha := hac.before
  have grow : ∀ (p q : List (Op X)) (st : Bool), arrivedFor st (history D p).2 n <+: arrivedFor st (history D (p ++ q)).2 n := by
    intro p q st
    rw [history_append]; dsimp only; rw [arrivedFor_append]; exact List.prefix_append _ _
  obtain ⟨o, ho⟩ : ∃ o, offersFor n (dataCalls (history D (a ++ c)).2) = offersFor n (dataCalls (history D a).2) ++ o := by
    rw [history_append D a c]; dsimp only
    rw [dataCalls_append, offersFor_append]
    exact ⟨_, rfl⟩
  have hr : ∀ m, m ∈ recentFor n (dataCalls (history D a).2) [] ↔
      m ∈ (offersFor n (dataCalls (history D a).2)).map Prod.fst := by
    intro m; rw [recentFor_offers ha.noClears, List.nil_append]
  have hr' : ∀ m, m ∈ recentFor n (dataCalls (history D (a ++ c)).2) [] ↔
      m ∈ (offersFor n (dataCalls (history D (a ++ c)).2)).map Prod.fst := by
    intro m; rw [recentFor_offers hac.noClears, List.nil_append]
  rcases hc with ⟨m0, r, h0⟩ | ⟨⟨m0, r, h0⟩, m1', hm1', m2', hm2', k1, k2, k3⟩
  · exact .inl ⟨m0, r ++ o, by rw [ho, h0]; rfl⟩
  · cases hs with
    | static _ e =>
      exfalso
      have h3 := ha.offer_arrived (n := n) (m := m0) (s := false) (by rw [h0]; exact List.mem_cons_self)
      have := (grow _ z false).subset ((grow a c false).subset h3)
      rw [e] at this; cases this
    | @moving m1 m2 h1 h2 h3 h4 h5 h6 e =>
      have e1 : arrivedFor true (history D (a ++ c)).2 n = [] := List.prefix_nil.1 (e ▸ grow (a ++ c) z true)
      have hpre := (hac.offers_moving e1).trans (grow (a ++ c) z false)
      have sub : ∀ m, m ∈ recentFor n (dataCalls (history D a).2) [] →
          m ∈ recentFor n (dataCalls (history D (a ++ c)).2) [] := by
        intro m hm
        rw [hr', ho, List.map_append]
        exact List.mem_append_left _ ((hr m).1 hm)
      have all5 : ∀ m ∈ recentFor n (dataCalls (history D (a ++ c)).2) [], (m.stamp : Int) ≤ m1.stamp + D :=
        fun m hm => h5 m (hpre.subset ((hr' m).1 hm))
      refine .inr ⟨⟨m0, r ++ o, by rw [ho, h0]; rfl⟩, ?_⟩
      rcases Nat.lt_or_ge m1'.stamp m1.stamp with hlt | hge
      · by_cases hin : m1 ∈ (offersFor n (dataCalls (history D (a ++ c)).2)).map Prod.fst
        · exact ⟨m1, (hr' _).2 hin, m2', sub _ hm2', h3, k2, all5⟩
        · obtain ⟨q, hq⟩ := hpre
          have hm1 := hearly m1 h1
          rw [← hq] at h6 hm1
          have hmq : m1 ∈ q := (List.mem_append.1 hm1).resolve_left hin
          have hle := (List.pairwise_append.1 h6).2.2 m2' ((hr' _).1 (sub _ hm2')) m1 hmq
          have hst : m2'.stamp = m1.stamp := Nat.le_antisymm hle (Nat.le_trans h3 k2)
          exact ⟨m2', sub _ hm2', m2', sub _ hm2', by omega, k2, fun m hm => by rw [hst]; exact all5 m hm⟩
      · exact ⟨m1', sub _ hm1', m2', sub _ hm2', k1, k2, fun m hm => by have := all5 m hm; omega⟩

/-- A frame with data was mentioned, and so was its parent. -/
theorem mentions_of_upTo [Rigid X] {D : Duration} {ops : List (Tf2.Op X)} {t : Time} {par : Name → Option Name}
    {depth : Name → Nat} (hT : OneTree ops par depth) {a c : Name} (h : UpTo par (Covered D ops t) a c) (hne : a ≠ c) :
    a ∈ mentions ops ∧ c ∈ mentions ops := by
  have offer : ∀ {n p : Name}, Covered D ops t n → par n = some p → n ∈ mentions ops ∧ p ∈ mentions ops := by
    intro n p hc hp
    have : ∃ m s, (m, s) ∈ offersFor n ops := by
      rcases hc with ⟨m0, r, h0⟩ | ⟨⟨m0, r, h0⟩, -⟩
      · exact ⟨m0, true, by rw [h0]; exact List.mem_cons_self⟩
      · exact ⟨m0, false, by rw [h0]; exact List.mem_cons_self⟩
    obtain ⟨m, s, hm⟩ := this
    obtain ⟨h1, h2, h3, h4⟩ := offersFor_mentions hm
    obtain ⟨⟨au, ha⟩, hv, hcn⟩ := offersFor_mem hm
    have := hT.agrees _ _ _ ha hv
    rw [hcn, hp] at this
    injection this with this
    exact ⟨h1, this ▸ h2⟩
  induction h with
  | refl => exact absurd rfl hne
  | @snoc c p hu hp hc ih =>
    by_cases e : a = c
    · subst e; exact offer hc hp
    · exact ⟨(ih e).1, (offer hc hp).2⟩

theorem take_take_split (ops : List (Op X)) {a b : Nat} (h : a ≤ b) :
    ∃ c z, ops.take b = ops.take a ++ c ∧ ops = ops.take a ++ c ++ z := by
  refine ⟨(ops.take b).drop a, ops.drop b, ?_, ?_⟩
  · have := List.take_append_drop a (ops.take b)
    rw [List.take_take, Nat.min_eq_left h] at this
    exact this.symm
  · have h1 := List.take_append_drop a (ops.take b)
    rw [List.take_take, Nat.min_eq_left h] at h1
    rw [h1, List.take_append_drop]

section
variable [Rigid X] {D : Duration} {ops : List (Op X)} {i : Nat} {par : Name → Option Name} {depth : Name → Nat}
  {target source : Name} {t : Time}

theorem InTime.data_sub (h : InTime D ops i par depth target source t) (a : Nat) :
    ∀ x ∈ dataCalls (history D (ops.take a)).2, x ∈ deliveries (history D ops).2 := by
  intro x hx
  have hw := h.working
  rw [← List.take_append_drop a ops] at hw
  have := hw.data_arrived x hx
  rwa [List.take_append_drop] at this

theorem InTime.available_iff (h : InTime D ops i par depth target source t) (hz : InterpZero X) (a : Nat) :
    (history D (ops.take a)).1.lis.rb.buf.canTransform target source t = .ok true ↔
      target ∈ mentions (dataCalls (history D (ops.take a)).2) ∧ source ∈ mentions (dataCalls (history D (ops.take a)).2) ∧
      ∃ c, UpTo par (Covered D (dataCalls (history D (ops.take a)).2) t) source c ∧
        UpTo par (Covered D (dataCalls (history D (ops.take a)).2) t) target c := by
  have hsub := h.data_sub a
  rw [buffer_eq]
  rw [show (bufferCalls (inner (history D (ops.take a)).2)).filterMap dataOf = dataCalls (history D (ops.take a)).2 from rfl,
    C60_available (h.ordinary.of_mem hsub) hz (OneTree.of_mem h.tree hsub) h.time h.different h.target.2 h.source.2]
  exact ⟨fun ⟨_, _, h3⟩ => h3, fun h3 => ⟨h.target.1, h.source.1, h3⟩⟩

/-- C96. Once the transform is available it stays so: whatever else arrives. -/
theorem C96_stays (h : InTime D ops i par depth target source t) (hz : InterpZero X) {a b : Nat} (hab : a ≤ b)
    (hc : (history D (ops.take a)).1.lis.rb.buf.canTransform target source t = .ok true) :
    (history D (ops.take b)).1.lis.rb.buf.canTransform target source t = .ok true := by
  obtain ⟨c, z, e1, e2⟩ := take_take_split ops hab
  have hw := h.working
  have hearly : ∀ n, ∀ m ∈ arrivedFor false (history D (ops.take i)).2 n, m ∈ arrivedFor false (history D ops).2 n := by
    intro n m hm
    have := history_append D (ops.take i) (ops.drop i)
    rw [List.take_append_drop] at this
    rw [this]; dsimp only
    rw [arrivedFor_append]; exact List.mem_append_left _ hm
  have stays : ∀ n, Served D (history D (ops.take i)).2 (history D ops).2 t n →
      Covered D (dataCalls (history D (ops.take a)).2) t n → Covered D (dataCalls (history D (ops.take b)).2) t n := by
    intro n hs hcv
    rw [e1]
    have he := hearly n
    rw [e2] at hw
    have e3 : (history D ops).2 = (history D (ops.take a ++ c ++ z)).2 := congrArg (fun l => (history D l).2) e2
    rw [e3] at hs he
    exact hs.stays hw he hcv
  obtain ⟨h1, h2, c', k1, k2⟩ := (h.available_iff hz a).1 hc
  refine (h.available_iff hz b).2 ⟨?_, ?_, ?_⟩
  · rw [e1, history_append]; dsimp only
    rw [dataCalls_append, mentions_append]; exact List.mem_append_left _ h1
  · rw [e1, history_append]; dsimp only
    rw [dataCalls_append, mentions_append]; exact List.mem_append_left _ h2
  · obtain ⟨c0, s1, s2⟩ := h.served
    rcases Nat.le_total (depth c0) (depth c') with hd | hd
    · exact ⟨c', upTo_mono (fun n hn => stays n hn.2 hn.1) (upTo_both h.tree.deeper k1 s1 hd),
        upTo_mono (fun n hn => stays n hn.2 hn.1) (upTo_both h.tree.deeper k2 s2 hd)⟩
    · exact ⟨c0, upTo_mono (fun n hn => stays n hn.1 hn.2) (upTo_both h.tree.deeper s1 k1 hd),
        upTo_mono (fun n hn => stays n hn.1 hn.2) (upTo_both h.tree.deeper s2 k2 hd)⟩

/-- C96. `402 (L + 2) + 3` steps of the thread after the last message that is needed arrived the transform is available. -/
theorem C96_available (h : InTime D ops i par depth target source t) (hz : InterpZero X) {L k : Nat} (hik : i ≤ k)
    (hL : ∀ st p, Op.arrive st p ∈ ops → p.msgs.length ≤ L)
    (hn : 402 * (L + 2) + 3 ≤ threadSteps ((ops.take k).drop i)) :
    (history D (ops.take k)).1.lis.rb.buf.canTransform target source t = .ok true := by
  obtain ⟨c, z, e1, e2⟩ := take_take_split ops hik
  have hw := h.working
  have hwk : Working D (ops.take k) := by
    rw [← List.take_append_drop k ops] at hw
    exact hw.before
  have hi : (ops.take k).drop i = c ∨ i ≥ ops.length := by
    rcases Nat.lt_or_ge i ops.length with hlt | hge
    · left
      rw [e1, List.drop_append_of_le_length (by rw [List.length_take]; omega), List.drop_take_self, List.nil_append]
    · exact .inr hge
  have hc : 402 * (L + 2) + 3 ≤ threadSteps c := by
    rcases hi with hi | hi
    · rw [hi] at hn; exact hn
    · rw [List.drop_eq_nil_of_le (by rw [List.length_take]; omega)] at hn
      simp [threadSteps] at hn
  have hLk : ∀ st p, Op.arrive st p ∈ ops.take i ++ c → p.msgs.length ≤ L :=
    fun st p hp => hL st p (by rw [e2]; exact List.mem_append_left _ hp)
  have hgot : ∀ n m st, m ∈ arrivedFor st (history D (ops.take i)).2 n →
      (m, st) ∈ offersFor n (dataCalls (history D (ops.take k)).2) := by
    intro n m st hm
    obtain ⟨h3, h4⟩ := List.mem_filter.1 hm
    obtain ⟨p, hp, hmp⟩ := List.mem_flatMap.1 h3
    have h4 : ValidMsg m ∧ stripSlash m.child = n := by simpa using h4
    rw [e1] at hwk ⊢
    have h5 := C96_arrives D L (ops.take i) c st hLk hc hwk.alive hwk.fine (hwk.kept st) p hp m hmp
    refine offersFor_iff.2 ⟨⟨⟨p.auth, ?_⟩, h4.1⟩, h4.2⟩
    refine List.mem_filterMap.2 ⟨.set m p.auth st, ?_, rfl⟩
    revert h5
    generalize inner (history D (ops.take i ++ c)).2 = l
    intro h5
    induction l with
    | nil => cases h5
    | cons e r ih =>
      rcases List.mem_cons.1 h5 with rfl | h5
      · exact List.mem_cons_self
      · have := ih h5
        cases e with
        | did => exact List.mem_cons_of_mem _ this
        | other => exact List.mem_cons_of_mem _ this
        | _ => exact this
  have cover : ∀ n, Served D (history D (ops.take i)).2 (history D ops).2 t n →
      Covered D (dataCalls (history D (ops.take k)).2) t n := by
    intro n hs
    rw [← List.take_append_drop k ops] at hs
    have hs' := hs.less
    rw [List.take_append_drop] at hs'
    exact hs'.covered hwk (hgot n)
  obtain ⟨c0, s1, s2⟩ := h.served
  have u1 := upTo_mono cover s1
  have u2 := upTo_mono cover s2
  have hT := OneTree.of_mem h.tree (h.data_sub k)
  have hne := h.different
  refine (h.available_iff hz k).2 ⟨?_, ?_, c0, u1, u2⟩
  · by_cases e : target = c0
    · have := (mentions_of_upTo hT u1 (fun e' => hne (e.trans e'.symm))).2
      rwa [e]
    · exact (mentions_of_upTo hT u2 e).1
  · by_cases e : source = c0
    · have := (mentions_of_upTo hT u2 (fun e' => hne (e'.trans e.symm))).2
      rwa [e]
    · exact (mentions_of_upTo hT u1 e).1

/-! ### The caller -/

theorem Sees.mono {W : Nat → World X} {f : Nat → Nat} (h : Sees D ops f W) {m n : Nat} (hmn : m ≤ n) : f m ≤ f n := by
  obtain ⟨d, rfl⟩ := Nat.exists_eq_add_of_le hmn
  induction d with
  | zero => exact Nat.le_refl _
  | succ d ih => exact Nat.le_trans (ih (Nat.le_add_right _ _)) (h.order _)

theorem Sees.reachable {W : Nat → World X} {f : Nat → Nat} (h : Sees D ops f W) (n : Nat) : Reachable D (W n).buf := by
  rw [h.buf, buffer_eq]; exact ⟨_, rfl⟩

/-- After the steps it is available for good. -/
theorem InTime.after (h : InTime D ops i par depth target source t) (hz : InterpZero X) {L k : Nat} (hik : i ≤ k)
    (hL : ∀ st p, Op.arrive st p ∈ ops → p.msgs.length ≤ L)
    (hn : 402 * (L + 2) + 3 ≤ threadSteps ((ops.take k).drop i)) {W : Nat → World X} {f : Nat → Nat}
    (hs : Sees D ops f W) {n : Nat} (hk : k ≤ f n) : (W n).buf.canTransform target source t = .ok true := by
  rw [hs.buf]
  exact C96_stays h hz hk (C96_available h hz hik hL hn)

/-- The last check of a wait says yes, for a goal that stays available and is available after `k`. -/
theorem stops_available {W : Nat → World X} {f : Nat → Nat} (hs : Sees D ops f W) {g : Goal} {k : Nat}
    (stay : ∀ m n, m ≤ n → g.can (W m).buf = .ok true → g.can (W n).buf = .ok true)
    (after : ∀ n, k ≤ f n → g.can (W n).buf = .ok true) {e : Time}
    (he : timeAdd (W 0).now g.timeout = some e) (hlate : ∀ n, e ≤ (W n).now → k ≤ f n) {j m : Nat}
    (hp : PollStops g W (W 0).now j m) {n : Nat} (hmn : m ≤ n) : m ≤ 5 * j + 2 ∧ g.can (W n).buf = .ok true := by
  cases hp with
  | @deadline e' h1 h2 =>
    have : e' = e := by rw [he] at h1; injection h1 with h1; exact h1.symm
    subst this
    exact ⟨by omega, after n (Nat.le_trans (hlate _ h2) (hs.mono hmn))⟩
  | @available e' h1 h2 h3 => exact ⟨Nat.le_refl _, stay _ _ hmn h3⟩
  | @jump e' e3 h1 h2 h3 h4 h5 =>
    obtain ⟨e4, k1, k2⟩ := hs.clock (5 * j + 3)
    rw [h4] at k1; injection k1 with k1
    omega
  | down h1 h2 h3 h4 h5 h6 => rw [hs.up] at h6; cases h6

theorem wait_available {W : Nat → World X} {f : Nat → Nat} (hs : Sees D ops f W) {g : Goal} {k : Nat}
    (stay : ∀ m n, m ≤ n → g.can (W m).buf = .ok true → g.can (W n).buf = .ok true)
    (after : ∀ n, k ≤ f n → g.can (W n).buf = .ok true) {e : Time}
    (he : timeAdd (W 0).now g.timeout = some e) (hlate : ∀ n, e ≤ (W n).now → k ≤ f n) :
    (∀ errstr n v, wait g true errstr W n = .returned v → v = true) ∧
    ∀ N, k ≤ f N → wait g true false W (N + 6) = .returned true := by
  constructor
  · intro errstr n v hv
    obtain ⟨j, m, -, h2, -, h4⟩ := C44_returned _ errstr W hs.reachable n v hv
    have h5 := (stops_available hs stay after he hlate h2 (Nat.le_succ m)).2
    rw [h5] at h4; injection h4 with h4; exact h4.symm
  · intro N hN
    rcases rounds_cases (g := g) (errstr := false) hs.reachable ((N + 2) / 5 + 1) with
      hsl | ⟨j, hj, hsl, ⟨m, hm⟩ | ⟨h1, -⟩ | ⟨h1, -⟩⟩
    · exfalso
      have h1 := (hsl ((N + 2) / 5) (Nat.lt_succ_self _)).2.1
      rw [after _ (Nat.le_trans hN (hs.mono (by omega)))] at h1
      cases h1
    · obtain ⟨h1, h2⟩ := stops_available hs stay after he hlate hm (Nat.le_succ m)
      obtain ⟨v, h3, h4⟩ := C44_stops _ W hs.reachable j m hsl hm
      rw [h2] at h3; injection h3 with h3
      have h5 := h4 (N + 6 - (m + 2))
      rw [show m + 2 + (N + 6 - (m + 2)) = N + 6 by omega] at h5
      rw [h5, h3]
    · rw [he] at h1; cases h1
    · obtain ⟨e4, k1, -⟩ := hs.clock (5 * j + 3)
      rw [h1] at k1; cases k1

/-- The blocking lookup follows the wait. -/
theorem lookup_available {W : Nat → World X} {f : Nat → Nat} (hs : Sees D ops f W) {g : Goal} {k : Nat}
    (stay : ∀ m n, m ≤ n → g.can (W m).buf = .ok true → g.can (W n).buf = .ok true)
    (after : ∀ n, k ≤ f n → g.can (W n).buf = .ok true) {e : Time}
    (he : timeAdd (W 0).now g.timeout = some e) (hlate : ∀ n, e ≤ (W n).now → k ≤ f n) {N : Nat} (hN : k ≤ f N) :
    ∃ q ≤ N + 6, g.can (W q).buf = .ok true ∧ g.can (W (q + 1)).buf = .ok true ∧
      blockingLookup g true W (N + 8) = .done (g.lookupOver (W q).buf (W (q + 1)).buf) := by
  obtain ⟨hw1, hw2⟩ := wait_available hs stay after he hlate
  have hw2 := hw2 N hN
  -- the first moment the wait has ended
  have first : ∀ n, (∀ j < n, ¬ (wait g true false W j).Ended) ∨
      ∃ q < n, (wait g true false W q).Ended ∧ ∀ j < q, ¬ (wait g true false W j).Ended := by
    intro n
    induction n with
    | zero => exact .inl fun j hj => absurd hj (Nat.not_lt_zero j)
    | succ n ih =>
      rcases ih with ih | ⟨q, h1, h2⟩
      · by_cases hn : (wait g true false W n).Ended
        · exact .inr ⟨n, Nat.lt_succ_self n, hn, ih⟩
        · refine .inl fun j hj => ?_
          rcases Nat.lt_succ_iff_lt_or_eq.1 hj with hj | rfl
          · exact ih j hj
          · exact hn
      · exact .inr ⟨q, Nat.lt_succ_of_lt h1, h2⟩
  obtain ⟨q, hq, hend, hbefore⟩ : ∃ q < N + 7, (wait g true false W q).Ended ∧
      ∀ j < q, ¬ (wait g true false W j).Ended := by
    rcases first (N + 7) with h1 | h1
    · exact absurd (by rw [hw2]; trivial) (h1 (N + 6) (by omega))
    · exact h1
  have hret : wait g true false W q = .returned true := by
    have := ended_stays hend (N + 6 - q)
    rw [show q + (N + 6 - q) = N + 6 by omega, hw2] at this
    exact this.symm
  obtain ⟨j, m, -, h2, hm, -⟩ := C44_returned _ false W hs.reachable q true hret
  have hcan := (stops_available hs stay after he hlate h2 (n := q) (by omega)).2
  have hbl : ∀ n ≤ q, blockingLookup g true W n = .waiting (wait g true false W n) := by
    intro n
    induction n with
    | zero => intro _; rfl
    | succ n ih =>
      intro hle
      have h1 := ih (by omega)
      have h2 := hbefore n hle
      show bstep _ true (W n) (blockingLookup _ true W n) = .waiting (wstep _ true false (W n) (wait _ true false W n))
      rw [h1]
      generalize wait g true false W n = p at h2
      cases p <;> first | rfl | exact absurd trivial h2
  have hstay : ∀ d n r, blockingLookup g true W n = .done r → blockingLookup g true W (n + d) = .done r := by
    intro d n r h
    induction d with
    | zero => exact h
    | succ d ih =>
      show bstep _ true (W (n + d)) (blockingLookup _ true W (n + d)) = _
      rw [ih]; rfl
  refine ⟨q, by omega, hcan, stay _ _ (Nat.le_succ q) hcan, ?_⟩
  have h1 : blockingLookup g true W (q + 1) = match g.look1 (W q).buf with
      | .inl r => .done r
      | .inr m1 => .second m1 := by
    show bstep _ true (W q) (blockingLookup _ true W q) = _
    rw [hbl q (Nat.le_refl _), hret]
    rfl
  have h2 : blockingLookup g true W (q + 2) = .done (g.lookupOver (W q).buf (W (q + 1)).buf) := by
    show bstep _ true (W (q + 1)) (blockingLookup _ true W (q + 1)) = _
    rw [h1]
    unfold Goal.lookupOver
    cases g.look1 (W q).buf <;> rfl
  have := hstay (N + 8 - (q + 2)) (q + 2) _ h2
  rwa [show q + 2 + (N + 8 - (q + 2)) = N + 8 by omega] at this

theorem InTime.stay (h : InTime D ops i par depth target source t) (hz : InterpZero X) {W : Nat → World X} {f : Nat → Nat}
    (hs : Sees D ops f W) {m n : Nat} (hmn : m ≤ n) (hc : (W m).buf.canTransform target source t = .ok true) :
    (W n).buf.canTransform target source t = .ok true := by
  rw [hs.buf] at hc ⊢
  exact C96_stays h hz (hs.mono hmn) hc

/-- C96. A caller that waits: if the deadline does not pass before the `402 (L + 2) + 3` steps of the thread after the last
message that is needed arrived are done, the wait does not end with `false`; and when those steps are done it ends, with
`true`, within six steps of the caller. -/
theorem C96_wait (h : InTime D ops i par depth target source t) (hz : InterpZero X) {L k : Nat} (hik : i ≤ k)
    (hL : ∀ st p, Op.arrive st p ∈ ops → p.msgs.length ≤ L)
    (hn : 402 * (L + 2) + 3 ≤ threadSteps ((ops.take k).drop i))
    {W : Nat → World X} {f : Nat → Nat} (hs : Sees D ops f W) {timeout : Duration} {e : Time}
    (he : timeAdd (W 0).now timeout = some e) (hlate : ∀ n, e ≤ (W n).now → k ≤ f n) :
    (∀ errstr n v, wait (simpleGoal target source t timeout) true errstr W n = .returned v → v = true) ∧
    ∀ N, k ≤ f N → wait (simpleGoal target source t timeout) true false W (N + 6) = .returned true :=
  wait_available (g := simpleGoal target source t timeout) hs (fun _ _ hmn hc => h.stay hz hs hmn hc)
    (fun _ hk => h.after hz hik hL hn hs hk) he hlate

/-- C96. The same for a lookup that waits: it ends with the transform. -/
theorem C96_lookup (h : InTime D ops i par depth target source t) (hz : InterpZero X) {L k : Nat} (hik : i ≤ k)
    (hL : ∀ st p, Op.arrive st p ∈ ops → p.msgs.length ≤ L)
    (hn : 402 * (L + 2) + 3 ≤ threadSteps ((ops.take k).drop i))
    {W : Nat → World X} {f : Nat → Nat} (hs : Sees D ops f W) {timeout : Duration} {e : Time}
    (he : timeAdd (W 0).now timeout = some e) (hlate : ∀ n, e ≤ (W n).now → k ≤ f n) {N : Nat} (hN : k ≤ f N) :
    ∃ q ≤ N + 6, ∃ m, (W q).buf.lookupTransform target source t = .ok m ∧
      blockingLookup (simpleGoal target source t timeout) true W (N + 8) = .done (.ok m) := by
  obtain ⟨q, hq, hc, -, hb⟩ := lookup_available (g := simpleGoal target source t timeout) hs
    (fun _ _ hmn hc => h.stay hz hs hmn hc) (fun _ hk => h.after hz hik hL hn hs hk) he hlate hN
  have hcan : (W q).buf.canTransform target source t = .ok true := hc
  obtain ⟨v, hv, hiff⟩ := C13_canTransform_iff (hs.reachable q) target source t
  rw [hcan] at hv; injection hv with hv
  obtain ⟨r, hr⟩ := hiff.1 hv.symm
  refine ⟨q, hq, r, hr, ?_⟩
  rw [hb]
  unfold Goal.lookupOver Goal.look1
  simp only [simpleGoal, Bool.false_eq_true, if_false]
  rw [hr]

/-! ### With two times -/

theorem InTime.frames (h : InTime D ops i par depth target source t) (hz : InterpZero X) (a : Nat)
    (hc : (history D (ops.take a)).1.lis.rb.buf.canTransform target source t = .ok true) :
    (∃ j, IsFrame (history D (ops.take a)).1.lis.rb.buf target j) ∧
    (∃ j, IsFrame (history D (ops.take a)).1.lis.rb.buf source j) := by
  obtain ⟨h1, h2, -⟩ := (h.available_iff hz a).1 hc
  exact ⟨⟨_, isFrame_of_mentioned (buffer_eq D _) h1 h.target.2⟩, ⟨_, isFrame_of_mentioned (buffer_eq D _) h2 h.source.2⟩⟩

theorem can5_iff {fixed : Name} {t2 : Time} (h1 : InTime D ops i par depth fixed source t)
    (h2 : InTime D ops i par depth target fixed t2) (hz : InterpZero X) {W : Nat → World X} {f : Nat → Nat}
    (hs : Sees D ops f W) (n : Nat) :
    (W n).buf.canTransform5 target t2 source t fixed = .ok true ↔
      (W n).buf.canTransform fixed source t = .ok true ∧ (W n).buf.canTransform target fixed t2 = .ok true := by
  have one : ∀ tg sr tm, (W n).buf.canTransform tg sr tm = .ok true ↔ ∃ m, (W n).buf.lookupTransform tg sr tm = .ok m := by
    intro tg sr tm
    obtain ⟨v, hv, hiff⟩ := C13_canTransform_iff (hs.reachable n) tg sr tm
    rw [hv, ← hiff]; simp
  obtain ⟨v, hv, hiff⟩ := C14_canTransform_fixed_iff (hs.reachable n) target t2 source t fixed
  rw [hv, Res.ok.injEq, hiff, C14_halves, one, one]
  constructor
  · rintro ⟨-, -, k1, k2⟩; exact ⟨k1, k2⟩
  · rintro ⟨k1, k2⟩
    have c1 := (one _ _ _).2 k1
    have c2 := (one _ _ _).2 k2
    rw [hs.buf] at c1 c2 k1 k2 ⊢
    obtain ⟨f1, f2⟩ := h1.frames hz _ c1
    obtain ⟨f3, -⟩ := h2.frames hz _ c2
    exact ⟨⟨h2.target.1, h1.source.1, h1.target.1⟩, ⟨f3, f2, f1⟩, k1, k2⟩

/-- C96. The same with two times: both halves are published in time. The lookup ends with the product of a transform
between `fixed` and `source` and one between `target` and `fixed`. -/
theorem C96_two_times {fixed : Name} {t2 : Time} (h1 : InTime D ops i par depth fixed source t)
    (h2 : InTime D ops i par depth target fixed t2) (hz : InterpZero X) {L k : Nat} (hik : i ≤ k)
    (hL : ∀ st p, Op.arrive st p ∈ ops → p.msgs.length ≤ L)
    (hn : 402 * (L + 2) + 3 ≤ threadSteps ((ops.take k).drop i))
    {W : Nat → World X} {f : Nat → Nat} (hs : Sees D ops f W) {timeout : Duration} {e : Time}
    (he : timeAdd (W 0).now timeout = some e) (hlate : ∀ n, e ≤ (W n).now → k ≤ f n) :
    (∀ errstr n v, wait (advancedGoal target t2 source t fixed timeout) true errstr W n = .returned v → v = true) ∧
    ∀ N, k ≤ f N → wait (advancedGoal target t2 source t fixed timeout) true false W (N + 6) = .returned true ∧
      ∃ q ≤ N + 6, ∃ m1 m2, (W q).buf.lookupTransform fixed source t = .ok m1 ∧
        (W (q + 1)).buf.lookupTransform target fixed t2 = .ok m2 ∧
        blockingLookup (advancedGoal target t2 source t fixed timeout) true W (N + 8) =
          .done (.ok { parent := target, child := source, stamp := m2.stamp, xf := Rigid.mulMsg m2.xf m1.xf }) := by
  have stay : ∀ m n, m ≤ n → (advancedGoal target t2 source t fixed timeout).can (W m).buf = .ok true →
      (advancedGoal target t2 source t fixed timeout).can (W n).buf = .ok true := by
    intro m n hmn hc
    obtain ⟨c1, c2⟩ := (can5_iff h1 h2 hz hs m).1 hc
    exact (can5_iff h1 h2 hz hs n).2 ⟨h1.stay hz hs hmn c1, h2.stay hz hs hmn c2⟩
  have after : ∀ n, k ≤ f n → (advancedGoal target t2 source t fixed timeout).can (W n).buf = .ok true :=
    fun n hk => (can5_iff h1 h2 hz hs n).2 ⟨h1.after hz hik hL hn hs hk, h2.after hz hik hL hn hs hk⟩
  obtain ⟨w1, w2⟩ := wait_available (g := advancedGoal target t2 source t fixed timeout) hs stay after he hlate
  refine ⟨w1, fun N hN => ⟨w2 N hN, ?_⟩⟩
  obtain ⟨q, hq, hc, hc', hb⟩ := lookup_available (g := advancedGoal target t2 source t fixed timeout) hs stay after he hlate hN
  have two : ∀ n, (W n).buf.canTransform5 target t2 source t fixed = .ok true →
      ∃ m, (W n).buf.lookupTransform5 target t2 source t fixed = .ok m := by
    intro n hc
    obtain ⟨v, hv, hiff⟩ := C14_canTransform_fixed_iff (hs.reachable n) target t2 source t fixed
    rw [hc] at hv; injection hv with hv
    exact hiff.1 hv.symm
  obtain ⟨⟨l1, l2, l3⟩, ⟨⟨i1, f1⟩, ⟨i2, f2⟩, ⟨i3, f3⟩⟩, ⟨m1, k1⟩, -⟩ := (C14_halves _ _ _ _ _ _).1 (two q hc)
  obtain ⟨-, -, -, ⟨m2, k2⟩⟩ := (C14_halves _ _ _ _ _ _).1 (two (q + 1) hc')
  refine ⟨q, hq, m1, m2, k1, k2, ?_⟩
  rw [hb]
  have hl1 : (advancedGoal target t2 source t fixed timeout).look1 (W q).buf = .inr m1 := by
    unfold Goal.look1
    simp only [advancedGoal, if_true]
    have val : ∀ {nm : Name} {j : Nat}, LegalName nm → IsFrame (W q).buf nm j →
        ∃ r, (W q).buf.validateFrameId nm = .ok r := by
      intro nm j hl hf
      rcases validate_cases (W q).buf nm with ⟨_, r, _, e⟩ | ⟨hn, _⟩ | ⟨_, hn, _⟩
      · exact ⟨_, e⟩
      · exact absurd hl hn
      · rw [Buf.lookupFrameNumber, hf.2] at hn
        exact absurd hn hf.1
    obtain ⟨r1, e1⟩ := val l1 f1
    obtain ⟨r2, e2⟩ := val l2 f2
    obtain ⟨r3, e3⟩ := val l3 f3
    rw [e1, e2, e3]
    simp only
    rw [k1]
  unfold Goal.lookupOver
  rw [hl1]
  simp only [Goal.look2, advancedGoal]
  rw [k2]

end

/-! ### Finding and example -/

/-- Calls of somebody else in the events are in the program. -/
theorem other_mem [Rigid X] (D : Duration) (ops : List (Op X)) {op : ROp X}
    (h : LEv.other op ∈ inner (history D ops).2) : Op.other op ∈ ops := by
  induction ops using snoc_cases with
  | h0 => cases h
  | h1 l a ih =>
    rw [history_snoc] at h
    dsimp only at h
    rw [inner_append, List.mem_append] at h
    rcases h with h | h
    · exact List.mem_append_left _ (ih h)
    · have ho := sout (history D l).1 a
      generalize (history D l).1.step a = x at ho h
      have hno : ∀ (s : St X) (lop : LOp X), (∀ o, lop ≠ .other o) →
          LEv.other op ∈ inner (s.after ((history D l).1.lis.step lop)).2 → False := by
        intro s lop hne hm
        have e : inner (s.after ((history D l).1.lis.step lop)).2 = ((history D l).1.lis.step lop).2 := inner_did _
        rw [e] at hm
        have hlo := lout (history D l).1.lis lop
        generalize (history D l).1.lis.step lop = z at hlo hm
        cases hlo with
        | other => exact hne _ rfl
        | _ => simp at hm
      cases ho with
      | work => exact (hno _ _ (fun _ e => by cases e) h).elim
      | call => exact (hno _ _ (fun _ e => by cases e) h).elim
      | @other op' hp =>
        have hlo := lout (history D l).1.lis (.other op')
        generalize (history D l).1.lis.step (.other op') = z at hlo h
        cases hlo
        simp only [inner_did, List.mem_singleton, LEv.other.injEq] at h
        subst h
        simp
      | _ => simp [inner] at h

/-- A moving frame `a` in a static frame `b`; the caller starts to wait before `b` and the second transform of `a` are
there; more comes later. -/
def inTimeOps : List (Op Int) :=
  [.ready, .arrive false ⟨[tmsg ['b'] ['a'] 10 1], ['p']⟩] ++ steps 5 ++
  [.arrive true ⟨[tmsg ['w'] ['b'] 20 1], ['q']⟩, .arrive false ⟨[tmsg ['b'] ['a'] 20 2], ['p']⟩] ++ steps 1210 ++
  [.arrive false ⟨[tmsg ['b'] ['a'] 30 3], ['p']⟩]

/-- The tree of `inTimeOps`. -/
def inTimePar (n : Name) : Option Name := if n = ['a'] then some ['b'] else if n = ['b'] then some ['w'] else none

/-- How deep a frame is in it. -/
def inTimeDepth (n : Name) : Nat := if n = ['a'] then 2 else if n = ['b'] then 1 else 0

theorem inTime_deliveries : deliveries (history 100 inTimeOps).2 =
    [.set (tmsg ['b'] ['a'] 10 1) ['p'] false, .set (tmsg ['b'] ['a'] 20 2) ['p'] false,
     .set (tmsg ['b'] ['a'] 30 3) ['p'] false, .set (tmsg ['w'] ['b'] 20 1) ['q'] true] := by
  have h1 : arrived false (history 100 inTimeOps).2 = [⟨[tmsg ['b'] ['a'] 10 1], ['p']⟩, ⟨[tmsg ['b'] ['a'] 20 2], ['p']⟩,
    ⟨[tmsg ['b'] ['a'] 30 3], ['p']⟩] := by decide +kernel
  have h2 : arrived true (history 100 inTimeOps).2 = [⟨[tmsg ['w'] ['b'] 20 1], ['q']⟩] := by decide +kernel
  unfold deliveries deliveriesOn
  rw [h1, h2]
  rfl

theorem inTimeOps_cases {op : Op Int} (h : op ∈ inTimeOps) :
    op = .ready ∨ op = .thread 50 ∨ ∃ st m a, op = .arrive st ⟨[m], a⟩ := by
  rcases List.mem_append.1 h with h | h
  · rcases List.mem_append.1 h with h | h
    · rcases List.mem_append.1 h with h | h
      · rcases List.mem_append.1 h with h | h
        · simp only [List.mem_cons, List.not_mem_nil, or_false] at h
          rcases h with rfl | rfl
          · exact .inl rfl
          · exact .inr (.inr ⟨_, _, _, rfl⟩)
        · exact .inr (.inl (steps_thread h))
      · simp only [List.mem_cons, List.not_mem_nil, or_false] at h
        rcases h with rfl | rfl <;> exact .inr (.inr ⟨_, _, _, rfl⟩)
    · exact .inr (.inl (steps_thread h))
  · simp only [List.mem_cons, List.not_mem_nil, or_false] at h
    subst h; exact .inr (.inr ⟨_, _, _, rfl⟩)

theorem inTime_working : Working 100 inTimeOps := by
  refine ⟨⟨by decide +kernel, fun m a s h => ?_, fun h => ?_⟩, fun h => ?_, not_escaped (by decide +kernel), fun st => ?_⟩
  · rcases inTimeOps_cases (other_mem _ _ h) with e | e | ⟨_, _, _, e⟩ <;> cases e
  · rcases inTimeOps_cases (other_mem _ _ h) with e | e | ⟨_, _, _, e⟩ <;> cases e
  · rcases inTimeOps_cases h with e | e | ⟨_, _, _, e⟩ <;> cases e
  · cases st <;> decide +kernel

/-- At 15 ns the parent of `a` is published in time. -/
theorem inTime_a : Served 100 (history 100 (inTimeOps.take 9)).2 (history 100 inTimeOps).2 15 ['a'] := by
  refine .moving (m1 := tmsg ['b'] ['a'] 10 1) (m2 := tmsg ['b'] ['a'] 20 2) ?_ ?_ (by decide) (by decide) ?_ ?_ ?_
  · decide +kernel
  · decide +kernel
  · decide +kernel
  · decide +kernel
  · decide +kernel

/-- The parent of `b` is published in time: it is static. -/
theorem inTime_b (t : Time) : Served 100 (history 100 (inTimeOps.take 9)).2 (history 100 inTimeOps).2 t ['b'] := by
  refine .static (m := tmsg ['w'] ['b'] 20 1) ?_ ?_
  · decide +kernel
  · decide +kernel

theorem inTime_at {target source c : Name} {t : Time}
    (hs : UpTo inTimePar (Served 100 (history 100 (inTimeOps.take 9)).2 (history 100 inTimeOps).2 t) source c)
    (ht : UpTo inTimePar (Served 100 (history 100 (inTimeOps.take 9)).2 (history 100 inTimeOps).2 t) target c)
    (h0 : t ≠ 0) (hd : target ≠ source) (l1 : LegalName target ∧ target ≠ noParentName)
    (l2 : LegalName source ∧ source ≠ noParentName) :
    InTime 100 inTimeOps 9 inTimePar inTimeDepth target source t := by
  refine ⟨inTime_working, ?_, ?_, ⟨c, hs, ht⟩, h0, hd, l1, l2⟩
  · rw [inTime_deliveries]
    refine ⟨by decide, ?_, ?_⟩ <;> intro m a s h _ <;>
      simp only [List.mem_cons, Tf2.Op.set.injEq, List.not_mem_nil, or_false] at h <;>
      rcases h with h | h | h | h <;> obtain ⟨rfl, _, _⟩ := h <;> decide
  · rw [inTime_deliveries]
    refine ⟨?_, ?_, ?_, ?_⟩
    · intro m a s h _
      simp only [List.mem_cons, Tf2.Op.set.injEq, List.not_mem_nil, or_false] at h
      rcases h with h | h | h | h <;> obtain ⟨rfl, _, _⟩ := h <;> rfl
    · intro n p h
      unfold inTimePar at h
      split at h
      · rename_i e; subst e; injection h with h; subst h; decide
      · split at h
        · rename_i e; subst e; injection h with h; subst h; decide
        · cases h
    · intro n
      unfold inTimeDepth
      split
      · decide
      · split <;> decide
    · intro n p h
      unfold inTimePar at h
      split at h
      · injection h with h; subst h; decide
      · split at h
        · injection h with h; subst h; decide
        · cases h

theorem inTime : InTime 100 inTimeOps 9 inTimePar inTimeDepth ['w'] ['a'] 15 :=
  inTime_at (.snoc (.snoc .refl rfl inTime_a) rfl (inTime_b 15)) .refl (by decide) (by decide)
    ⟨by unfold LegalName; decide, by decide⟩ ⟨by unfold LegalName; decide, by decide⟩

/-- A caller that makes a step after every step of the program. -/
def inTimeWorld (n : Nat) : World Int :=
  { buf := (history 100 (inTimeOps.take n)).1.lis.rb.buf, now := min n 5000, up := true }

theorem inTime_sees : Sees 100 inTimeOps id inTimeWorld := by
  refine ⟨fun _ => rfl, fun n => Nat.le_succ n, fun _ => rfl, fun n => ?_⟩
  have h : (inTimeWorld n).now ≤ 5000 := Nat.min_le_right n 5000
  refine ⟨(inTimeWorld n).now + 3000000000, ?_, Nat.zero_le _⟩
  unfold timeAdd threeSeconds
  rw [if_pos]
  · congr 1
  · constructor
    · omega
    · have : (5000 : Int) + 3000000000 ≤ TIME_MAX := by decide
      omega

/-- The hypotheses of `C96_wait` and `C96_lookup` are met; at the start there is nothing. -/
example : (wait (simpleGoal ['w'] ['a'] 15 2000) true false inTimeWorld 1225 = .returned true) ∧
    (inTimeWorld 2).buf.canTransform ['w'] ['a'] 15 = .ok false := by
  have hL : ∀ st p, Op.arrive st p ∈ inTimeOps → p.msgs.length ≤ 1 := by
    intro st p h
    rcases inTimeOps_cases h with e | e | ⟨_, _, _, e⟩ <;> cases e
    exact Nat.le_refl 1
  refine ⟨(C96_wait (k := 1219) (L := 1) inTime interpZero_int (by decide) hL ?_ inTime_sees (e := 2000) (by decide) ?_).2 1219
    (Nat.le_refl _), by decide +kernel⟩
  · decide +kernel
  · intro n hn
    have hn : 2000 ≤ min n 5000 := hn
    show 1219 ≤ n
    omega

/-- The hypotheses of `C96_two_times` are met: `a` in `b` at 15 ns, `b` in `w` at 7 ns; at the start there is nothing. -/
example : (wait (advancedGoal ['w'] 7 ['a'] 15 ['b'] 2000) true false inTimeWorld 1225 = .returned true) ∧
    (inTimeWorld 2).buf.canTransform5 ['w'] 7 ['a'] 15 ['b'] = .ok false := by
  have hL : ∀ st p, Op.arrive st p ∈ inTimeOps → p.msgs.length ≤ 1 := by
    intro st p h
    rcases inTimeOps_cases h with e | e | ⟨_, _, _, e⟩ <;> cases e
    exact Nat.le_refl 1
  have h1 : InTime 100 inTimeOps 9 inTimePar inTimeDepth ['b'] ['a'] 15 :=
    inTime_at (.snoc .refl rfl inTime_a) .refl (by decide) (by decide)
      ⟨by unfold LegalName; decide, by decide⟩ ⟨by unfold LegalName; decide, by decide⟩
  have h2 : InTime 100 inTimeOps 9 inTimePar inTimeDepth ['w'] ['b'] 7 :=
    inTime_at (.snoc .refl rfl (inTime_b 7)) .refl (by decide) (by decide)
      ⟨by unfold LegalName; decide, by decide⟩ ⟨by unfold LegalName; decide, by decide⟩
  refine ⟨((C96_two_times (k := 1219) (L := 1) h1 h2 interpZero_int (by decide) hL ?_ inTime_sees (e := 2000) (by decide)
    ?_).2 1219 (Nat.le_refl _)).1, by decide +kernel⟩
  · decide +kernel
  · intro n hn
    have hn : 2000 ≤ min n 5000 := hn
    show 1219 ≤ n
    omega

/-- Two transforms around 15, handled; then one that pushes the first out of the 100 ns the buffer keeps. -/
def racingOps : List (Op Int) :=
  [.ready, .arrive false (onePacket ['a'] 10), .arrive false (onePacket ['a'] 20)] ++ steps 12 ++
  [.arrive false (onePacket ['a'] 115)] ++ steps 12

/-- C96, finding. A wait can end with `false` although its check found the transform and the deadline is far: the check is
repeated when the loop has ended, and in between a newer transform has pushed an older one out. -/
theorem C96_race_finding : ∃ (f : Nat → Nat) (W : Nat → World Int), Sees 100 racingOps f W ∧ Working 100 racingOps ∧
    (W 2).buf.canTransform ['w'] ['a'] 15 = .ok true ∧
    wait (simpleGoal ['w'] ['a'] 15 2000) true false W 4 = .returned false ∧ ∀ n, (W n).now = 50 := by
  refine ⟨fun n => if n ≤ 2 then 15 else 28,
    fun n => { buf := (history 100 (racingOps.take (if n ≤ 2 then 15 else 28))).1.lis.rb.buf, now := 50, up := true },
    ⟨fun _ => rfl, fun n => ?_, fun _ => rfl, fun _ => ⟨3000000050, by show timeAdd 50 threeSeconds = some 3000000050; decide, by show 50 ≤ 3000000050; decide⟩⟩, ?_, by decide +kernel,
    by decide +kernel, fun _ => rfl⟩
  · show (if n ≤ 2 then 15 else 28) ≤ (if n + 1 ≤ 2 then 15 else 28)
    split
    · split <;> decide
    · rw [if_neg (by omega)]; exact Nat.le_refl _
  · have hc : ∀ op ∈ racingOps, op = .ready ∨ op = .thread 50 ∨ ∃ st p, op = .arrive st p := by
      intro op h
      rcases List.mem_append.1 h with h | h
      · rcases List.mem_append.1 h with h | h
        · rcases List.mem_append.1 h with h | h
          · simp only [List.mem_cons, List.not_mem_nil, or_false] at h
            rcases h with rfl | rfl | rfl
            · exact .inl rfl
            · exact .inr (.inr ⟨_, _, rfl⟩)
            · exact .inr (.inr ⟨_, _, rfl⟩)
          · exact .inr (.inl (steps_thread h))
        · simp only [List.mem_cons, List.not_mem_nil, or_false] at h
          subst h; exact .inr (.inr ⟨_, _, rfl⟩)
      · exact .inr (.inl (steps_thread h))
    refine ⟨⟨by decide +kernel, fun m a s h => ?_, fun h => ?_⟩, fun h => ?_, not_escaped (by decide +kernel), fun st => ?_⟩
    · rcases hc _ (other_mem _ _ h) with e | e | ⟨_, _, e⟩ <;> cases e
    · rcases hc _ (other_mem _ _ h) with e | e | ⟨_, _, e⟩ <;> cases e
    · rcases hc _ h with e | e | ⟨_, _, e⟩ <;> cases e
    · cases st <;> decide +kernel

end Tf2.Spin
