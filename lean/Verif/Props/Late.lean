import Verif.Spec.Late
import Verif.Proofs.Ros
import Verif.Props.Ros
import Verif.Props.Denote

/-!
# C65: late subscribers of the static topic
-/
namespace Tf2

variable {X : Type} [Rigid X]

/-! ### Two histories that say the same give the same lookups -/

theorem Leads.congr {D : Duration} {o o' : List (Op X)} {t : Time}
    (h : ∀ n p e, Says D o t n p e → Says D o' t n p e) {a c : Name} {x : X} {k : Nat} (hl : Leads D o t a c x k) :
    Leads D o' t a c x k := by
  induction hl with
  | refl => exact .refl
  | snoc _ hs hp ih => exact .snoc ih (h _ _ _ hs) hp

theorem Leads.mentioned {D : Duration} {o : List (Op X)} {t : Time} {a c : Name} {x : X} {k : Nat}
    (h : Leads D o t a c x k) : a = c ∨ a ∈ mentions o ∧ c ∈ mentions o := by
  induction h with
  | refl => exact Or.inl rfl
  | snoc _ hs _ ih =>
    rcases ih with rfl | ⟨h1, _⟩
    · exact Or.inr hs.mentioned
    · exact Or.inr ⟨h1, hs.mentioned.2⟩

theorem WayEnds.congr {D : Duration} {o o' : List (Op X)} {t : Time}
    (h : ∀ n p e, Says D o t n p e ↔ Says D o' t n p e) {a : Name} (hw : WayEnds D o t a) : WayEnds D o' t a := by
  obtain ⟨r, x, k, hk, hl, hno⟩ := hw
  exact ⟨r, x, k, hk, hl.congr (fun n p e => (h n p e).1), fun ⟨p, e, hs, hp⟩ => hno ⟨p, e, (h _ _ _).2 hs, hp⟩⟩

/-- If two histories say the same about every frame at time `t`, whatever one buffer answers the other answers. -/
theorem lookup_congr {U : X → Prop} (L : RigidLaws U) {D : Duration} {o o' : List (Op X)} (hU : AllOffered U o)
    (hU' : AllOffered U o') (hr : Regular D o) (hr' : Regular D o') (hz : InterpZero X) {t : Time} (ht : t ≠ 0)
    (h : ∀ n p e, Says D o t n p e ↔ Says D o' t n p e) {target source : Name} (hne : target ≠ source)
    (ng : target ≠ noParentName) (ns : source ≠ noParentName)
    (eg : WayEnds D o t target) (es : WayEnds D o t source) {m : Msg X}
    (hm : ((Buf.init D).run o).lookupTransform target source t = .ok m) :
    ((Buf.init D).run o').lookupTransform target source t = .ok m := by
  obtain ⟨hg, hs, lg, ls, e1, e2, e3, _⟩ := C59_sound hr hz ht hne hm
  obtain ⟨c, x, y, k, l, hx, hy⟩ := (C59_complete hr hz ht hg hs ng ns lg ls eg es).1 ⟨m, hm⟩
  have hx' := hx.congr (fun n p e => (h n p e).1)
  have hy' := hy.congr (fun n p e => (h n p e).1)
  have hment : target ∈ mentions o' ∧ source ∈ mentions o' := by
    rcases hx'.mentioned with rfl | ⟨h1, h2⟩
    · rcases hy'.mentioned with rfl | ⟨h3, h4⟩
      · exact absurd rfl hne
      · exact ⟨h3, h4⟩
    · rcases hy'.mentioned with rfl | ⟨h3, h4⟩
      · exact ⟨h2, h1⟩
      · exact ⟨h3, h1⟩
  obtain ⟨m', hm'⟩ := (C59_complete hr' hz ht hment.1 hment.2 ng ns lg ls (eg.congr h) (es.congr h)).2
    ⟨c, x, y, k, l, hx', hy'⟩
  have v := C59_value L hU hr hz ht hne hm es hx hy
  have v' := C59_value L hU' hr' hz ht hne hm' (es.congr h) hx' hy'
  obtain ⟨-, -, -, -, f1, f2, f3, -⟩ := C59_sound hr' hz ht hne hm'
  rw [hm']
  congr 1
  cases m; cases m'
  simp_all

/-! ### What the two subscribers hear -/

theorem offersFor_of_static {n : Name} {ops : List (Op X)} (h : ∀ m a, Op.set m a false ∈ ops → stripSlash m.child ≠ n) :
    offersFor n ops = ((staticPart ops).filter (fun m => ValidMsg m ∧ stripSlash m.child = n)).map (fun m => (m, true)) := by
  induction ops with
  | nil => rfl
  | cons o r ih =>
    have ih := ih (fun m a hm => h m a (List.mem_cons_of_mem _ hm))
    cases o with
    | clear => simpa [offersFor, staticPart] using ih
    | set m a s =>
      cases s with
      | false =>
        have := h m a (List.mem_cons_self ..)
        simp only [offersFor, staticPart, this, and_false, if_false, List.filterMap_cons] at ih ⊢
        exact ih
      | true =>
        simp only [offersFor, staticPart, List.filterMap_cons, List.filter_cons] at ih ⊢
        by_cases hv : ValidMsg m ∧ stripSlash m.child = n
        · simp only [hv, and_self, if_true, decide_true, List.map_cons, ih]
        · simp only [hv, if_false, decide_false, Bool.false_eq_true, ih]

theorem offersFor_other {n : Name} {ops : List (Op X)} (h : ∀ m ∈ staticPart ops, stripSlash m.child ≠ n) :
    offersFor n ops = offersFor n (otherPart ops) ∧ ∀ acc, recentFor n ops acc = recentFor n (otherPart ops) acc := by
  induction ops with
  | nil => exact ⟨rfl, fun _ => rfl⟩
  | cons o r ih =>
    cases o with
    | clear =>
      obtain ⟨h1, h2⟩ := ih (by simpa [staticPart] using h)
      exact ⟨by simpa [offersFor, otherPart] using h1, fun acc => by simpa [recentFor, otherPart] using h2 []⟩
    | set m a s =>
      cases s with
      | false =>
        obtain ⟨h1, h2⟩ := ih (by simpa [staticPart] using h)
        constructor
        · simp only [otherPart, List.filter_cons, if_true, offersFor] at h1 ⊢
          rw [h1]
        · intro acc
          simp only [otherPart, List.filter_cons, if_true, recentFor] at h2 ⊢
          split <;> exact h2 _
      | true =>
        have h0 : stripSlash m.child ≠ n := h m (by simp [staticPart])
        obtain ⟨h1, h2⟩ := ih (fun m' hm' => h m' (by simp only [staticPart, List.filterMap_cons] at hm' ⊢; exact List.mem_cons_of_mem _ hm'))
        constructor
        · simpa [otherPart, offersFor, h0] using h1
        · intro acc
          simpa [otherPart, recentFor, h0] using h2 acc

theorem mem_staticPart {m : Msg X} {ops : List (Op X)} : m ∈ staticPart ops ↔ ∃ a, Op.set m a true ∈ ops := by
  induction ops with
  | nil => simp [staticPart]
  | cons o r ih =>
    rcases o with ⟨m', a', _ | _⟩ | _ <;>
      simp only [staticPart, List.filterMap_cons, List.mem_cons, reduceCtorEq, false_or, Op.set.injEq, Bool.true_eq_false, and_false] at ih ⊢
    · exact ih
    · constructor
      · rintro (rfl | h)
        · exact ⟨a', Or.inl (by simp)⟩
        · obtain ⟨a, ha⟩ := ih.1 h; exact ⟨a, Or.inr ha⟩
      · rintro ⟨a, ⟨rfl, _⟩ | h⟩
        · exact Or.inl rfl
        · exact Or.inr (ih.2 ⟨a, h⟩)
    · exact ih

omit [Rigid X] in
theorem published_append (a b : List (List (Msg X))) :
    ∃ l, (SBroadcaster.after (a ++ b)).published = (SBroadcaster.after a).published ++ l := by
  unfold SBroadcaster.after
  rw [List.foldl_append]
  generalize List.foldl SBroadcaster.send {} a = s
  induction b generalizing s with
  | nil => exact ⟨[], by simp⟩
  | cons c r ih =>
    obtain ⟨l, hl⟩ := ih (s.send c)
    exact ⟨(s.send c).net :: l, by rw [List.foldl_cons, hl]; simp [SBroadcaster.send]⟩

omit [Rigid X] in
theorem published_length (a : List (List (Msg X))) : (SBroadcaster.after a).published.length = a.length := by
  have key : ∀ s : SBroadcaster X, (a.foldl SBroadcaster.send s).published.length = s.published.length + a.length := by
    induction a with
    | nil => intro s; rfl
    | cons c r ih => intro s; rw [List.foldl_cons, ih]; simp [SBroadcaster.send]; omega
  have := key {}
  simpa [SBroadcaster.after] using this

omit [Rigid X] in
theorem net_is (calls : List (List (Msg X))) : NetIs calls.flatten (SBroadcaster.after calls).net := by
  have h0 : NetIs ([] : List (Msg X)) ({} : SBroadcaster X).net := ⟨List.nodup_nil, rfl, fun x => by simp [lastSent]⟩
  simpa [SBroadcaster.after] using h0.calls calls

omit [Rigid X] in
theorem lastSent_mem {sent : List (Msg X)} {n : Name} {m : Msg X} (h : lastSent sent n = some m) : m ∈ sent ∧ m.child = n := by
  unfold lastSent at h
  exact ⟨List.mem_reverse.1 (List.mem_of_find?_eq_some h), by simpa using List.find?_some h⟩

omit [Rigid X] in
theorem published_sent (calls : List (List (Msg X))) : ∀ m ∈ (SBroadcaster.after calls).published.flatten, m ∈ calls.flatten := by
  induction calls using snoc_induction with
  | nil => intro m hm; simp [SBroadcaster.after] at hm
  | snoc cs c ih =>
    intro m hm
    have hp : (SBroadcaster.after (cs ++ [c])).published =
        (SBroadcaster.after cs).published ++ [(SBroadcaster.after (cs ++ [c])).net] := by
      simp [SBroadcaster.after, SBroadcaster.send]
    rw [hp, List.flatten_append, List.mem_append] at hm
    rcases hm with hm | hm
    · rw [List.flatten_append]; exact List.mem_append_left _ (ih m hm)
    · have hm : m ∈ (SBroadcaster.after (cs ++ [c])).net := by simpa using hm
      exact (lastSent_mem (((net_is (cs ++ [c])).mem m).1 hm)).1

omit [Rigid X] in
/-- What an early subscriber receives ends with the last publication. -/
theorem early_ends {calls : List (List (Msg X))} (hc : calls ≠ []) :
    ∃ xs, earlyReceives calls = xs ++ (SBroadcaster.after calls).net := by
  have h := published_last calls {} hc
  unfold earlyReceives
  have h1 : (SBroadcaster.after calls).published.getLast? = some (SBroadcaster.after calls).net := h
  obtain ⟨ys, hy⟩ := List.getLast?_eq_some_iff.1 h1
  exact ⟨ys.flatten, by rw [hy]; simp⟩

omit [Rigid X] in
/-- So does what a late one receives. -/
theorem late_ends {before : List (List (Msg X))} (hb : before ≠ []) (later : List (List (Msg X))) :
    ∃ xs, lateReceives before later = xs ++ (SBroadcaster.after (before ++ later)).net := by
  obtain ⟨l, hl⟩ := published_append before later
  have hd : (SBroadcaster.after (before ++ later)).published.drop before.length = l := by
    rw [hl, ← published_length before, List.drop_left]
  unfold lateReceives
  rw [hd]
  have h1 : (SBroadcaster.after (before ++ later)).published.getLast? = some (SBroadcaster.after (before ++ later)).net :=
    published_last (before ++ later) {} (by simp [hb])
  rcases List.eq_nil_or_concat l with rfl | ⟨l', x, rfl⟩
  · refine ⟨[], ?_⟩
    have h2 : (SBroadcaster.after before).published.getLast? = some (SBroadcaster.after before).net :=
      published_last before {} hb
    rw [hl, List.append_nil, h2] at h1
    have h3 : (SBroadcaster.after before).latched = some (SBroadcaster.after before).net := h2
    rw [h3]
    simpa using h1
  · rw [hl] at h1
    simp only [List.concat_eq_append, ← List.append_assoc, List.getLast?_append, List.getLast?_singleton] at h1
    have h1 : x = (SBroadcaster.after (before ++ later)).net := by simpa using h1
    subst h1
    exact ⟨(SBroadcaster.after before).latched.getD [] ++ l'.flatten, by simp⟩

omit [Rigid X] in
/-- Everything a late subscriber receives, an early one received too. -/
theorem late_early {before : List (List (Msg X))} (later : List (List (Msg X))) :
    ∀ m ∈ lateReceives before later, m ∈ earlyReceives (before ++ later) := by
  intro m hm
  unfold lateReceives at hm
  unfold earlyReceives
  rcases List.mem_append.1 hm with hm | hm
  · obtain ⟨l, hl⟩ := published_append before later
    rw [hl, List.flatten_append]
    apply List.mem_append_left
    unfold SBroadcaster.latched at hm
    cases hg : (SBroadcaster.after before).published.getLast? with
    | none => rw [hg] at hm; cases hm
    | some x =>
      rw [hg] at hm
      exact List.mem_flatten.2 ⟨x, List.mem_of_getLast? hg, hm⟩
  · obtain ⟨x, hx, hm⟩ := List.mem_flatten.1 hm
    exact List.mem_flatten.2 ⟨x, List.mem_of_mem_drop hx, hm⟩

/-- A static frame's messages: only static ones, and the last is the transform sent last. -/
theorem static_last {sent : List (Msg X)} {ops : List (Op X)} (hs : StaticFrames sent ops) {xs net : List (Msg X)}
    (hn : NetIs sent net) (hp : staticPart ops = xs ++ net) {n : Name} (hin : ∃ m ∈ sent, m.child = n) :
    ∃ m m0 r, lastSent sent n = some m ∧ (offersFor n ops).getLast? = some (m, true) ∧ offersFor n ops = (m0, true) :: r := by
  have hnet : ∀ m ∈ net, m ∈ sent := fun m hm => (lastSent_mem ((hn.mem m).1 hm)).1
  have hoff := offersFor_of_static (n := n) (ops := ops) (by
    obtain ⟨m0, h0, rfl⟩ := hin
    intro m a hm
    exact hs.own m0 h0 m a hm)
  have hmem : ∀ {m}, m ∈ sent → ((decide (ValidMsg m ∧ stripSlash m.child = n)) = true ↔ m.child = n) := by
    intro m hm
    simp only [hs.valid m hm, true_and, hs.plain m hm, decide_eq_true_eq]
  obtain ⟨m, hl⟩ : ∃ m, lastSent sent n = some m := by
    obtain ⟨m0, h0, h1⟩ := hin
    have : (lastSent sent n).isSome := by
      unfold lastSent
      rw [List.find?_isSome]
      exact ⟨m0, List.mem_reverse.2 h0, by simpa using h1⟩
    exact Option.isSome_iff_exists.1 this
  have hml := lastSent_mem hl
  have hmn : m ∈ net := (hn.mem m).2 (by rw [hml.2]; exact hl)
  have hlast : (offersFor n ops).getLast? = some (m, true) := by
    rw [hoff, hp, List.filter_append, List.map_append, List.getLast?_append, List.getLast?_map]
    have : (net.filter (fun m => decide (ValidMsg m ∧ stripSlash m.child = n))).getLast? = some m := by
      cases hg : (net.filter (fun m => decide (ValidMsg m ∧ stripSlash m.child = n))).getLast? with
      | none =>
        rw [List.getLast?_eq_none_iff] at hg
        have : m ∈ net.filter (fun m => decide (ValidMsg m ∧ stripSlash m.child = n)) :=
          List.mem_filter.2 ⟨hmn, (hmem hml.1).2 hml.2⟩
        rw [hg] at this; cases this
      | some e =>
        have he := List.mem_of_getLast? hg
        have h1 := (List.mem_filter.1 he).1
        have h2 := (hmem (hnet e h1)).1 (List.mem_filter.1 he).2
        have h3 := (hn.mem e).1 h1
        rw [h2, hl] at h3
        exact h3.symm
    rw [this]; rfl
  have hall : ∀ q ∈ offersFor n ops, q.2 = true := by
    intro q hq
    rw [hoff] at hq
    obtain ⟨_, _, rfl⟩ := List.mem_map.1 hq
    rfl
  obtain ⟨m0, r, h0⟩ : ∃ m0 r, offersFor n ops = (m0, true) :: r := by
    cases hc : offersFor n ops with
    | nil => rw [hc] at hlast; cases hlast
    | cons q r =>
      have := hall q (by rw [hc]; exact List.mem_cons_self ..)
      exact ⟨q.1, r, by rw [← this]⟩
  exact ⟨m, m0, r, hl, hlast, h0⟩

/-- What a history says about a static frame: the transform sent last. -/
theorem says_static {D : Duration} {sent : List (Msg X)} {ops : List (Op X)} (hs : StaticFrames sent ops) {xs net : List (Msg X)}
    (hn : NetIs sent net) (hp : staticPart ops = xs ++ net) {t : Time} {n : Name}
    (hin : ∃ m ∈ sent, m.child = n) (p : Name) (e : X) :
    Says D ops t n p e ↔ ∃ m, lastSent sent n = some m ∧ p = stripSlash m.parent ∧ e = m.xf := by
  obtain ⟨m, m0, r, hl, hlast, h0⟩ := static_last hs hn hp hin
  constructor
  · intro h
    cases h with
    | static _ h2 =>
      rw [hlast] at h2
      injection h2 with h2
      injection h2 with h2
      subst h2
      exact ⟨_, hl, rfl, rfl⟩
    | exact h1 _ _ => rw [h0] at h1; simp at h1
    | between h1 _ _ _ _ _ _ => rw [h0] at h1; simp at h1
    | switch h1 _ _ _ _ _ _ => rw [h0] at h1; simp at h1
  · rintro ⟨m', h1, rfl, rfl⟩
    rw [hl] at h1
    injection h1 with h1
    subst h1
    exact .static h0 hlast

/-- Says depends only on the messages for the frame. -/
theorem Says.of_eq {D : Duration} {o o' : List (Op X)} {t : Time} {n p : Name} {e : X}
    (h1 : offersFor n o = offersFor n o') (h2 : recentFor n o [] = recentFor n o' []) (h : Says D o t n p e) :
    Says D o' t n p e := by
  have he : ∀ m, Effective D o n m ↔ Effective D o' n m := by
    intro m; unfold Effective; rw [h2]
  cases h with
  | static a b => exact .static (h1 ▸ a) (h1 ▸ b)
  | exact a b c => exact .exact (h1 ▸ a) ((he _).1 b) c
  | between a b c d e' f g =>
    exact .between (h1 ▸ a) ((he _).1 b) ((he _).1 c) d e' (fun k hk => f k ((he k).2 hk)) g
  | switch a b c d e' f g =>
    exact .switch (h1 ▸ a) ((he _).1 b) ((he _).1 c) d e' (fun k hk => f k ((he k).2 hk)) g

/-- **C65.** One subscriber has received everything ever published on the static topic; the other connected
after the calls `before` and has received the latched message and what was published later.  Apart from that
both have received the same, in any interleaving.  Then at every time except zero, for every pair of frames whose
ways up end, whatever one of them answers the other answers, and it is the same answer. -/
theorem C65_late_subscriber {U : X → Prop} (L : RigidLaws U) (hz : InterpZero X) {D : Duration}
    {before later : List (List (Msg X))} (hb : before ≠ []) {early late : List (Op X)}
    (he : staticPart early = earlyReceives (before ++ later)) (hl : staticPart late = lateReceives before later)
    (ho : otherPart early = otherPart late) (hs : StaticFrames (before ++ later).flatten early)
    (hU : AllOffered U early) (hr : Regular D early) {t : Time} (ht : t ≠ 0) {target source : Name}
    (hne : target ≠ source) (ng : target ≠ noParentName) (ns : source ≠ noParentName)
    (eg : WayEnds D early t target) (es : WayEnds D early t source) (m : Msg X) :
    ((Buf.init D).run early).lookupTransform target source t = .ok m ↔
      ((Buf.init D).run late).lookupTransform target source t = .ok m := by
  -- what the late one received, the early one received
  have hdyn : ∀ {o : List (Op X)} {m : Msg X} {a : Name}, Op.set m a false ∈ o ↔ Op.set m a false ∈ otherPart o := by
    intro o m a
    simp [otherPart]
  have hsub : ∀ {m : Msg X} {a : Name} {s : Bool}, Op.set m a s ∈ late → ∃ a', Op.set m a' s ∈ early := by
    intro m a s hm
    cases s with
    | false => exact ⟨a, by rw [hdyn, ho, ← hdyn]; exact hm⟩
    | true =>
      have h1 : m ∈ staticPart late := mem_staticPart.2 ⟨a, hm⟩
      rw [hl] at h1
      have h2 := late_early later m h1
      rw [← he] at h2
      exact mem_staticPart.1 h2
  have hU' : AllOffered U late := by
    intro m a s hm
    obtain ⟨a', h⟩ := hsub hm
    exact hU m a' s h
  have hr' : Regular D late := by
    refine ⟨hr.dur, ?_, ?_⟩
    · intro m a s hm
      obtain ⟨a', h⟩ := hsub hm
      exact hr.range m a' s h
    · intro m a s hm
      obtain ⟨a', h⟩ := hsub hm
      exact hr.names m a' s h
  have hs' : StaticFrames (before ++ later).flatten late :=
    ⟨hs.valid, hs.plain, fun m hm m' a hm' => hs.own m hm m' a (by rw [hdyn, ho, ← hdyn]; exact hm')⟩
  obtain ⟨xs, hxs⟩ := early_ends (calls := before ++ later) (by simp [hb])
  obtain ⟨ys, hys⟩ := late_ends hb later
  have hxs' : ∀ m ∈ earlyReceives (before ++ later), m ∈ (before ++ later).flatten := published_sent _
  have hsay : ∀ n p e, Says D early t n p e ↔ Says D late t n p e := by
    intro n p e
    by_cases hin : ∃ m ∈ (before ++ later).flatten, m.child = n
    · rw [says_static hs (net_is _) (he.trans hxs) hin,
        says_static hs' (net_is _) (hl.trans hys) hin]
    · have h1 : ∀ m ∈ staticPart early, stripSlash m.child ≠ n := by
        intro m hm h
        rw [he] at hm
        have := hxs' m hm
        exact hin ⟨m, this, by rw [← h, hs.plain m this]⟩
      have h2 : ∀ m ∈ staticPart late, stripSlash m.child ≠ n := by
        intro m hm h
        rw [hl] at hm
        have := hxs' m (late_early later m hm)
        exact hin ⟨m, this, by rw [← h, hs.plain m this]⟩
      obtain ⟨a1, a2⟩ := offersFor_other h1
      obtain ⟨b1, b2⟩ := offersFor_other h2
      have e1 : offersFor n early = offersFor n late := by rw [a1, b1, ho]
      have e2 : recentFor n early [] = recentFor n late [] := by rw [a2, b2, ho]
      exact ⟨Says.of_eq e1 e2, Says.of_eq e1.symm e2.symm⟩
  exact ⟨lookup_congr L hU hU' hr hr' hz ht hsay hne ng ns eg es,
    lookup_congr L hU' hU hr' hr hz ht (fun n p e => (hsay n p e).symm) hne ng ns (eg.congr hsay) (es.congr hsay)⟩

/-- Calls with a repeated child whose parent changes; dynamic traffic for another frame. -/
def lateBefore : List (List (Msg Int)) := [[tmsg ['w'] ['a'] 0 1, tmsg ['w'] ['c'] 0 4], [tmsg ['v'] ['a'] 0 2]]

/-- Calls after the second subscriber connected. -/
def lateAfter : List (List (Msg Int)) := [[tmsg ['c'] ['a'] 0 3]]

/-- What the early one received. -/
def lateEarly : List (Op Int) :=
  [.set (tmsg ['w'] ['a'] 0 1) ['p'] true, .set (tmsg ['w'] ['c'] 0 4) ['p'] true,
   .set (tmsg ['a'] ['d'] 10 20) ['q'] false,
   .set (tmsg ['v'] ['a'] 0 2) ['p'] true, .set (tmsg ['w'] ['c'] 0 4) ['p'] true,
   .set (tmsg ['a'] ['d'] 20 30) ['q'] false,
   .set (tmsg ['c'] ['a'] 0 3) ['p'] true, .set (tmsg ['w'] ['c'] 0 4) ['p'] true]

/-- What the late one received. -/
def lateLate : List (Op Int) :=
  [.set (tmsg ['v'] ['a'] 0 2) ['p'] true, .set (tmsg ['a'] ['d'] 10 20) ['q'] false,
   .set (tmsg ['a'] ['d'] 20 30) ['q'] false, .set (tmsg ['w'] ['c'] 0 4) ['p'] true,
   .set (tmsg ['c'] ['a'] 0 3) ['p'] true, .set (tmsg ['w'] ['c'] 0 4) ['p'] true]

example : staticPart lateEarly = earlyReceives (lateBefore ++ lateAfter) ∧
    staticPart lateLate = lateReceives lateBefore lateAfter ∧ otherPart lateEarly = otherPart lateLate := by
  refine ⟨by decide, by decide, rfl⟩

example : StaticFrames (lateBefore ++ lateAfter).flatten lateEarly := by
  refine ⟨by decide, by decide, ?_⟩
  intro m hm m' a hm'
  have h1 : m' ∈ [tmsg ['a'] ['d'] 10 20, tmsg ['a'] ['d'] 20 30] := by
    simp [lateEarly] at hm'
    rcases hm' with ⟨rfl, _⟩ | ⟨rfl, _⟩ <;> simp
  have h2 : m'.child = ['d'] := by
    revert m'
    intro m' _ h
    simp only [List.mem_cons, List.not_mem_nil, or_false] at h
    rcases h with rfl | rfl <;> rfl
  rw [h2]
  revert m hm
  decide

/-- The ways up end: from `d` over `a` and `c` to `w`. -/
example : Regular 100 lateEarly ∧ WayEnds 100 lateEarly 15 ['d'] ∧ WayEnds 100 lateEarly 15 ['w'] := by
  have hw : ∀ {p : Name} {e : Int}, ¬ Says 100 lateEarly 15 ['w'] p e := by
    intro p e h
    obtain ⟨m, s, hm, _⟩ := h.offer
    rw [show offersFor ['w'] lateEarly = [] by decide] at hm
    cases hm
  have h1 : Says 100 lateEarly 15 ['d'] ['a'] (25 : Int) :=
    .between (o := tmsg ['a'] ['d'] 10 20) (w := tmsg ['a'] ['d'] 20 30) rfl ⟨by decide, by decide⟩
      ⟨by decide, by decide⟩ (by decide) (by decide) (by
        intro k hk
        have := hk.mem
        have e : recentFor ['d'] lateEarly [] = [tmsg ['a'] ['d'] 10 20, tmsg ['a'] ['d'] 20 30] := by decide
        rw [e] at this
        simp only [List.mem_cons, List.not_mem_nil, or_false] at this
        rcases this with rfl | rfl <;> decide) rfl
  have h2 : Says 100 lateEarly 15 ['a'] ['c'] (3 : Int) := .static (m := tmsg ['c'] ['a'] 0 3) rfl rfl
  have h3 : Says 100 lateEarly 15 ['c'] ['w'] (4 : Int) := .static (m := tmsg ['w'] ['c'] 0 4) rfl rfl
  refine ⟨⟨by decide, ?_, ?_⟩, ⟨_, _, 3, by decide, .snoc (.snoc (.snoc .refl h1 (by decide)) h2 (by decide)) h3 (by decide),
    fun ⟨_, _, h, _⟩ => hw h⟩, ⟨_, _, 0, by decide, .refl, fun ⟨_, _, h, _⟩ => hw h⟩⟩
  · intro m a s hm _
    simp only [lateEarly, List.mem_cons, List.not_mem_nil, or_false, Op.set.injEq] at hm
    rcases hm with ⟨rfl, _⟩ | ⟨rfl, _⟩ | ⟨rfl, _⟩ | ⟨rfl, _⟩ | ⟨rfl, _⟩ | ⟨rfl, _⟩ | ⟨rfl, _⟩ | ⟨rfl, _⟩ <;> decide
  · intro m a s hm _
    simp only [lateEarly, List.mem_cons, List.not_mem_nil, or_false, Op.set.injEq] at hm
    rcases hm with ⟨rfl, _⟩ | ⟨rfl, _⟩ | ⟨rfl, _⟩ | ⟨rfl, _⟩ | ⟨rfl, _⟩ | ⟨rfl, _⟩ | ⟨rfl, _⟩ | ⟨rfl, _⟩ <;> decide

example : ((Buf.init 100).run lateEarly).lookupTransform ['w'] ['d'] 15 = .ok (tmsg ['w'] ['d'] 15 32) ∧
    ((Buf.init 100).run lateLate).lookupTransform ['w'] ['d'] 15 = .ok (tmsg ['w'] ['d'] 15 32) := by decide +kernel

/-- C65, finding. A malformed message takes the place of a good one in the latched message although every buffer
refuses it: those who connect later do not get the frame at all. -/
theorem C65_malformed_finding :
    ∃ calls : List (List (Msg Int)),
      let read := fun ms : List (Msg Int) =>
        ((Buf.init 100).run (ms.map (fun m => Op.set m ['p'] true))).lookupTransform ['w'] ['a'] 5
      read (earlyReceives calls) = .ok (tmsg ['w'] ['a'] 5 1) ∧
      read (lateReceives calls []) = .throw .lookup :=
  ⟨[[tmsg ['w'] ['a'] 0 1], [tmsg ['a'] ['a'] 0 1]], by decide +kernel⟩

end Tf2
