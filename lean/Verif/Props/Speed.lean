import Verif.Proofs.Speed
import Verif.Props.Drift

/-!
# C87: the answers move no faster than what was published
-/
namespace Tf2

variable {D : Duration} {ops : List (Op Pose)} {par : Name → Option Name} {depth : Name → Nat} {v w L : ℝ}

/-! ### One frame -/

theorem Effective.unit (hU : AllOffered (fun p : Pose => p.rot.Unit) ops) {n : Name} {m : Msg Pose} (h : Effective D ops n m) :
    m.xf.rot.Unit := by
  rcases recentFor_mem h.mem with h | ⟨s, h⟩
  · cases h
  · obtain ⟨⟨a, ha⟩, _⟩ := offersFor_mem h
    exact hU _ _ _ ha

/-- Both times between the same two messages. -/
theorem segment_speed (hU : AllOffered (fun p : Pose => p.rot.Unit) ops) (hsp : SpeedLimit D ops v w) {n : Name} {m0 : Msg Pose}
    {r : List (Msg Pose × Bool)} (h0 : offersFor n ops = (m0, false) :: r) {o k : Msg Pose} (ho : Effective D ops n o)
    (hk : Effective D ops n k) (hlt : o.stamp < k.stamp)
    (hc : ∀ j, Effective D ops n j → j.stamp ≤ o.stamp ∨ k.stamp ≤ j.stamp) {t1 t2 : Time} (h12 : t1 ≤ t2) (u : Vec3 ℝ) :
    ((Pose.interp o.xf k.xf ((t1 : Int) - o.stamp) ((k.stamp : Int) - o.stamp)).act u).apart
      ((Pose.interp o.xf k.xf ((t2 : Int) - o.stamp) ((k.stamp : Int) - o.stamp)).act u) ≤
      (v + w * u.length) * ((t2 : ℝ) - t1) := by
  obtain ⟨s1, s2⟩ := hsp n m0 r o k h0 ho hk hlt hc
  refine (Pose.apart_interp (ho.unit hU) (hk.unit hU) _ _ _ u).trans ?_
  have hd : (0 : ℝ) < (k.stamp : ℝ) - o.stamp := by have : (o.stamp : ℝ) < k.stamp := by exact_mod_cast hlt
                                                    linarith
  have ht : (0 : ℝ) ≤ (t2 : ℝ) - t1 := by have : (t1 : ℝ) ≤ t2 := by exact_mod_cast h12
                                          linarith
  push_cast
  rw [← sub_div, abs_div, abs_of_pos hd, show ((t1 : ℝ) - o.stamp - (t2 - o.stamp)) = -((t2 : ℝ) - t1) by ring, abs_neg,
    abs_of_nonneg ht, div_mul_eq_mul_div, div_le_iff₀ hd]
  have h3 := mul_le_mul_of_nonneg_right s2 (Vec3.length_nonneg' u)
  have h4 := mul_le_mul_of_nonneg_left (add_le_add s1 h3) ht
  calc _ ≤ _ := h4
    _ = _ := by ring

/-- No message strictly between the two times. -/
theorem says_segment (hT : OneTree ops par depth) (hU : AllOffered (fun p : Pose => p.rot.Unit) ops) (hsp : SpeedLimit D ops v w)
    {n : Name} {m0 : Msg Pose} {r : List (Msg Pose × Bool)} (h0 : offersFor n ops = (m0, false) :: r)
    {t1 t2 : Time} (h12 : t1 < t2) {p1 p2 : Name} {e1 e2 : Pose} (s1 : Says D ops t1 n p1 e1) (s2 : Says D ops t2 n p2 e2)
    (hno : ∀ j, Effective D ops n j → j.stamp ≤ t1 ∨ t2 ≤ j.stamp) (u : Vec3 ℝ) :
    (e1.act u).apart (e2.act u) ≤ (v + w * u.length) * ((t2 : ℝ) - t1) := by
  have nsw : ∀ {o k : Msg Pose}, Effective D ops n o → Effective D ops n k → stripSlash o.parent = stripSlash k.parent := by
    have q : ∀ {o : Msg Pose}, Effective D ops n o → par n = some (stripSlash o.parent) := by
      intro o ho
      rcases recentFor_mem ho.mem with h | ⟨s, h⟩
      · cases h
      · obtain ⟨⟨a, ha⟩, hv, hc⟩ := offersFor_mem h
        rw [← hc]; exact hT.agrees _ _ _ ha hv
    intro o k ho hk
    have := q ho; rw [q hk] at this; injection this with this; exact this.symm
  have st0 : ∀ {o k : Msg Pose}, o.xf = Pose.interp o.xf k.xf ((o.stamp : Int) - o.stamp) ((k.stamp : Int) - o.stamp) := by
    intro o k; rw [sub_self]; exact (interpZero_pose _ _ _).symm
  cases s1 with
  | static h1 _ => rw [h0] at h1; cases h1
  | switch _ ho hk _ _ _ hne => exact absurd (nsw ho hk) hne
  | @exact m0' o _ h1 ho e1 =>
    cases s2 with
    | static h1 _ => rw [h0] at h1; cases h1
    | switch _ ho hk _ _ _ hne => exact absurd (nsw ho hk) hne
    | @exact m0'' k _ h2 hk e2 =>
      have hc : ∀ j, Effective D ops n j → j.stamp ≤ o.stamp ∨ k.stamp ≤ j.stamp := by rw [e1, e2]; exact hno
      have h := segment_speed hU hsp h0 ho hk (by omega) hc (t1 := t1) (t2 := t2) (by omega) u
      subst e1 e2
      rw [← st0, Pose.act_interp_one (ho.unit hU) (hk.unit hU) (by omega)] at h
      exact h
    | @between m0'' o' k _ h2 ho' hk ha hb hc _ =>
      have : o'.stamp = o.stamp := by
        rcases hno o' ho' with h | h
        · rcases hc o ho with h' | h' <;> omega
        · omega
      obtain rfl := ho'.unique ho this
      have h := segment_speed hU hsp h0 ho hk (by omega) hc (t1 := t1) (t2 := t2) (by omega) u
      subst e1
      rw [← st0] at h
      exact h
  | @between m0' o k _ h1 ho hk ha hb hc _ =>
    have hk2 : t2 ≤ k.stamp := by rcases hno k hk with h | h <;> omega
    cases s2 with
    | static h1 _ => rw [h0] at h1; cases h1
    | switch _ ho hk _ _ _ hne => exact absurd (nsw ho hk) hne
    | @exact m0'' k' _ h2 hk' e2 =>
      have : k'.stamp = k.stamp := by rcases hc k' hk' with h | h <;> omega
      obtain rfl := hk'.unique hk this
      have h := segment_speed hU hsp h0 ho hk (by omega) hc (t1 := t1) (t2 := t2) (by omega) u
      subst e2
      rw [Pose.act_interp_one (ho.unit hU) (hk.unit hU) (by omega)] at h
      exact h
    | @between m0'' o' k' _ h2 ho' hk' ha' hb' hc' _ =>
      have e1 : o'.stamp = o.stamp := by
        rcases hno o' ho' with h | h
        · rcases hc o' ho' with h' | h'
          · rcases hc' o ho with h'' | h'' <;> omega
          · omega
        · omega
      have e2 : k'.stamp = k.stamp := by
        rcases hc k' hk' with h | h
        · omega
        · rcases hc' k hk with h' | h' <;> omega
      obtain rfl := ho'.unique ho e1
      obtain rfl := hk'.unique hk e2
      exact segment_speed hU hsp h0 ho hk (by omega) hc (t1 := t1) (t2 := t2) (by omega) u

theorem Says.functional (hT : OneTree ops par depth) {t : Time} {n p1 p2 : Name} {e1 e2 : Pose} (s1 : Says D ops t n p1 e1)
    (s2 : Says D ops t n p2 e2) : e1 = e2 := by
  have nsw : ∀ {o k : Msg Pose}, Effective D ops n o → Effective D ops n k → stripSlash o.parent = stripSlash k.parent := by
    have q : ∀ {o : Msg Pose}, Effective D ops n o → par n = some (stripSlash o.parent) := by
      intro o ho
      rcases recentFor_mem ho.mem with h | ⟨s, h⟩
      · cases h
      · obtain ⟨⟨a, ha⟩, hv, hc⟩ := offersFor_mem h
        rw [← hc]; exact hT.agrees _ _ _ ha hv
    intro o k ho hk
    have := q ho; rw [q hk] at this; injection this with this; exact this.symm
  cases s1 with
  | static h1 l1 =>
    cases s2 with
    | static h2 l2 => rw [l1] at l2; cases l2; rfl
    | exact h2 _ _ => rw [h1] at h2; cases h2
    | between h2 _ _ _ _ _ _ => rw [h1] at h2; cases h2
    | switch h2 _ _ _ _ _ _ => rw [h1] at h2; cases h2
  | switch _ ho hk _ _ _ hne => exact absurd (nsw ho hk) hne
  | exact h1 ho e1 =>
    cases s2 with
    | static h2 _ => rw [h1] at h2; cases h2
    | switch _ ho hk _ _ _ hne => exact absurd (nsw ho hk) hne
    | exact _ hk e2 => obtain rfl := ho.unique hk (by omega); rfl
    | between _ _ _ _ _ hc _ => rcases hc _ ho with h | h <;> omega
  | between h1 ho hk ha hb hc _ =>
    cases s2 with
    | static h2 _ => rw [h1] at h2; cases h2
    | switch _ ho hk _ _ _ hne => exact absurd (nsw ho hk) hne
    | exact _ hk' e2 => rcases hc _ hk' with h | h <;> omega
    | between _ ho' hk' ha' hb' hc' _ =>
      obtain rfl := ho'.unique ho (by rcases hc _ ho' with h | h <;> rcases hc' _ ho with h' | h' <;> omega)
      obtain rfl := hk'.unique hk (by rcases hc _ hk' with h | h <;> rcases hc' _ hk with h' | h' <;> omega)
      rfl

/-- **C87, one frame.** From one time to a later one, the image of the point `u` under what the messages say about a frame
moves by at most `(v + w * |u|)` times the time between. -/
theorem says_speed (hT : OneTree ops par depth) (hU : AllOffered (fun p : Pose => p.rot.Unit) ops) (hsp : SpeedLimit D ops v w)
    (hv : 0 ≤ v) (hw : 0 ≤ w) {n : Name} (u : Vec3 ℝ) (d : Nat) : ∀ {t1 t2 : Time}, t1 ≤ t2 → t2 - t1 ≤ d →
    ∀ {p1 p2 : Name} {e1 e2 : Pose}, Says D ops t1 n p1 e1 → Says D ops t2 n p2 e2 →
    (e1.act u).apart (e2.act u) ≤ (v + w * u.length) * ((t2 : ℝ) - t1) := by
  have hc0 : 0 ≤ v + w * u.length := add_nonneg hv (mul_nonneg hw (Vec3.length_nonneg' u))
  induction d with
  | zero =>
    intro t1 t2 h1 h2 p1 p2 e1 e2 s1 s2
    obtain rfl : t1 = t2 := by omega
    rw [s1.functional hT s2, Vec3.apart_self, sub_self, mul_zero]
  | succ d ih =>
    intro t1 t2 h1 h2 p1 p2 e1 e2 s1 s2
    by_cases heq : t1 = t2
    · subst heq
      rw [s1.functional hT s2, Vec3.apart_self, sub_self, mul_zero]
    have hnn : 0 ≤ (v + w * u.length) * ((t2 : ℝ) - t1) := by
      refine mul_nonneg hc0 ?_
      have : (t1 : ℝ) ≤ t2 := by exact_mod_cast h1
      linarith
    have hoff : ∃ m0 b r, offersFor n ops = (m0, b) :: r := by
      cases s1 with
      | static h _ => exact ⟨_, _, _, h⟩
      | exact h _ _ => exact ⟨_, _, _, h⟩
      | between h _ _ _ _ _ _ => exact ⟨_, _, _, h⟩
      | switch h _ _ _ _ _ _ => exact ⟨_, _, _, h⟩
    obtain ⟨m0, b, r, h0⟩ := hoff
    cases b with
    | true =>
      have q : ∀ {t : Time} {p : Name} {e : Pose}, Says D ops t n p e → ∃ m s, (offersFor n ops).getLast? = some (m, s) ∧ e = m.xf := by
        intro t p e h
        cases h with
        | static _ h2 => exact ⟨_, _, h2, rfl⟩
        | exact h _ _ => rw [h0] at h; cases h
        | between h _ _ _ _ _ _ => rw [h0] at h; cases h
        | switch h _ _ _ _ _ _ => rw [h0] at h; cases h
      obtain ⟨m, s, l1, rfl⟩ := q s1
      obtain ⟨m', s', l2, rfl⟩ := q s2
      rw [l1] at l2; cases l2
      rw [Vec3.apart_self]; exact hnn
    | false =>
      by_cases hex : ∃ j, Effective D ops n j ∧ t1 < j.stamp ∧ j.stamp < t2
      · obtain ⟨j, hj, a1, a2⟩ := hex
        have sj : Says D ops j.stamp n (stripSlash j.parent) j.xf := .exact h0 hj rfl
        have q1 := ih (t1 := t1) (t2 := j.stamp) (by omega) (by omega) s1 sj
        have q2 := ih (t1 := j.stamp) (t2 := t2) (by omega) (by omega) sj s2
        refine (Vec3.apart_triangle _ (j.xf.act u) _).trans ((add_le_add q1 q2).trans (le_of_eq ?_))
        ring
      · refine says_segment hT hU hsp h0 (by omega) s1 s2 (fun j hj => ?_) u
        by_contra hcon
        push Not at hcon
        exact hex ⟨j, hj, hcon.1, hcon.2⟩

/-! ### Ways -/

theorem Leads.ancestor (hT : OneTree ops par depth) {t : Time} {a c : Name} {x : Pose} {k : Nat} (h : Leads D ops t a c x k) :
    ancestor par k a = some c := by
  induction h with
  | refl => rfl
  | snoc _ hs _ ih => unfold Tf2.ancestor; rw [ih]; exact hT.says hs

theorem Leads.take {t : Time} {a c : Name} {x : Pose} {k j : Nat} (h : Leads D ops t a c x k) (hj : j ≤ k) :
    ∃ c' x', Leads D ops t a c' x' j := by
  induction h with
  | refl => obtain rfl : j = 0 := by omega
            exact ⟨_, _, .refl⟩
  | @snoc c p x e k hl hs hp ih =>
    by_cases hjk : j ≤ k
    · exact ih hjk
    · obtain rfl : j = k + 1 := by omega
      exact ⟨_, _, .snoc hl hs hp⟩

theorem ancestor_add (par : Name → Option Name) (i j : Nat) (a : Name) :
    ancestor par (i + j) a = (ancestor par i a).bind (ancestor par j) := by
  induction j with
  | zero => simp [ancestor]
  | succ j ih =>
    rw [← Nat.add_assoc]
    simp only [ancestor]
    rw [ih]
    cases ancestor par i a <;> rfl

theorem ancestor_deeper (hT : OneTree ops par depth) {k : Nat} {a c : Name} (h : ancestor par k a = some c) :
    depth c + k ≤ depth a := by
  induction k generalizing c with
  | zero => simp only [ancestor, Option.some.injEq] at h; rw [h]; simp
  | succ k ih =>
    simp only [ancestor] at h
    cases hb : ancestor par k a with
    | none => rw [hb] at h; cases h
    | some b =>
      rw [hb] at h
      have := ih hb
      have := hT.deeper _ _ h
      omega

theorem ancestor_inj (hT : OneTree ops par depth) {i j : Nat} {a c : Name} (hi : ancestor par i a = some c)
    (hj : ancestor par j a = some c) : i = j := by
  have key : ∀ {i j : Nat}, ancestor par i a = some c → ancestor par j a = some c → i ≤ j → i = j := by
    intro i j hi hj hij
    obtain ⟨d, rfl⟩ := Nat.exists_eq_add_of_le hij
    rw [ancestor_add, hi] at hj
    have := ancestor_deeper hT (show ancestor par d c = some c from hj)
    omega
  rcases Nat.le_total i j with h | h
  · exact key hi hj h
  · exact (key hj hi h).symm

/-- Two pairs of ways up to common frames differ by the same number of steps. -/
theorem ancestor_pair (hT : OneTree ops par depth) {s g c c' : Name} {k l k' l' : Nat} (hk : ancestor par k s = some c)
    (hl : ancestor par l g = some c) (hk' : ancestor par k' s = some c') (hl' : ancestor par l' g = some c') (h : k ≤ k') :
    l' = l + (k' - k) := by
  obtain ⟨d, rfl⟩ := Nat.exists_eq_add_of_le h
  rw [ancestor_add, hk] at hk'
  have : ancestor par (l + d) g = some c' := by rw [ancestor_add, hl]; exact hk'
  have := ancestor_inj hT hl' this
  omega

theorem Leads.reach_unit (hn : LengthsIn 1 1 ops) (hL : ShiftsWithin L ops) {t : Time} {a c : Name} {x : Pose} {k : Nat}
    (h : Leads D ops t a c x k) : x.trans.length ≤ k * L := by
  have := h.reach (by norm_num) hn hL (by norm_num)
  simp only [one_pow, Finset.sum_const, Finset.card_range, nsmul_eq_mul, mul_one] at this
  linarith

theorem lengthsIn_unit (hU : AllOffered (fun p : Pose => p.rot.Unit) ops) : LengthsIn 1 1 ops := by
  intro m a s hm _
  have := (Quat.unit_iff _).1 (hU m a s hm)
  exact ⟨this.ge, this.le⟩

section
variable (hT : OneTree ops par depth) (hU : AllOffered (fun p : Pose => p.rot.Unit) ops) (hsp : SpeedLimit D ops v w)
  (hL : ShiftsWithin L ops) (hL0 : 0 ≤ L) (hv : 0 ≤ v) (hw : 0 ≤ w) {t1 t2 : Time} (h12 : t1 ≤ t2)
include hT hU hsp hL hL0 hv hw h12

/-- Two ways of the same number of steps from the same frame, at two times; measured where they start. -/
theorem leads_speed {a c1 c2 : Name} {x1 x2 : Pose} {k : Nat} (l1 : Leads D ops t1 a c1 x1 k) (l2 : Leads D ops t2 a c2 x2 k)
    (u : Vec3 ℝ) : (x1.act u).apart (x2.act u) ≤ k * (v + w * (u.length + k * L)) * ((t2 : ℝ) - t1) := by
  have ht : (0 : ℝ) ≤ (t2 : ℝ) - t1 := by have : (t1 : ℝ) ≤ t2 := by exact_mod_cast h12
                                          linarith
  have hu := Vec3.length_nonneg' u
  induction l1 generalizing c2 x2 with
  | refl =>
    cases l2
    rw [Vec3.apart_self]; simp
  | @snoc c p x e k hl1 hs1 _ ih =>
    cases l2 with
    | @snoc c' p' x' e' k' hl2 hs2 _ =>
      obtain rfl : c = c' := by have := hl1.ancestor hT; rw [hl2.ancestor hT] at this; injection this with this; exact this.symm
      rw [Pose.act_comp, Pose.act_comp]
      refine (Vec3.apart_triangle _ (e.act (x'.act u)) _).trans ?_
      rw [Pose.apart_act (hs1.ok pose_laws hU)]
      have q1 := ih hl2
      have q2 := says_speed hT hU hsp hv hw (x'.act u) (t2 - t1) h12 (le_refl _) hs1 hs2
      have q3 : (x'.act u).length ≤ u.length + k * L :=
        (Pose.length_act (hl2.ok pose_laws hU) u).trans (by linarith [hl2.reach_unit (lengthsIn_unit hU) hL])
      have q4 : (v + w * (x'.act u).length) * ((t2 : ℝ) - t1) ≤ (v + w * (u.length + k * L)) * ((t2 : ℝ) - t1) :=
        mul_le_mul_of_nonneg_right (by linarith [mul_le_mul_of_nonneg_left q3 hw]) ht
      refine (add_le_add q1 (q2.trans q4)).trans ?_
      rw [← add_mul]
      refine mul_le_mul_of_nonneg_right ?_ ht
      push_cast
      have : 0 ≤ w * L := mul_nonneg hw hL0
      have : 0 ≤ (k : ℝ) * (w * L) := mul_nonneg (Nat.cast_nonneg _) this
      nlinarith

/-- The same, measured where they end. -/
theorem leads_speed_end {a c1 c2 : Name} {x1 x2 : Pose} {k : Nat} (l1 : Leads D ops t1 a c1 x1 k) (l2 : Leads D ops t2 a c2 x2 k)
    (u : Vec3 ℝ) : (x1.act u).apart (x2.act u) ≤ k * (v + w * ((x2.act u).length + k * L)) * ((t2 : ℝ) - t1) := by
  have ht : (0 : ℝ) ≤ (t2 : ℝ) - t1 := by have : (t1 : ℝ) ≤ t2 := by exact_mod_cast h12
                                          linarith
  induction l1 generalizing c2 x2 with
  | refl =>
    cases l2
    rw [Vec3.apart_self]; simp
  | @snoc c p x e k hl1 hs1 _ ih =>
    cases l2 with
    | @snoc c' p' x' e' k' hl2 hs2 _ =>
      obtain rfl : c = c' := by have := hl1.ancestor hT; rw [hl2.ancestor hT] at this; injection this with this; exact this.symm
      rw [Pose.act_comp, Pose.act_comp]
      refine (Vec3.apart_triangle _ (e.act (x'.act u)) _).trans ?_
      rw [Pose.apart_act (hs1.ok pose_laws hU)]
      have q1 := ih hl2
      have q2 := says_speed hT hU hsp hv hw (x'.act u) (t2 - t1) h12 (le_refl _) hs1 hs2
      have q3 : (x'.act u).length ≤ (e'.act (x'.act u)).length + L :=
        (Pose.length_le_act (hs2.ok pose_laws hU) _).trans
          (by linarith [(hs2.within (lo := 1) (hi := 1) (L := L) (by norm_num) (lengthsIn_unit hU)).2 hL])
      generalize (e'.act (x'.act u)).length = P at *
      have q4 : (v + w * (x'.act u).length) * ((t2 : ℝ) - t1) ≤ (v + w * (P + L)) * ((t2 : ℝ) - t1) :=
        mul_le_mul_of_nonneg_right (by linarith [mul_le_mul_of_nonneg_left q3 hw]) ht
      have q5 : k * (v + w * ((x'.act u).length + k * L)) * ((t2 : ℝ) - t1) ≤
          k * (v + w * (P + L + k * L)) * ((t2 : ℝ) - t1) := by
        refine mul_le_mul_of_nonneg_right (mul_le_mul_of_nonneg_left ?_ (Nat.cast_nonneg _)) ht
        have := mul_le_mul_of_nonneg_left q3 hw
        linarith
      refine (add_le_add (q1.trans q5) (q2.trans q4)).trans ?_
      rw [← add_mul]
      refine mul_le_mul_of_nonneg_right ?_ ht
      push_cast
      have : 0 ≤ w * L := mul_nonneg hw hL0
      have : 0 ≤ (k : ℝ) * (w * L) := mul_nonneg (Nat.cast_nonneg _) this
      nlinarith

end

/-! ### C87 -/

/-- **C87.** All messages agree with one tree, their quaternions have length one and their translations are at most `L`
long, and no frame is published as moving faster than `v` and turning faster than `w`.  Then the answers to lookups between
two frames at two times `t1 ≤ t2`, whose common frame in the tree is `k` steps above the source and `l` above the target, put
a point `u` of the source at places that are at most `N * (v + w * (|u| + N * L))` times `t2 - t1` apart, where `N = k + l`:
no answer jumps, however the messages arrived and wherever between them the times are. -/
theorem C87_speed (hreg : Regular D ops) (hT : OneTree ops par depth) (hU : AllOffered (fun p : Pose => p.rot.Unit) ops)
    (hsp : SpeedLimit D ops v w) (hL : ShiftsWithin L ops) (hL0 : 0 ≤ L) (hv : 0 ≤ v) (hw : 0 ≤ w) {target source : Name}
    (hne : target ≠ source) {t1 t2 : Time} (h0 : t1 ≠ 0) (h12 : t1 ≤ t2) {m1 m2 : Msg Pose}
    (a1 : ((Buf.init D).run ops).lookupTransform target source t1 = .ok m1)
    (a2 : ((Buf.init D).run ops).lookupTransform target source t2 = .ok m2) {c : Name} {k l : Nat}
    (hk : ancestor par k source = some c) (hl : ancestor par l target = some c) (u : Vec3 ℝ) :
    (m1.xf.act u).apart (m2.xf.act u) ≤
      (k + l : Nat) * (v + w * (u.length + (k + l : Nat) * L)) * ((t2 : ℝ) - t1) := by
  have h0' : t2 ≠ 0 := by omega
  have ht : (0 : ℝ) ≤ (t2 : ℝ) - t1 := by have : (t1 : ℝ) ≤ t2 := by exact_mod_cast h12
                                          linarith
  have ways : ∀ {t m}, t ≠ 0 → ((Buf.init D).run ops).lookupTransform target source t = .ok m →
      ∃ c x y k l, Leads D ops t source c x k ∧ Leads D ops t target c y l := by
    intro t m h h'
    have hst := (C59_sound hreg interpZero_pose h hne h').2.2.2.2.2.2.1
    obtain ⟨c, x, y, k, l, q1, q2, _⟩ := answer_ways hreg hne h' (by rw [hst]; exact h)
    rw [hst] at q1 q2
    exact ⟨c, x, y, k, l, q1, q2⟩
  -- a frame common to both answers, not above `c`
  obtain ⟨k0, l0, hk0, hl0, c0, x1, y1, x2, y2, p1, p2, p3, p4⟩ : ∃ k0 l0, k0 ≤ k ∧ l0 ≤ l ∧ ∃ c0 x1 y1 x2 y2,
      Leads D ops t1 source c0 x1 k0 ∧ Leads D ops t1 target c0 y1 l0 ∧
      Leads D ops t2 source c0 x2 k0 ∧ Leads D ops t2 target c0 y2 l0 := by
    obtain ⟨c1, x1, y1, k1, l1, hx1, hy1⟩ := ways h0 a1
    obtain ⟨c2, x2, y2, k2, l2, hx2, hy2⟩ := ways h0' a2
    have A1 := hx1.ancestor hT
    have B1 := hy1.ancestor hT
    have A2 := hx2.ancestor hT
    have B2 := hy2.ancestor hT
    -- the lowest of the three
    obtain ⟨k0, l0, c0, ek, el, i1, i2, i3, j1, j2, j3⟩ : ∃ k0 l0 c0, ancestor par k0 source = some c0 ∧ ancestor par l0 target = some c0 ∧
        k0 ≤ k ∧ k0 ≤ k1 ∧ k0 ≤ k2 ∧ l0 ≤ l ∧ l0 ≤ l1 ∧ l0 ≤ l2 := by
      by_cases h1 : k ≤ k1
      · by_cases h2 : k ≤ k2
        · have := ancestor_pair hT hk hl A1 B1 h1
          have := ancestor_pair hT hk hl A2 B2 h2
          exact ⟨k, l, c, hk, hl, by omega, by omega, by omega, by omega, by omega, by omega⟩
        · have := ancestor_pair hT A2 B2 A1 B1 (by omega)
          have := ancestor_pair hT A2 B2 hk hl (by omega)
          exact ⟨k2, l2, c2, A2, B2, by omega, by omega, by omega, by omega, by omega, by omega⟩
      · by_cases h2 : k1 ≤ k2
        · have := ancestor_pair hT A1 B1 A2 B2 h2
          have := ancestor_pair hT A1 B1 hk hl (by omega)
          exact ⟨k1, l1, c1, A1, B1, by omega, by omega, by omega, by omega, by omega, by omega⟩
        · have := ancestor_pair hT A2 B2 A1 B1 (by omega)
          have := ancestor_pair hT A2 B2 hk hl (by omega)
          exact ⟨k2, l2, c2, A2, B2, by omega, by omega, by omega, by omega, by omega, by omega⟩
    have tk : ∀ {t a c c' x n j}, Leads D ops t a c x n → j ≤ n → ancestor par j a = some c' → ∃ x', Leads D ops t a c' x' j := by
      intro t a c c' x n j h hj e
      obtain ⟨c'', x', h'⟩ := h.take hj
      have := h'.ancestor hT
      rw [e] at this; injection this with this
      exact ⟨x', this ▸ h'⟩
    obtain ⟨x1', q1⟩ := tk hx1 i2 ek
    obtain ⟨y1', q2⟩ := tk hy1 j2 el
    obtain ⟨x2', q3⟩ := tk hx2 i3 ek
    obtain ⟨y2', q4⟩ := tk hy2 j3 el
    exact ⟨k0, l0, i1, j1, c0, x1', y1', x2', y2', q1, q2, q3, q4⟩
  have e1 : m1.xf = Rigid.comp (Rigid.inv y1) x1 :=
    C59_value pose_laws hU hreg interpZero_pose h0 hne a1 (hT.wayEnds _ _) p1 p2
  have e2 : m2.xf = Rigid.comp (Rigid.inv y2) x2 :=
    C59_value pose_laws hU hreg interpZero_pose h0' hne a2 (hT.wayEnds _ _) p3 p4
  have uy1 := p2.ok pose_laws hU
  have uy2 := p4.ok pose_laws hU
  rw [e1, e2, Pose.act_comp, Pose.act_comp, ← Pose.apart_act uy1, Pose.act_inv uy1]
  have r1 := leads_speed hT hU hsp hL hL0 hv hw h12 p1 p3 u
  have r2 := leads_speed_end hT hU hsp hL hL0 hv hw h12 p2 p4 ((Rigid.inv y2).act (x2.act u))
  rw [Pose.act_inv uy2, Vec3.apart_comm] at r2
  have r3 : (x2.act u).length ≤ u.length + k0 * L :=
    (Pose.length_act (p3.ok pose_laws hU) u).trans (by linarith [p3.reach_unit (lengthsIn_unit hU) hL])
  refine (Vec3.apart_triangle _ (x2.act u) _).trans ((add_le_add r1 r2).trans ?_)
  rw [← add_mul]
  refine mul_le_mul_of_nonneg_right ?_ ht
  have hu := Vec3.length_nonneg' u
  have K : ((k0 + l0 : Nat) : ℝ) ≤ ((k + l : Nat) : ℝ) := by exact_mod_cast (by omega : k0 + l0 ≤ k + l)
  push_cast at K ⊢
  have k0n : (0 : ℝ) ≤ k0 := Nat.cast_nonneg _
  have l0n : (0 : ℝ) ≤ l0 := Nat.cast_nonneg _
  have z1 : (v + w * (u.length + k0 * L)) ≤ v + w * (u.length + (k + l) * L) := by
    have := mul_le_mul_of_nonneg_right (show (k0 : ℝ) ≤ k + l by linarith) hL0
    have := mul_le_mul_of_nonneg_left this hw
    linarith
  have z2 : (v + w * ((x2.act u).length + l0 * L)) ≤ v + w * (u.length + (k + l) * L) := by
    have := mul_le_mul_of_nonneg_right K hL0
    have := mul_le_mul_of_nonneg_left (show (x2.act u).length + l0 * L ≤ u.length + (k + l) * L by linarith) hw
    linarith
  have z0 : 0 ≤ v + w * (u.length + ((k : ℝ) + l) * L) := by
    have : 0 ≤ ((k : ℝ) + l) * L := by positivity
    have := mul_nonneg hw (add_nonneg hu this)
    linarith
  have z3 := mul_le_mul_of_nonneg_left z1 k0n
  have z4 := mul_le_mul_of_nonneg_left z2 l0n
  have z5 := mul_le_mul_of_nonneg_right K z0
  linarith

/-- **C87, at rest.** If no frame is published as moving, a lookup between two frames answers the same at all times. -/
theorem C87_rest (hreg : Regular D ops) (hT : OneTree ops par depth) (hU : AllOffered (fun p : Pose => p.rot.Unit) ops)
    (hsp : SpeedLimit D ops 0 0) (hL : ShiftsWithin L ops) (hL0 : 0 ≤ L) {target source : Name}
    (hne : target ≠ source) {t1 t2 : Time} (h0 : t1 ≠ 0) (h12 : t1 ≤ t2) {m1 m2 : Msg Pose}
    (a1 : ((Buf.init D).run ops).lookupTransform target source t1 = .ok m1)
    (a2 : ((Buf.init D).run ops).lookupTransform target source t2 = .ok m2) (u : Vec3 ℝ) :
    m1.xf.act u = m2.xf.act u := by
  have hst := (C59_sound hreg interpZero_pose h0 hne a1).2.2.2.2.2.2.1
  obtain ⟨c, x, y, k, l, q1, q2, _⟩ := answer_ways hreg hne a1 (by rw [hst]; exact h0)
  have h := C87_speed hreg hT hU hsp hL hL0 le_rfl le_rfl hne h0 h12 a1 a2 (q1.ancestor hT) (q2.ancestor hT) u
  simp only [zero_mul, add_zero, mul_zero] at h
  exact Vec3.eq_of_apart (le_antisymm h (Vec3.apart_nonneg _ _))

/-! ### A frame that moves and turns, with another one fixed to it -/

/-- `a` moves from the origin of `w` to the pose `q` in ten nanoseconds; `b` is fixed to it. -/
noncomputable def movingOps (q : Pose) : List (Op Pose) :=
  [.set ⟨['w'], ['a'], 10, ⟨⟨0, 0, 0, 1⟩, ⟨0, 0, 0⟩⟩⟩ ['p'] false,
   .set ⟨['w'], ['a'], 20, q⟩ ['p'] false,
   .set ⟨['a'], ['b'], 0, ⟨⟨0, 0, 0, 1⟩, ⟨1, 0, 0⟩⟩⟩ ['p'] true]

local macro "dec" : tactic => `(tactic| first | decide | (dsimp only; decide) | (dsimp only; omega))

theorem unit_valid {p : Pose} (hp : p.rot.Unit) : Rigid.hasNaN p = false ∧ Rigid.normOK p = true := by
  refine ⟨rfl, ?_⟩
  show Pose.normOK p = true
  unfold Quat.Unit at hp
  have : p.rot.w * p.rot.w + p.rot.x * p.rot.x + p.rot.y * p.rot.y + p.rot.z * p.rot.z - 1 = 0 := by linarith
  simp only [Pose.normOK, this, abs_zero, decide_eq_true_eq]
  norm_num

theorem unit_identity : Quat.identity.Unit (K := ℝ) := by unfold Quat.Unit Quat.identity; norm_num
theorem unit_id : (⟨0, 0, 0, 1⟩ : Quat ℝ).Unit := by unfold Quat.Unit; norm_num
theorem unit_345 : (⟨0, 0, 3/5, 4/5⟩ : Quat ℝ).Unit := by unfold Quat.Unit; norm_num

/-- The tree of `movingOps`. -/
def movingPar : Name → Option Name := fun n => if n = ['a'] then some ['w'] else if n = ['b'] then some ['a'] else none
def movingDepth : Name → Nat := fun n => if n = ['a'] then 1 else if n = ['b'] then 2 else 0

variable {q : Pose} (hq : q.rot.Unit) (hq' : q.trans.length ≤ 10)
include hq hq'

theorem moving_given {m a s} (hm : Op.set m a s ∈ (movingOps q)) : ValidMsg m ∧ m.xf.rot.Unit ∧ m.xf.trans.length ≤ 10 ∧
    (m.stamp : Int) + 100 ≤ TIME_MAX ∧ stripSlash m.child ≠ noParentName ∧
    movingPar (stripSlash m.child) = some (stripSlash m.parent) := by
  simp only [movingOps, List.mem_cons, List.not_mem_nil, or_false, Op.set.injEq] at hm
  have hl : ∀ v : Vec3 ℝ, v.length2 ≤ 100 → v.length ≤ 10 := fun v hv =>
    Real.sqrt_le_iff.2 ⟨by norm_num, by norm_num; exact hv⟩
  rcases hm with ⟨rfl, _, rfl⟩ | ⟨rfl, _, rfl⟩ | ⟨rfl, _, rfl⟩
  · exact ⟨⟨by decide, by decide, by decide, (unit_valid (p := ⟨⟨0, 0, 0, 1⟩, _⟩) unit_id).1, (unit_valid (p := ⟨⟨0, 0, 0, 1⟩, _⟩) unit_id).2⟩,
      unit_id, hl _ (by simp only [Vec3.length2, Vec3.dot]; norm_num), by decide, by decide, by decide⟩
  · exact ⟨⟨by dec, by dec, by dec, (unit_valid hq).1, (unit_valid hq).2⟩,
      hq, hq', by dec, by dec, by dec⟩
  · exact ⟨⟨by decide, by decide, by decide, (unit_valid (p := ⟨⟨0, 0, 0, 1⟩, _⟩) unit_id).1, (unit_valid (p := ⟨⟨0, 0, 0, 1⟩, _⟩) unit_id).2⟩,
      unit_id, hl _ (by simp only [Vec3.length2, Vec3.dot]; norm_num), by decide, by decide, by decide⟩

theorem moving_regular : Regular 100 (movingOps q) :=
  ⟨by decide, fun _ _ _ hm _ => (moving_given hq hq' hm).2.2.2.1, fun _ _ _ hm _ => (moving_given hq hq' hm).2.2.2.2.1⟩

theorem moving_tree : OneTree (movingOps q) movingPar movingDepth where
  agrees _ _ _ hm _ := (moving_given hq hq' hm).2.2.2.2.2
  deeper n p h := by
    unfold movingPar at h
    split at h
    · cases h; rename_i hn; subst hn; decide
    · split at h
      · cases h; rename_i hn; subst hn; decide
      · cases h
  bound n := by unfold movingDepth; split <;> [decide; (split <;> decide)]
  named n p h := by
    unfold movingPar at h
    split at h
    · cases h; decide
    · split at h
      · cases h; decide
      · cases h

theorem moving_lists : offersFor ['a'] (movingOps q) = [(⟨['w'], ['a'], 10, ⟨⟨0, 0, 0, 1⟩, ⟨0, 0, 0⟩⟩⟩, false),
      (⟨['w'], ['a'], 20, q⟩, false)] ∧
    offersFor ['b'] (movingOps q) = [(⟨['a'], ['b'], 0, ⟨⟨0, 0, 0, 1⟩, ⟨1, 0, 0⟩⟩⟩, true)] ∧ offersFor ['w'] (movingOps q) = [] ∧
    recentFor ['a'] (movingOps q) [] = [⟨['w'], ['a'], 10, ⟨⟨0, 0, 0, 1⟩, ⟨0, 0, 0⟩⟩⟩,
      ⟨['w'], ['a'], 20, q⟩] := by
  have va := (moving_given hq hq' (m := _) (List.mem_cons_self ..)).1
  have vb := (moving_given hq hq' (m := _) (List.mem_cons_of_mem _ (List.mem_cons_self ..))).1
  have vc := (moving_given hq hq' (m := _) (List.mem_cons_of_mem _ (List.mem_cons_of_mem _ (List.mem_cons_self ..)))).1
  exact ⟨by simp [movingOps, offersFor, va, vb, stripSlash], by simp [movingOps, offersFor, vc, stripSlash],
    by simp [movingOps, offersFor, stripSlash], by simp [movingOps, recentFor, va, vb, stripSlash]⟩

theorem moving_speed {v w : ℝ} (hv : q.trans.length ≤ v * 10) (hw : turnAngle ⟨0, 0, 0, 1⟩ q.rot ≤ w * 10) :
    SpeedLimit 100 (movingOps q) v w := by
  obtain ⟨oa, ob, ow, ra⟩ := moving_lists hq hq'
  intro n m0 r o k h0 ho hk hlt _
  by_cases hn : n = ['a']
  · subst hn
    have ho' := ho.mem
    have hk' := hk.mem
    rw [ra] at ho' hk'
    simp only [List.mem_cons, List.not_mem_nil, or_false] at ho' hk'
    rcases ho' with rfl | rfl <;> rcases hk' with rfl | rfl
    · exact absurd hlt (by decide)
    · have e : (((20 : Nat) : ℝ) - ((10 : Nat) : ℝ)) = 10 := by norm_num
      dsimp only
      rw [e]
      refine ⟨?_, hw⟩
      have : (⟨0, 0, 0⟩ : Vec3 ℝ).apart q.trans = q.trans.length := by
        unfold Vec3.apart Vec3.length Vec3.length2 Vec3.dot; congr 1; ring
      rw [this]; exact hv
    · exact absurd hlt (by dec)
    · exact absurd hlt (by dec)
  · exfalso
    have hmem : (m0, false) ∈ offersFor n (movingOps q) := by rw [h0]; exact List.mem_cons_self ..
    obtain ⟨⟨a, ha⟩, _, hc⟩ := offersFor_mem hmem
    simp only [movingOps, List.mem_cons, List.not_mem_nil, or_false, Op.set.injEq] at ha
    rcases ha with ⟨rfl, _⟩ | ⟨rfl, _⟩ | ⟨_, _, h⟩
    · exact hn hc.symm
    · exact hn hc.symm
    · cases h

theorem moving_answer {t : Time} (h1 : 10 < t) (h2 : t < 20) : ∃ m, ((Buf.init 100).run (movingOps q)).lookupTransform ['w'] ['b'] t = .ok m := by
  obtain ⟨oa, ob, ow, ra⟩ := moving_lists hq hq'
  have eff : ∀ m ∈ recentFor ['a'] (movingOps q) [], Effective 100 (movingOps q) ['a'] m := by
    intro m hm
    rw [ra] at hm
    simp only [List.mem_cons, List.not_mem_nil, or_false] at hm
    refine ⟨by rw [ra]; rcases hm with rfl | rfl <;> rfl, ?_⟩
    rw [ra]
    intro a ha
    simp only [List.mem_cons, List.not_mem_nil, or_false] at ha
    rcases ha with rfl | rfl <;> rcases hm with rfl | rfl <;> dec
  have e1 := eff ⟨['w'], ['a'], 10, ⟨⟨0, 0, 0, 1⟩, ⟨0, 0, 0⟩⟩⟩ (by rw [ra]; exact List.mem_cons_self ..)
  have e2 := eff ⟨['w'], ['a'], 20, q⟩
    (by rw [ra]; exact List.mem_cons_of_mem _ (List.mem_cons_self ..))
  have sa : Says 100 (movingOps q) t ['a'] ['w'] _ := .between oa e1 e2 h1 h2 (fun k hk => by
    have := List.mem_of_find?_eq_some hk.1
    rw [ra] at this
    simp only [List.mem_cons, List.not_mem_nil, or_false] at this
    rcases this with rfl | rfl
    · exact .inl (by decide)
    · exact .inr (by dec)) rfl
  have sb : Says 100 (movingOps q) t ['b'] ['a'] _ := .static ob (by rw [ob]; rfl)
  have la : Leads 100 (movingOps q) t ['b'] ['w'] _ 2 := .snoc (.snoc .refl sb (by decide)) sa (by decide)
  exact (C59_complete (moving_regular hq hq') interpZero_pose (by omega) sa.mentioned.2 sb.mentioned.1 (by decide) (by decide)
    ⟨by decide, by decide⟩ ⟨by decide, by decide⟩ ((moving_tree hq hq').wayEnds _ _) ((moving_tree hq hq').wayEnds _ _)).2 ⟨_, _, _, _, _, la, .refl⟩

omit hq hq'

/-- The hypotheses of `C87_speed` are met: `a` moves ten metres and turns; the answers for `b` at two times between the
messages. -/
example : let ops := movingOps ⟨⟨0, 0, 3/5, 4/5⟩, ⟨10, 0, 0⟩⟩
    Regular 100 ops ∧ OneTree ops movingPar movingDepth ∧ AllOffered (fun p : Pose => p.rot.Unit) ops ∧
    SpeedLimit 100 ops 1 (1 / 2) ∧ ShiftsWithin 10 ops ∧ ancestor movingPar 2 ['b'] = some ['w'] ∧
    ancestor movingPar 0 ['w'] = some ['w'] ∧
    ∃ m1 m2, ((Buf.init 100).run ops).lookupTransform ['w'] ['b'] 13 = .ok m1 ∧
      ((Buf.init 100).run ops).lookupTransform ['w'] ['b'] 17 = .ok m2 := by
  have hq : (⟨⟨0, 0, 3/5, 4/5⟩, ⟨10, 0, 0⟩⟩ : Pose).rot.Unit := unit_345
  have hq' : (⟨⟨0, 0, 3/5, 4/5⟩, ⟨10, 0, 0⟩⟩ : Pose).trans.length ≤ 10 :=
    Real.sqrt_le_iff.2 ⟨by norm_num, by simp only [Vec3.length2, Vec3.dot]; norm_num⟩
  obtain ⟨m1, h1⟩ := moving_answer hq hq' (t := 13) (by decide) (by decide)
  obtain ⟨m2, h2⟩ := moving_answer hq hq' (t := 17) (by decide) (by decide)
  refine ⟨moving_regular hq hq', moving_tree hq hq', fun _ _ _ hm => (moving_given hq hq' hm).2.1, moving_speed hq hq' ?_ ?_,
    fun _ _ _ hm _ => (moving_given hq hq' hm).2.2.1, by decide, by decide, m1, m2, h1, h2⟩
  · linarith
  · have : Real.arccos |(⟨0, 0, 0, 1⟩ : Quat ℝ).dot ⟨0, 0, 3/5, 4/5⟩| ≤ Real.pi / 2 := Real.arccos_le_pi_div_two.2 (abs_nonneg _)
    have hπ := Real.pi_le_four
    unfold turnAngle
    linarith

/-- The hypotheses of `C87_rest` are met: the same with `a` published twice at the same place. -/
example : let ops := movingOps Pose.one
    Regular 100 ops ∧ OneTree ops movingPar movingDepth ∧ AllOffered (fun p : Pose => p.rot.Unit) ops ∧
    SpeedLimit 100 ops 0 0 ∧ ShiftsWithin 10 ops ∧
    ∃ m1 m2, ((Buf.init 100).run ops).lookupTransform ['w'] ['b'] 13 = .ok m1 ∧
      ((Buf.init 100).run ops).lookupTransform ['w'] ['b'] 17 = .ok m2 := by
  have hq : Pose.one.rot.Unit := unit_identity
  have h0 : Pose.one.trans.length = 0 := by simp [Pose.one, Vec3.zero, Vec3.length, Vec3.length2, Vec3.dot]
  have hq' : Pose.one.trans.length ≤ 10 := by rw [h0]; norm_num
  obtain ⟨m1, h1⟩ := moving_answer hq hq' (t := 13) (by decide) (by decide)
  obtain ⟨m2, h2⟩ := moving_answer hq hq' (t := 17) (by decide) (by decide)
  refine ⟨moving_regular hq hq', moving_tree hq hq', fun _ _ _ hm => (moving_given hq hq' hm).2.1, moving_speed hq hq' ?_ ?_,
    fun _ _ _ hm _ => (moving_given hq hq' hm).2.2.1, m1, m2, h1, h2⟩
  · rw [h0]; simp
  · have : (⟨0, 0, 0, 1⟩ : Quat ℝ).dot Pose.one.rot = 1 := by simp [Pose.one, Quat.identity, Quat.dot]
    unfold turnAngle
    rw [this]; simp

/-! ### Finding -/

/-- `a` stays at the origin of `w`, then at the origin of `q`, which is a thousand metres away. -/
noncomputable def hopOps : List (Op Pose) :=
  [.set ⟨['w'], ['a'], 10, Pose.one⟩ ['p'] false, .set ⟨['q'], ['a'], 20, Pose.one⟩ ['p'] false,
   .set ⟨['w'], ['q'], 0, ⟨Quat.identity, ⟨1000, 0, 0⟩⟩⟩ ['p'] true]

theorem hop_given {m a s} (hm : Op.set m a s ∈ hopOps) : ValidMsg m ∧ m.xf.rot.Unit ∧ (m.stamp : Int) + 100 ≤ TIME_MAX ∧
    stripSlash m.child ≠ noParentName := by
  simp only [hopOps, List.mem_cons, List.not_mem_nil, or_false, Op.set.injEq] at hm
  have hv : ∀ v, Rigid.hasNaN (⟨Quat.identity, v⟩ : Pose) = false ∧ Rigid.normOK (⟨Quat.identity, v⟩ : Pose) = true :=
    fun v => unit_valid (p := ⟨Quat.identity, v⟩) unit_identity
  rcases hm with ⟨rfl, _, rfl⟩ | ⟨rfl, _, rfl⟩ | ⟨rfl, _, rfl⟩ <;>
    exact ⟨⟨by decide, by decide, by decide, (hv _).1, (hv _).2⟩, unit_identity, by decide, by decide⟩

theorem hop_regular : Regular 100 hopOps :=
  ⟨by decide, fun _ _ _ hm _ => (hop_given hm).2.2.1, fun _ _ _ hm _ => (hop_given hm).2.2.2⟩

theorem hop_lists : offersFor ['a'] hopOps = [(⟨['w'], ['a'], 10, Pose.one⟩, false), (⟨['q'], ['a'], 20, Pose.one⟩, false)] ∧
    offersFor ['q'] hopOps = [(⟨['w'], ['q'], 0, ⟨Quat.identity, ⟨1000, 0, 0⟩⟩⟩, true)] ∧ offersFor ['w'] hopOps = [] ∧
    recentFor ['a'] hopOps [] = [⟨['w'], ['a'], 10, Pose.one⟩, ⟨['q'], ['a'], 20, Pose.one⟩] := by
  have va := (hop_given (m := _) (List.mem_cons_self ..)).1
  have vb := (hop_given (m := _) (List.mem_cons_of_mem _ (List.mem_cons_self ..))).1
  have vc := (hop_given (m := _) (List.mem_cons_of_mem _ (List.mem_cons_of_mem _ (List.mem_cons_self ..)))).1
  exact ⟨by simp [hopOps, offersFor, va, vb, stripSlash], by simp [hopOps, offersFor, vc, stripSlash],
    by simp [hopOps, offersFor, stripSlash], by simp [hopOps, recentFor, va, vb, stripSlash]⟩

theorem hop_effective {m : Msg Pose} (hm : m ∈ recentFor ['a'] hopOps []) : Effective 100 hopOps ['a'] m := by
  obtain ⟨oa, oq, ow, ra⟩ := hop_lists
  rw [ra] at hm
  simp only [List.mem_cons, List.not_mem_nil, or_false] at hm
  refine ⟨by rw [ra]; rcases hm with rfl | rfl <;> rfl, ?_⟩
  rw [ra]
  intro a ha
  simp only [List.mem_cons, List.not_mem_nil, or_false] at ha
  rcases ha with rfl | rfl <;> rcases hm with rfl | rfl <;> decide

theorem hop_speed : SpeedLimit 100 hopOps 0 0 := by
  obtain ⟨oa, oq, ow, ra⟩ := hop_lists
  have one : ∀ {n m0 r o}, offersFor n hopOps = (m0, false) :: r → Effective 100 hopOps n o → o.xf = Pose.one := by
    intro n m0 r o h0 ho
    have hmem : (m0, false) ∈ offersFor n hopOps := by rw [h0]; exact List.mem_cons_self ..
    obtain ⟨⟨a, ha⟩, _, hc⟩ := offersFor_mem hmem
    have hn : n = ['a'] := by
      simp only [hopOps, List.mem_cons, List.not_mem_nil, or_false, Op.set.injEq] at ha
      rcases ha with ⟨rfl, _⟩ | ⟨rfl, _⟩ | ⟨_, _, h⟩
      · exact hc.symm
      · exact hc.symm
      · cases h
    subst hn
    have := ho.mem
    rw [ra] at this
    simp only [List.mem_cons, List.not_mem_nil, or_false] at this
    rcases this with rfl | rfl <;> rfl
  intro n m0 r o k h0 ho hk _ _
  rw [one h0 ho, one h0 hk]
  refine ⟨by rw [Vec3.apart_self]; simp, ?_⟩
  have : (Pose.one.rot : Quat ℝ).dot Pose.one.rot = 1 := by simp [Pose.one, Quat.identity, Quat.dot]
  unfold turnAngle
  rw [this]; simp

/-- **C87, finding.** Without the tree the claim is false: nothing is published as moving, yet when a frame changes parent the
answers jump, here by a thousand metres within one nanosecond. -/
theorem C87_hop_finding : Regular 100 hopOps ∧ AllOffered (fun p : Pose => p.rot.Unit) hopOps ∧ SpeedLimit 100 hopOps 0 0 ∧
    ∃ m1 m2, ((Buf.init 100).run hopOps).lookupTransform ['w'] ['a'] 19 = .ok m1 ∧
      ((Buf.init 100).run hopOps).lookupTransform ['w'] ['a'] 20 = .ok m2 ∧
      m1.xf.act ⟨0, 0, 0⟩ = ⟨0, 0, 0⟩ ∧ m2.xf.act ⟨0, 0, 0⟩ = ⟨1000, 0, 0⟩ := by
  obtain ⟨oa, oq, ow, ra⟩ := hop_lists
  have hU : AllOffered (fun p : Pose => p.rot.Unit) hopOps := fun _ _ _ hm => (hop_given hm).2.1
  have e1 := hop_effective (m := ⟨['w'], ['a'], 10, Pose.one⟩) (by rw [ra]; exact List.mem_cons_self ..)
  have e2 := hop_effective (m := ⟨['q'], ['a'], 20, Pose.one⟩) (by rw [ra]; exact List.mem_cons_of_mem _ (List.mem_cons_self ..))
  have s1 : Says 100 hopOps 19 ['a'] ['w'] Pose.one := .switch oa e1 e2 (by decide) (by decide) (fun k hk => by
    have := hk.mem
    rw [ra] at this
    simp only [List.mem_cons, List.not_mem_nil, or_false] at this
    rcases this with rfl | rfl
    · exact .inl (by decide)
    · exact .inr (by decide)) (by decide)
  have s2 : Says 100 hopOps 20 ['a'] ['q'] Pose.one := .exact oa e2 rfl
  have s3 : Says 100 hopOps 20 ['q'] ['w'] ⟨Quat.identity, ⟨1000, 0, 0⟩⟩ := .static oq (by rw [oq]; rfl)
  have hw : ∀ {t : Time} {p : Name} {e : Pose}, ¬ Says 100 hopOps t ['w'] p e := by
    intro t p e h
    obtain ⟨m, s, hm, _⟩ := h.offer
    rw [ow] at hm
    cases hm
  have l1 : Leads 100 hopOps 19 ['a'] ['w'] _ 1 := .snoc .refl s1 (by decide)
  have l2 : Leads 100 hopOps 20 ['a'] ['w'] _ 2 := .snoc (.snoc .refl s2 (by decide)) s3 (by decide)
  have w1 : WayEnds 100 hopOps 19 ['a'] := ⟨_, _, 1, by decide, l1, fun ⟨_, _, h, _⟩ => hw h⟩
  have w2 : WayEnds 100 hopOps 20 ['a'] := ⟨_, _, 2, by decide, l2, fun ⟨_, _, h, _⟩ => hw h⟩
  have ww : ∀ t, WayEnds 100 hopOps t ['w'] := fun t => ⟨_, _, 0, by decide, .refl, fun ⟨_, _, h, _⟩ => hw h⟩
  obtain ⟨m1, a1⟩ := (C59_complete hop_regular interpZero_pose (t := 19) (by decide) s1.mentioned.2 s1.mentioned.1 (by decide) (by decide)
    ⟨by decide, by decide⟩ ⟨by decide, by decide⟩ (ww _) w1).2 ⟨_, _, _, _, _, l1, .refl⟩
  obtain ⟨m2, a2⟩ := (C59_complete hop_regular interpZero_pose (t := 20) (by decide) s3.mentioned.2 s2.mentioned.1 (by decide) (by decide)
    ⟨by decide, by decide⟩ ⟨by decide, by decide⟩ (ww _) w2).2 ⟨_, _, _, _, _, l2, .refl⟩
  have v1 := C59_value pose_laws hU hop_regular interpZero_pose (by decide) (by decide) a1 w1 l1 .refl
  have v2 := C59_value pose_laws hU hop_regular interpZero_pose (by decide) (by decide) a2 w2 l2 .refl
  rw [Pose.inv_one_comp] at v1 v2
  refine ⟨hop_regular, hU, hop_speed, m1, m2, a1, a2, ?_, ?_⟩
  · rw [v1, Pose.act_comp, Pose.act_one]; exact Pose.act_one _
  · rw [v2, Pose.act_comp, Pose.act_comp, Pose.act_one, show Pose.one.act ⟨0, 0, 0⟩ = ⟨0, 0, 0⟩ from Pose.act_one _]
    ext <;> simp [Pose.act, Quat.rotate, Quat.mulVec, Quat.mul, Quat.inverse, Quat.identity, Vec3.add]

end Tf2
