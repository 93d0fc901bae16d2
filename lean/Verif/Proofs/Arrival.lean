import Verif.Spec.Arrival
import Verif.Props.Agreement
import Verif.Props.Denote
import Verif.Props.Ros

/-!
# Lemmas for C96
-/
namespace Tf2.Spin

variable {X : Type}

/-! ### Ways up in one tree -/

/-- The frame `k` steps up. -/
def climb (par : Name → Option Name) : Nat → Name → Option Name
  | 0, a => some a
  | k + 1, a => (climb par k a).bind par

theorem upTo_climb {par : Name → Option Name} {P : Name → Prop} {a c : Name} :
    UpTo par P a c ↔ ∃ k, climb par k a = some c ∧ ∀ j < k, ∃ n, climb par j a = some n ∧ P n := by
  constructor
  · intro h
    induction h with
    | refl => exact ⟨0, rfl, fun j hj => absurd hj (Nat.not_lt_zero j)⟩
    | @snoc c p _ hp hc ih =>
      obtain ⟨k, h1, h2⟩ := ih
      refine ⟨k + 1, by rw [climb, h1]; exact hp, fun j hj => ?_⟩
      rcases Nat.lt_succ_iff_lt_or_eq.1 hj with hj | rfl
      · exact h2 j hj
      · exact ⟨c, h1, hc⟩
  · rintro ⟨k, h1, h2⟩
    induction k generalizing c with
    | zero => injection h1 with h1; subst h1; exact .refl
    | succ k ih =>
      obtain ⟨n, h3, h4⟩ := h2 k (Nat.lt_succ_self k)
      rw [climb, h3] at h1
      exact .snoc (ih h3 fun j hj => h2 j (Nat.lt_succ_of_lt hj)) h1 h4

theorem climb_depth {par : Name → Option Name} {depth : Name → Nat} (hd : ∀ n p, par n = some p → depth p < depth n)
    {a c c' : Name} {k l : Nat} (h : climb par k a = some c) (h' : climb par (k + l + 1) a = some c') :
    depth c' < depth c := by
  induction l generalizing c' with
  | zero =>
    rw [Nat.add_zero, climb, h] at h'
    exact hd _ _ h'
  | succ l ih =>
    rw [climb] at h'
    cases hx : climb par (k + (l + 1)) a with
    | none => rw [hx] at h'; cases h'
    | some x =>
      rw [hx] at h'
      have := ih hx
      exact Nat.lt_trans (hd _ _ h') this

/-- Of two ways up from one frame the one to the deeper end is part of the other. -/
theorem upTo_both {par : Name → Option Name} {depth : Name → Nat} (hd : ∀ n p, par n = some p → depth p < depth n)
    {P Q : Name → Prop} {a c c' : Name} (h : UpTo par P a c) (h' : UpTo par Q a c') (hle : depth c' ≤ depth c) :
    UpTo par (fun n => P n ∧ Q n) a c := by
  obtain ⟨k, h1, h2⟩ := upTo_climb.1 h
  obtain ⟨l, h3, h4⟩ := upTo_climb.1 h'
  have hkl : k ≤ l := by
    rcases Nat.lt_or_ge l k with hlt | hge
    · exfalso
      obtain ⟨d, rfl⟩ : ∃ d, k = l + d + 1 := ⟨k - l - 1, by omega⟩
      have := climb_depth hd h3 h1
      omega
    · exact hge
  refine upTo_climb.2 ⟨k, h1, fun j hj => ?_⟩
  obtain ⟨n, e1, p1⟩ := h2 j hj
  obtain ⟨n', e2, p2⟩ := h4 j (by omega)
  rw [e1] at e2; injection e2 with e2; subst e2
  exact ⟨n, e1, p1, p2⟩

theorem upTo_mono {par : Name → Option Name} {P Q : Name → Prop} {a c : Name} (h : ∀ n, P n → Q n)
    (hu : UpTo par P a c) : UpTo par Q a c := by
  induction hu with
  | refl => exact .refl
  | snoc _ hp hc ih => exact .snoc ih hp (h _ hc)

/-! ### What the callbacks give to the buffer -/

/-- The valid transforms for `n` in the messages a callback was started for, with their topics. -/
def startedFor [Rigid X] (n : Name) : List (LEv X) → List (Msg X × Bool)
  | [] => []
  | .received _ ms _ st :: r =>
    (ms.filter (fun m => ValidMsg m ∧ stripSlash m.child = n)).map (·, st) ++ startedFor n r
  | _ :: r => startedFor n r

/-- The calls that change the buffer's tree, so far. -/
def dataCalls (evs : List (Ev X)) : List (Tf2.Op X) := (bufferCalls (inner evs)).filterMap dataOf

theorem offersFor_sets [Rigid X] (n : Name) (ms : List (Msg X)) (a : Name) (st : Bool) :
    offersFor n ((ms.map (fun m => ROp.set m a st)).filterMap dataOf) =
      (ms.filter (fun m => ValidMsg m ∧ stripSlash m.child = n)).map (·, st) := by
  induction ms with
  | nil => rfl
  | cons m r ih =>
    simp only [List.map_cons, List.filterMap_cons, dataOf, offersFor, ih, List.filter_cons]
    by_cases h : ValidMsg m ∧ stripSlash m.child = n
    · rw [if_pos h, if_pos (by simpa using h)]; rfl
    · rw [if_neg h, if_neg (by simpa using h)]

theorem offersFor_due [Rigid X] (n : Name) (l : List (LEv X)) (last : Time) :
    offersFor n ((callsDue last l).filterMap dataOf) = startedFor n l := by
  induction l generalizing last with
  | nil => rfl
  | cons e r ih =>
    cases e with
    | received now ms a st =>
      simp only [callsDue, callsOf, List.filterMap_append, offersFor_append, ih, startedFor, offersFor_sets]
      split <;> simp [dataOf, offersFor]
    | _ => simp only [callsDue, startedFor, ih]

theorem offersFor_data_cons [Rigid X] (n : Name) (op : ROp X) (q : List (ROp X)) :
    offersFor n ((op :: q).filterMap dataOf) = offersFor n ([op].filterMap dataOf) ++ offersFor n (q.filterMap dataOf) := by
  rw [show op :: q = [op] ++ q from rfl, List.filterMap_append, offersFor_append]

theorem offersFor_buffer [Rigid X] (n : Name) (l : List (LEv X)) (hs : ∀ m a s, LEv.other (.set m a s) ∉ l) :
    offersFor n ((bufferCalls l).filterMap dataOf) = offersFor n ((listenerCalls l).filterMap dataOf) := by
  induction l with
  | nil => rfl
  | cons e r ih =>
    have ih' := ih fun m a s h => hs m a s (List.mem_cons_of_mem _ h)
    cases e with
    | did op =>
      simp only [bufferCalls, listenerCalls]
      rw [offersFor_data_cons, ih', ← offersFor_data_cons]
    | other op =>
      simp only [bufferCalls, listenerCalls]
      rw [offersFor_data_cons, ih']
      cases op with
      | set m a s => exact absurd (List.mem_cons_self) (hs m a s)
      | _ => rfl
    | received => exact ih'
    | escaped => exact ih'

theorem startedFor_handled [Rigid X] (n : Name) (st : Bool) (evs : List (Ev X)) :
    ((startedFor n (inner evs)).filter (fun x => x.2 = st)).map Prod.fst =
      ((handled st evs).flatMap (·.msgs)).filter (fun m => ValidMsg m ∧ stripSlash m.child = n) := by
  induction evs with
  | nil => rfl
  | cons e r ih =>
    cases e with
    | did e =>
      cases e with
      | received now ms a st' =>
        simp only [inner, startedFor, handled, List.filter_append, List.map_append, ih]
        by_cases h : st' = st
        · subst h
          rw [if_pos rfl, List.flatMap_cons, List.filter_append]
          congr 1
          rw [List.filter_map, List.map_map]
          simp [Function.comp_def]
        · rw [if_neg h, List.filter_map, List.map_map]
          simp [Function.comp_def, h]
      | _ => simpa [inner, startedFor, handled] using ih
    | _ => simpa only [inner, handled] using ih

/-! ### A working listener -/

theorem history_append [Rigid X] (D : Duration) (a c : List (Op X)) :
    history D (a ++ c) = ((St.run c (history D a).1).1, (history D a).2 ++ (St.run c (history D a).1).2) := by
  unfold history; rw [run_append]

theorem clocks_append (a c : List (LEv X)) : clocks (a ++ c) = clocks a ++ clocks c := by
  induction a with
  | nil => rfl
  | cons e r ih => cases e <;> simp [clocks, ih]

theorem Working.before [Rigid X] {D : Duration} {a c : List (Op X)} (h : Working D (a ++ c)) : Working D a := by
  obtain ⟨⟨h1, h2, h3⟩, h4, h5, h6⟩ := h
  rw [history_append] at h1 h2 h3 h5 h6
  dsimp only at h1 h2 h3 h5 h6
  rw [inner_append] at h1 h2 h3 h5
  rw [clocks_append] at h1
  refine ⟨⟨(List.pairwise_append.1 h1).1, fun m a s e => h2 m a s (List.mem_append_left _ e),
    fun e => h3 (List.mem_append_left _ e)⟩, fun e => h4 (List.mem_append_left _ e),
    fun e => h5 (List.mem_append_left _ e), fun st => ?_⟩
  have := h6 st
  rw [dropped_append] at this
  exact (List.append_eq_nil_iff.1 this).1

theorem Working.handled_prefix [Rigid X] {D : Duration} {ops : List (Op X)} (h : Working D ops) (st : Bool) :
    handled st (history D ops).2 <+: arrived st (history D ops).2 := by
  obtain ⟨past, rest, h1, h2, h3, h4, -⟩ := C90_order D ops st
  rw [h.kept, List.append_nil] at h3
  rw [h1, h4.eq_of_length h3.length_eq.symm]
  exact List.prefix_append _ _

theorem Working.offers_prefix [Rigid X] {D : Duration} {ops : List (Op X)} (h : Working D ops) (n : Name) :
    offersFor n (dataCalls (history D ops).2) <+: startedFor n (inner (history D ops).2) := by
  have hc := (C90_calls D ops).1 h.fine
  unfold dataCalls
  rw [offersFor_buffer n _ h.noSet, ← offersFor_due n _ 0, ← hc, List.filterMap_append, offersFor_append]
  exact List.prefix_append _ _

theorem Working.noClears [Rigid X] {D : Duration} {ops : List (Op X)} (h : Working D ops) :
    Tf2.Op.clear ∉ dataCalls (history D ops).2 := by
  intro hx
  unfold dataCalls at hx
  rw [List.mem_filterMap] at hx
  obtain ⟨r, hr, hx⟩ := hx
  have h0 : (0 :: clocks (inner (history D ops).2)).Pairwise (· ≤ ·) :=
    List.pairwise_cons.2 ⟨fun _ _ => Nat.zero_le _, h.clock⟩
  cases r with
  | clear =>
    rw [mem_bufferCalls] at hr
    rcases hr with hr | hr
    · have : ROp.clear ∈ callsDue 0 (inner (history D ops).2) := by
        rw [← (C90_calls D ops).1 h.fine]; exact List.mem_append_left _ hr
      obtain ⟨_, _, _, _, _, _, _, e⟩ := (mem_callsDue 0 _ h0 _).1 this
      cases e
    · exact h.noClear hr
  | set => cases hx
  | _ => cases hx

theorem Working.offer_arrived [Rigid X] {D : Duration} {ops : List (Op X)} (h : Working D ops) {n : Name} {m : Msg X}
    {s : Bool} (hm : (m, s) ∈ offersFor n (dataCalls (history D ops).2)) : m ∈ arrivedFor s (history D ops).2 n := by
  have h1 := (h.offers_prefix n).subset hm
  have h2 : m ∈ ((startedFor n (inner (history D ops).2)).filter (fun x => x.2 = s)).map Prod.fst :=
    List.mem_map.2 ⟨(m, s), List.mem_filter.2 ⟨h1, by simp⟩, rfl⟩
  rw [startedFor_handled] at h2
  obtain ⟨h3, h4⟩ := List.mem_filter.1 h2
  obtain ⟨p, hp, hmp⟩ := List.mem_flatMap.1 h3
  exact List.mem_filter.2 ⟨List.mem_flatMap.2 ⟨p, (h.handled_prefix s).subset hp, hmp⟩, h4⟩

/-- What the buffer was given for a frame that is only published as a moving one came in the order of arrival. -/
theorem Working.offers_moving [Rigid X] {D : Duration} {ops : List (Op X)} (h : Working D ops) {n : Name}
    (h0 : arrivedFor true (history D ops).2 n = []) :
    (offersFor n (dataCalls (history D ops).2)).map Prod.fst <+: arrivedFor false (history D ops).2 n := by
  have hall : ∀ x ∈ startedFor n (inner (history D ops).2), x.2 = false := by
    intro x hx
    cases hs : x.2 with
    | false => rfl
    | true =>
      exfalso
      have h2 : x.1 ∈ ((startedFor n (inner (history D ops).2)).filter (fun x => x.2 = true)).map Prod.fst :=
        List.mem_map.2 ⟨x, List.mem_filter.2 ⟨hx, by simpa using hs⟩, rfl⟩
      rw [startedFor_handled] at h2
      obtain ⟨h3, h4⟩ := List.mem_filter.1 h2
      obtain ⟨p, hp, hmp⟩ := List.mem_flatMap.1 h3
      have : x.1 ∈ arrivedFor true (history D ops).2 n :=
        List.mem_filter.2 ⟨List.mem_flatMap.2 ⟨p, (h.handled_prefix true).subset hp, hmp⟩, h4⟩
      rw [h0] at this; cases this
  have h1 : (startedFor n (inner (history D ops).2)).map Prod.fst <+: arrivedFor false (history D ops).2 n := by
    have := startedFor_handled n false (history D ops).2
    rw [List.filter_eq_self.2 (fun x hx => by simpa using hall x hx)] at this
    rw [this]
    obtain ⟨r, hr⟩ := h.handled_prefix false
    unfold arrivedFor
    rw [← hr, List.flatMap_append, List.filter_append]
    exact List.prefix_append _ _
  obtain ⟨r, hr⟩ := h.offers_prefix n
  rw [← hr, List.map_append] at h1
  exact (List.prefix_append _ _).trans h1

theorem arrivedFor_append [Rigid X] (st : Bool) (a c : List (Ev X)) (n : Name) :
    arrivedFor st (a ++ c) n = arrivedFor st a n ++ arrivedFor st c n := by
  unfold arrivedFor
  rw [arrived_append, List.flatMap_append, List.filter_append]

theorem dataCalls_append (a c : List (Ev X)) : dataCalls (a ++ c) = dataCalls a ++ dataCalls c := by
  unfold dataCalls
  rw [inner_append, bufferCalls_append, List.filterMap_append]

/-! ### Every transform gets to the buffer -/

/-- The thread gives all transforms of the message it has to the buffer. -/
theorem gives_all [Rigid X] {D : Duration} (l : List (Op X)) {s : St X} {evs : List (Ev X)} (h : Inv D s evs)
    (he : LEv.escaped ∉ inner (St.run l s).2) (hn : curCost s ≤ threadSteps l) {x : ROp X} (hx : x ∈ s.lis.remaining) :
    x ∈ listenerCalls (inner (St.run l s).2) := by
  induction l generalizing s evs with
  | nil =>
    simp only [threadSteps] at hn
    unfold curCost at hn
    unfold Listener.remaining at hx
    split at hx
    · cases hx
    · rename_i e; rw [e] at hn; simp at hn
  | cons op r ih =>
    simp only [St.run] at he ⊢
    have hi := h.step op
    have ho := sout s op
    generalize s.step op = y at ho hi he ⊢
    rw [inner_append] at he ⊢
    rw [listenerCalls_append, List.mem_append]
    have he' : LEv.escaped ∉ inner (St.run r y.1).2 := fun e => he (List.mem_append_right _ e)
    have hcur : ∃ c, s.lis.cur = some c := by
      cases hc : s.lis.cur with
      | none => unfold Listener.remaining at hx; rw [hc] at hx; cases hx
      | some c => exact ⟨c, rfl⟩
    obtain ⟨c, hc⟩ := hcur
    have hph : s.phase = .calling := h.cur (by rw [hc]; exact fun e => by cases e)
    cases ho with
    | nothing _ hop =>
      refine .inr (ih hi he' ?_ hx)
      cases op with
      | thread now => rcases hop now rfl with e | e <;> rw [e] at hph <;> cases hph
      | _ => exact hn
    | full => exact .inr (ih hi he' (by simpa [curCost, threadSteps] using hn) (by simpa using hx))
    | push => exact .inr (ih hi he' (by simpa [curCost, threadSteps] using hn) (by simpa using hx))
    | go hp => rw [hp] at hph; cases hph
    | stop hp => rw [hp] at hph; cases hph
    | timeout hp => rw [hp] at hph; cases hph
    | grab hp => rw [hp] at hph; cases hph
    | @work now c' hp hc' =>
      have hw := work_cost s c hc
      simp only [threadSteps] at hn
      have hlo := lout s.lis .apply
      have e1 : (s.after (s.lis.step .apply)).1.lis = (s.lis.step .apply).1 := rfl
      have e2 : inner (s.after (s.lis.step .apply)).2 = (s.lis.step .apply).2 := inner_did _
      rw [e2] at he ⊢
      have hih := ih hi he' (by omega)
      rw [e1] at hih
      generalize s.lis.step .apply = z at hlo he hih ⊢
      cases hlo with
      | idle h1 => rw [hc] at h1; cases h1
      | finish h1 =>
        exfalso
        unfold Listener.remaining at hx
        rw [h1] at hx; simp at hx
      | escape => exact absurd (List.mem_append_left _ (by simp)) he
      | set h1 h2 =>
        unfold Listener.remaining at hx hih
        rw [h1] at hx
        simp only [List.map_cons, List.mem_cons] at hx
        rcases hx with rfl | hx
        · exact .inl (by simp [listenerCalls])
        · exact .inr (hih hx)
    | done hp hc' => rw [hc] at hc'; cases hc'
    | blank hp hc' => rw [hc] at hc'; cases hc'
    | call hp hc' => rw [hc] at hc'; cases hc'
    | ready => exact .inr (ih hi he' hn hx)
    | destroy => exact .inr (ih hi he' hn hx)
    | join ho hp => rw [hp] at hph; cases hph
    | @other op hp =>
      have hlo := lout s.lis (.other op)
      generalize s.lis.step (.other op) = z at hlo hi he' ⊢
      cases hlo
      exact .inr (ih hi he' hn hx)

end Tf2.Spin
