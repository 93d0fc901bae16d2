import Verif.Spec.PySet
import Verif.Spec.Toy
import Verif.Props.PyTime
import Verif.Props.ErrorText
import Verif.Props.Buffer

/-!
# C82: `set_transform` of the Python binding on arbitrary objects
-/
namespace Tf2.Py

variable {X K : Type}

theorem getAttr_has {o v : PObj K} {n : String} : getAttr o n = some (v, true) ↔ Has o n v := by
  unfold getAttr Has
  generalize o.attrs = l
  constructor
  · intro h
    obtain ⟨a, ha, e⟩ := Option.map_eq_some_iff.1 h
    obtain ⟨hp, l1, l2, hl, hn⟩ := List.find?_eq_some_iff_append.1 ha
    refine ⟨l1, l2, ?_, fun a' h' => ?_⟩
    · rw [hl, ← e, ← beq_iff_eq.1 hp]
    · have := hn a' h'
      simpa using this
  · rintro ⟨l1, l2, hl, hn⟩
    rw [hl, List.find?_append, List.find?_eq_none.2 (fun a ha => by simpa using hn a ha)]
    simp

theorem getAttr_lacks {o : PObj K} {n : String} : getAttr o n = none ↔ Lacks o n := by
  unfold getAttr Lacks
  rw [Option.map_eq_none_iff, List.find?_eq_none]
  simp

theorem borrow_has {o v : PObj K} {n : String} : borrow (.obj o) n = some (.obj v) ↔ Has o n v := by
  rw [← getAttr_has]
  unfold borrow
  cases h : getAttr o n with
  | none => simp [h]
  | some a =>
    obtain ⟨w, c⟩ := a
    cases c <;> simp [h]

theorem stringFrom_some {p : Option (Ptr K)} {s : Name} : stringFrom p = some s ↔
    ∃ o, p = some (.obj o) ∧ o.text = some s := by
  cases p with
  | none => simp [stringFrom]
  | some p => cases p <;> simp [stringFrom]

theorem readDouble_some {d : Doubles K X} {o : PObj K} {n : String} {r : K × Bool} : readDouble d o n = some r ↔
    ∃ v, Has o n v ∧ r = asDouble d v := by
  unfold readDouble
  simp only [← borrow_has]
  constructor
  · intro h
    split at h
    · rename_i v hv
      exact ⟨v, hv, (Option.some.inj h).symm⟩
    · cases h
  · rintro ⟨v, hv, rfl⟩
    rw [hv]

theorem asDouble_fst {d : Doubles K X} {v : PObj K} : (asDouble d v).1 = d.value v := by
  unfold asDouble Doubles.value
  cases v.float <;> rfl

theorem asDouble_snd {d : Doubles K X} {v : PObj K} : (asDouble d v).2 = false ↔ IsNum v := by
  unfold asDouble IsNum
  cases v.float <;> simp

theorem stampFrom_time {d : Doubles K X} {p : Option (Ptr K)} {t : Time} : stampFrom d p = .time t ↔
    ∃ o, p = some (.obj o) ∧ StampIs d o t := by
  unfold stampFrom StampIs
  constructor
  · intro h
    split at h
    · cases h
    · split at h
      · cases h
      · rename_i o _ r hr
        split at h
        · rename_i t' ht
          cases h
          exact ⟨o, rfl, r, hr, by rw [← asDouble_fst]; exact ht⟩
        · cases h
    · cases h
  · rintro ⟨o, rfl, r, hr, ht⟩
    simp only [hr, asDouble_fst, ht]

/-- What is returned when the C++ call has been made. -/
noncomputable def afterSet (clean : Prop) : Buf.SetRes → SetOut
  | .threw => .crash
  | .ub => .crash
  | _ => open Classical in if clean then .none else .systemError

theorem hasAttr_has {o v : PObj K} {n : String} (h : Has o n v) : hasAttr o n = true := by
  unfold hasAttr
  rw [getAttr_has.2 h]; rfl

section
variable [Rigid X] {D : Duration} {b : Buf X}

/-- **C82 (an object of the right shape).** An object with all the attributes of a `TransformStamped`, string frame
names and a stamp in range: the buffer does what `setTransform` does for the message with its values, with
-1 in place of whatever is not a number; and Python sees `None` if all were numbers (and, where warnings are errors,
translation and rotation are of the message classes), else a `SystemError`. -/
theorem C82_shaped (d : Doubles K X) (strict : Bool) {o : PObj K} {child frame : Name} {st x y z qx qy qz qw tr rot : PObj K}
    (h : Parts o child frame st x y z qx qy qz qw tr rot) {t : Time} (ht : StampIs d st t) (auth : Name) (isStatic : Bool) :
    let m : Msg X := { parent := frame, child := child, stamp := t
                       xf := d.pose (d.value x) (d.value y) (d.value z) (d.value qx) (d.value qy) (d.value qz) (d.value qw) }
    setObj d strict b o auth isStatic = ((b.setTransform m auth isStatic).1,
      afterSet ((∀ v ∈ [x, y, z, qx, qy, qz, qw], IsNum v) ∧ (strict = true → tr.vector3 = true ∧ rot.quaternion = true))
        (b.setTransform m auth isStatic).2) := by
  intro m
  obtain ⟨hd, c, f, h1, h2, h3, h4, h5, h6⟩ := h.header
  obtain ⟨mt, k1, k2, k3⟩ := h.transform
  obtain ⟨tx, ty, tz⟩ := h.translation
  obtain ⟨rx, ry, rz, rw'⟩ := h.rotation
  have e : ∀ {o v : PObj K} {n}, Has o n v → readDouble d o n = some (asDouble d v) :=
    fun hh => readDouble_some.2 ⟨_, hh, rfl⟩
  have f1 : stringFrom (borrow (.obj o) "child_frame_id") = some child := stringFrom_some.2 ⟨c, borrow_has.2 h2, h3⟩
  have f2 : stringFrom (borrow (.obj hd) "frame_id") = some frame := stringFrom_some.2 ⟨f, borrow_has.2 h4, h5⟩
  have f3 : stampFrom d (borrow (.obj hd) "stamp") = .time t := stampFrom_time.2 ⟨st, borrow_has.2 h6, ht⟩
  have g1 : (checkTranslation strict tr).1 = true := by
    simp [checkTranslation, hasAttr_has tx, hasAttr_has ty, hasAttr_has tz]
  have g2 : (checkRotation strict rot).1 = true := by
    simp [checkRotation, hasAttr_has rx, hasAttr_has ry, hasAttr_has rz, hasAttr_has rw']
  unfold setObj
  simp only [borrow_has.2 h1, f1, f2, f3, borrow_has.2 k1, borrow_has.2 k2, borrow_has.2 k3, e tx, e ty, e tz, g1, g2]
  unfold finishSet
  simp only [e rx, e ry, e rz, e rw', asDouble_fst]
  simp only [Bool.not_true, Bool.false_eq_true, if_false]
  change (match b.setTransform m auth isStatic with
    | (b', .threw) => (b', SetOut.crash) | (b', .ub) => (b', SetOut.crash) | (b', _) => (b', _)) = _
  generalize b.setTransform m auth isStatic = r
  obtain ⟨b', res⟩ := r
  have hc : ((checkTranslation strict tr).2 || (asDouble d x).2 || (asDouble d y).2 || (asDouble d z).2 ||
      (checkRotation strict rot).2 || (asDouble d qx).2 || (asDouble d qy).2 || (asDouble d qz).2 || (asDouble d qw).2) =
        false ↔ ((∀ v ∈ [x, y, z, qx, qy, qz, qw], IsNum v) ∧
          (strict = true → tr.vector3 = true ∧ rot.quaternion = true)) := by
    simp only [Bool.or_eq_false_iff, asDouble_snd, List.forall_mem_cons, List.not_mem_nil, IsEmpty.forall_iff, implies_true]
    simp only [checkTranslation, checkRotation]
    cases strict <;> cases tr.vector3 <;> cases rot.quaternion <;> simp <;> tauto
  generalize ((checkTranslation strict tr).2 || (asDouble d x).2 || (asDouble d y).2 || (asDouble d z).2 ||
      (checkRotation strict rot).2 || (asDouble d qx).2 || (asDouble d qy).2 || (asDouble d qz).2 || (asDouble d qw).2) = p
    at hc ⊢
  generalize ((∀ v ∈ [x, y, z, qx, qy, qz, qw], IsNum v) ∧
    (strict = true → tr.vector3 = true ∧ rot.quaternion = true)) = Q at hc ⊢
  by_cases q : Q
  · have hp := hc.2 q
    subst hp
    cases res <;> simp [afterSet, q]
  · have hp : p = true := by
      cases p with
      | true => rfl
      | false => exact absurd (hc.1 rfl) q
    subst hp
    cases res <;> simp [afterSet, q]

/-- **C82 (converse).** Whenever Python sees `None` or a `SystemError`, the object had the shape, and the buffer was
called as in `C82_shaped`. -/
theorem C82_only (d : Doubles K X) (strict : Bool) {o : PObj K} {auth : Name} {isStatic : Bool}
    (h : (setObj d strict b o auth isStatic).2 = .none ∨ (setObj d strict b o auth isStatic).2 = .systemError) :
    ∃ child frame st x y z qx qy qz qw tr rot t, Parts o child frame st x y z qx qy qz qw tr rot ∧ StampIs d st t := by
  unfold setObj at h
  split at h
  · simp at h
  rename_i header hh
  split at h
  · simp at h
  rename_i child hc
  split at h
  · simp at h
  rename_i frame hf
  split at h
  · simp at h
  · simp at h
  rename_i t ht
  split at h
  · simp at h
  rename_i mt hm
  split at h
  case h_2 => simp at h
  rename_i tr htr
  dsimp only at h
  split at h
  · simp at h
  split at h
  case h_2 => simp at h
  rename_i x y z hx hy hz
  split at h
  case h_2 => simp at h
  rename_i rot hrot
  split at h
  · simp at h
  unfold finishSet at h
  split at h
  case h_2 => simp at h
  rename_i qx qy qz qw hqx hqy hqz hqw
  obtain ⟨vx, a1, _⟩ := readDouble_some.1 hx
  obtain ⟨vy, a2, _⟩ := readDouble_some.1 hy
  obtain ⟨vz, a3, _⟩ := readDouble_some.1 hz
  obtain ⟨wx, a4, _⟩ := readDouble_some.1 hqx
  obtain ⟨wy, a5, _⟩ := readDouble_some.1 hqy
  obtain ⟨wz, a6, _⟩ := readDouble_some.1 hqz
  obtain ⟨ww, a7, _⟩ := readDouble_some.1 hqw
  obtain ⟨c, c1, c2⟩ := stringFrom_some.1 hc
  obtain ⟨f, f1, f2⟩ := stringFrom_some.1 hf
  obtain ⟨st, s1, s2⟩ := stampFrom_time.1 ht
  obtain ⟨hd, rfl⟩ : ∃ hd, header = .obj hd := by
    cases header with
    | obj o => exact ⟨o, rfl⟩
    | null => cases f1
    | freed => cases f1
  obtain ⟨md, rfl⟩ : ∃ hd, mt = .obj hd := by
    cases mt with
    | obj o => exact ⟨o, rfl⟩
    | null => cases htr
    | freed => cases htr
  exact ⟨child, frame, st, vx, vy, vz, wx, wy, wz, ww, tr, rot, t,
    ⟨⟨hd, c, f, borrow_has.1 hh, borrow_has.1 c1, c2, borrow_has.1 f1, f2, borrow_has.1 s1⟩,
      ⟨md, borrow_has.1 hm, borrow_has.1 htr, borrow_has.1 hrot⟩, ⟨a1, a2, a3⟩, a4, a5, a6, a7⟩, s2⟩

/-- **C82 (`TypeError`).** When Python sees a `TypeError`, the buffer is as it was. -/
theorem C82_typeError (d : Doubles K X) (strict : Bool) {o : PObj K} {auth : Name} {isStatic : Bool}
    (h : (setObj d strict b o auth isStatic).2 = .typeError) : (setObj d strict b o auth isStatic).1 = b := by
  have fin : ∀ child frame t x y z p r, (finishSet d b child frame t x y z p r auth isStatic).2 ≠ .typeError := by
    intro child frame t x y z p r
    unfold finishSet
    split
    · generalize b.setTransform _ auth isStatic = r
      obtain ⟨b', res⟩ := r
      cases res <;> simp <;> split <;> simp
    · simp
  have out : (∃ w, setObj d strict b o auth isStatic = (b, w)) ∨ ∃ child frame t x y z p r,
      setObj d strict b o auth isStatic = finishSet d b child frame t x y z p r auth isStatic := by
    unfold setObj
    repeat' split
    all_goals first
      | exact Or.inl ⟨_, rfl⟩
      | skip
    all_goals
      dsimp only
      repeat' split
      all_goals first
        | exact Or.inl ⟨_, rfl⟩
        | exact Or.inr ⟨_, _, _, _, _, _, _, _, rfl⟩
  rcases out with ⟨w, e⟩ | ⟨_, _, _, _, _, _, _, _, e⟩
  · rw [e]
  · rw [e] at h; exact absurd h (fin _ _ _ _ _ _ _ _)

/-- **C82 (finding: attributes missing).** An object without `header`, `child_frame_id` or `header.frame_id`,
or whose names are not strings, ends the process instead of raising; so does one without `transform`, `translation` or
`rotation`, unless the stamp (or the translation) was refused before. -/
theorem C82_missing_finding (d : Doubles K X) (strict : Bool) (o : PObj K) (auth : Name) (isStatic : Bool) :
    (Lacks o "header" → setObj d strict b o auth isStatic = (b, .crash)) ∧
    (Lacks o "child_frame_id" → setObj d strict b o auth isStatic = (b, .crash)) ∧
    (∀ c, Has o "child_frame_id" c → c.text = none → setObj d strict b o auth isStatic = (b, .crash)) ∧
    (∀ h, Has o "header" h → Lacks h "frame_id" → setObj d strict b o auth isStatic = (b, .crash)) ∧
    (∀ h f, Has o "header" h → Has h "frame_id" f → f.text = none → setObj d strict b o auth isStatic = (b, .crash)) ∧
    (Lacks o "transform" → (setObj d strict b o auth isStatic).2 = .crash ∨
      (setObj d strict b o auth isStatic).2 = .typeError) ∧
    (∀ m, Has o "transform" m → Lacks m "translation" → (setObj d strict b o auth isStatic).2 = .crash ∨
      (setObj d strict b o auth isStatic).2 = .typeError) ∧
    (∀ m, Has o "transform" m → Lacks m "rotation" → (setObj d strict b o auth isStatic).2 = .crash ∨
      (setObj d strict b o auth isStatic).2 = .typeError) := by
  have null : ∀ {o : PObj K} {n}, Lacks o n → borrow (.obj o) n = some .null := by
    intro o n h
    simp only [borrow, getAttr_lacks.2 h]
  have first : ∀ {p : Ptr K}, stringFrom (borrow p "frame_id") = none → borrow (.obj o) "header" = some p →
      setObj d strict b o auth isStatic = (b, .crash) := by
    intro p h1 h2
    unfold setObj
    rw [h2]
    dsimp only
    split
    · rfl
    · rw [h1]
  have second : stringFrom (borrow (.obj o) "child_frame_id") = none →
      setObj d strict b o auth isStatic = (b, .crash) := by
    intro h1
    unfold setObj
    split
    · rfl
    · rw [h1]
  refine ⟨fun h => first rfl (null h), fun h => second (by rw [null h]; rfl), fun c h1 h2 => second ?_, fun h h1 h2 => ?_,
    fun h f h1 h2 h3 => ?_, fun h => ?_, fun m h1 h2 => ?_, fun m h1 h2 => ?_⟩
  · rw [borrow_has.2 h1]; exact h2
  · exact first (by rw [null h2]; rfl) (borrow_has.2 h1)
  · exact first (by rw [borrow_has.2 h2]; exact h3) (borrow_has.2 h1)
  · have e : borrow (Ptr.null : Ptr K) "translation" = none := rfl
    unfold setObj
    simp only [null h, e]
    repeat' split
    all_goals simp
  · unfold setObj
    simp only [borrow_has.2 h1, null h2]
    repeat' split
    all_goals simp
  · unfold setObj
    simp only [borrow_has.2 h1, null h2]
    repeat' split
    all_goals simp

/-- **C82 (stamps).** A missing `stamp`, or one without a working `to_sec`, raises `TypeError`. -/
theorem C82_stamp (d : Doubles K X) (strict : Bool) {o h c f : PObj K} {child frame : Name} (h1 : Has o "header" h)
    (h2 : Has o "child_frame_id" c) (h3 : c.text = some child) (h4 : Has h "frame_id" f) (h5 : f.text = some frame)
    (h6 : Lacks h "stamp" ∨ ∃ s, Has h "stamp" s ∧ s.toSec = none) (auth : Name) (isStatic : Bool) :
    setObj d strict b o auth isStatic = (b, .typeError) := by
  have f1 : stringFrom (borrow (.obj o) "child_frame_id") = some child := stringFrom_some.2 ⟨c, borrow_has.2 h2, h3⟩
  have f2 : stringFrom (borrow (.obj h) "frame_id") = some frame := stringFrom_some.2 ⟨f, borrow_has.2 h4, h5⟩
  have f3 : stampFrom d (borrow (.obj h) "stamp") = .refused := by
    rcases h6 with h6 | ⟨s, h6, h7⟩
    · have : borrow (.obj h) "stamp" = some .null := by
        simp only [borrow, getAttr_lacks.2 h6]
      rw [this]; rfl
    · rw [borrow_has.2 h6]
      simp only [stampFrom, h7]
  unfold setObj
  simp only [borrow_has.2 h1, f1, f2, f3]

/-- **C82 (numbers missing).** If everything up to the stamp is right and translation or rotation lacks a component,
`TypeError` is raised and the buffer is as it was. -/
theorem C82_component (d : Doubles K X) (strict : Bool) {o h c f st m tr rot : PObj K} {child frame : Name} {t : Time}
    (h1 : Has o "header" h) (h2 : Has o "child_frame_id" c) (h3 : c.text = some child) (h4 : Has h "frame_id" f)
    (h5 : f.text = some frame) (h6 : Has h "stamp" st) (h7 : StampIs d st t) (h8 : Has o "transform" m)
    (h9 : Has m "translation" tr) (h10 : Has m "rotation" rot)
    (kept : ∀ a ∈ tr.attrs, a.2.2 = true)
    (h11 : (∃ n ∈ ["x", "y", "z"], Lacks tr n) ∨ (∃ n ∈ ["x", "y", "z", "w"], Lacks rot n)) (auth : Name)
    (isStatic : Bool) :
    setObj d strict b o auth isStatic = (b, .typeError) := by
  have f1 : stringFrom (borrow (.obj o) "child_frame_id") = some child := stringFrom_some.2 ⟨c, borrow_has.2 h2, h3⟩
  have f2 : stringFrom (borrow (.obj h) "frame_id") = some frame := stringFrom_some.2 ⟨f, borrow_has.2 h4, h5⟩
  have f3 : stampFrom d (borrow (.obj h) "stamp") = .time t := stampFrom_time.2 ⟨st, borrow_has.2 h6, h7⟩
  have no : ∀ {o : PObj K} {n}, Lacks o n → hasAttr o n = false := by
    intro o n hn
    unfold hasAttr
    rw [getAttr_lacks.2 hn]; rfl
  have yes : ∀ {n}, hasAttr tr n = true → ∃ v, readDouble d tr n = some v := by
    intro n hn
    unfold hasAttr at hn
    obtain ⟨⟨v, k⟩, hv⟩ := Option.isSome_iff_exists.1 hn
    have hk : k = true := by
      unfold getAttr at hv
      obtain ⟨a, ha, e⟩ := Option.map_eq_some_iff.1 hv
      have := kept a (List.mem_of_find?_eq_some ha)
      rw [e] at this
      exact this
    subst hk
    exact ⟨_, readDouble_some.2 ⟨v, getAttr_has.1 hv, rfl⟩⟩
  unfold setObj
  simp only [borrow_has.2 h1, f1, f2, f3, borrow_has.2 h8, borrow_has.2 h9, borrow_has.2 h10]
  by_cases ht : (checkTranslation strict tr).1 = true
  · simp only [ht]
    have ht' := ht
    simp only [checkTranslation, Bool.and_eq_true] at ht'
    obtain ⟨x, hx⟩ := yes ht'.1.1
    obtain ⟨y, hy⟩ := yes ht'.1.2
    obtain ⟨z, hz⟩ := yes ht'.2
    simp only [hx, hy, hz]
    have hr : (checkRotation strict rot).1 = false := by
      rcases h11 with ⟨n, hn, hl⟩ | ⟨n, hn, hl⟩
      · simp only [List.mem_cons, List.not_mem_nil, or_false] at hn
        rcases hn with rfl | rfl | rfl <;> simp [no hl] at ht'
      · simp only [List.mem_cons, List.not_mem_nil, or_false] at hn
        rcases hn with rfl | rfl | rfl | rfl <;> simp [checkRotation, no hl]
    simp [hr]
  · simp [ht]

/-- **C82 (messages).** For an instance of the message class whose stamp is the `rospy.Time` `t` the binding does what
`Model/PyBuffer.lean` says, and raises nothing. -/
theorem C82_message (fl : ℚ → ℚ) (pose : ℚ → ℚ → ℚ → ℚ → ℚ → ℚ → ℚ → X) (strict : Bool) (child frame : Name) (t : Time)
    (x y z qx qy qz qw : ℚ) (auth : Name) (isStatic : Bool) :
    let d : Doubles ℚ X := ⟨-1, fromSec fl, pose⟩
    let o := PObj.message child frame (toSec fl (t / 1000000000) (t % 1000000000)) x y z qx qy qz qw
    let r := setObj d strict b o auth isStatic
    let r' := setCore fl b { parent := frame, child := child, stamp := t, xf := pose x y z qx qy qz qw } auth isStatic
    r.1 = r'.1 ∧ (r.2 = .none ∧ r'.2 = .ok () ∨ r.2 = .crash ∧ r'.2 = .crash) := by
  intro d o r r'
  have has : ∀ (l1 l2 : List (Name × PObj ℚ × Bool)) (n : String) (v : PObj ℚ) (o : PObj ℚ),
      o.attrs = l1 ++ (n.toList, v, true) :: l2 → (∀ a ∈ l1, a.1 ≠ n.toList) → Has o n v :=
    fun l1 l2 n v o h1 h2 => ⟨l1, l2, h1, h2⟩
  have hp : Parts o child frame (.stampObj (toSec fl (t / 1000000000) (t % 1000000000))) (.num x) (.num y) (.num z)
      (.num qx) (.num qy) (.num qz) (.num qw) (.inst true false [("x", .num x), ("y", .num y), ("z", .num z)])
      (.inst false true [("x", .num qx), ("y", .num qy), ("z", .num qz), ("w", .num qw)]) := by
    refine ⟨⟨_, .str child, .str frame, has [] _ _ _ _ rfl (by simp), has [_] _ _ _ _ rfl (by simp), rfl,
      has [_, _] _ _ _ _ rfl (by simp), rfl, has [_] _ _ _ _ rfl (by simp)⟩,
      ⟨_, has [_, _] _ _ _ _ rfl (by simp), has [] _ _ _ _ rfl (by simp), has [_] _ _ _ _ rfl (by simp)⟩,
      ⟨has [] _ _ _ _ rfl (by simp), has [_] _ _ _ _ rfl (by simp), has [_, _] _ _ _ _ rfl (by simp)⟩,
      has [] _ _ _ _ rfl (by simp), has [_] _ _ _ _ rfl (by simp), has [_, _] _ _ _ _ rfl (by simp),
      has [_, _, _] _ _ _ _ rfl (by simp)⟩
  cases ht : timeIn fl t with
  | none =>
    have e' : r' = (b, .crash) := by
      simp only [r', setCore, ht]
    obtain ⟨hd, c, f, h1, h2, h3, h4, h5, h6⟩ := hp.header
    have e : r = (b, .crash) := by
      have f1 : stringFrom (borrow (.obj o) "child_frame_id") = some child := stringFrom_some.2 ⟨c, borrow_has.2 h2, h3⟩
      have f2 : stringFrom (borrow (.obj hd) "frame_id") = some frame := stringFrom_some.2 ⟨f, borrow_has.2 h4, h5⟩
      have f3 : stampFrom d (borrow (.obj hd) "stamp") = .crash := by
        rw [borrow_has.2 h6]
        have : d.time (asDouble d (PObj.num (toSec fl (t / 1000000000) (t % 1000000000)))).1 = none := ht
        simp only [stampFrom, PObj.stampObj, PObj.toSec, this]
      simp only [r, setObj, borrow_has.2 h1, f1, f2, f3]
    rw [e, e']
    exact ⟨rfl, Or.inr ⟨rfl, rfl⟩⟩
  | some t' =>
    have e := C82_shaped (b := b) d strict hp (t := t') ⟨_, rfl, ht⟩ auth isStatic
    have hclean : ((∀ v ∈ [PObj.num x, .num y, .num z, .num qx, .num qy, .num qz, .num qw], IsNum v) ∧
        (strict = true → (PObj.inst true false [("x", PObj.num x), ("y", .num y), ("z", .num z)]).vector3 = true ∧
          (PObj.inst false true [("x", .num qx), ("y", .num qy), ("z", .num qz), ("w", PObj.num qw)]).quaternion = true)) := by
      refine ⟨?_, fun _ => ⟨rfl, rfl⟩⟩
      intro v hv
      simp only [List.mem_cons, List.not_mem_nil, or_false] at hv
      rcases hv with rfl | rfl | rfl | rfl | rfl | rfl | rfl <;> exact ⟨_, rfl⟩
    have e' : r' = (match b.setTransform { parent := frame, child := child, stamp := t', xf := pose x y z qx qy qz qw }
        auth isStatic with
      | (b', .threw) => (b', .crash)
      | (b', .ub) => (b', .crash)
      | (b', _) => (b', .ok ())) := by
      change setCore fl b _ auth isStatic = _
      unfold setCore
      rw [ht]
      dsimp only
      generalize b.setTransform _ auth isStatic = q
      obtain ⟨b', res⟩ := q
      cases res <;> rfl
    rw [e']
    have e2 : r = _ := e
    rw [e2]
    generalize hq : b.setTransform _ auth isStatic = q
    have hq' : b.setTransform { parent := frame, child := child, stamp := t', xf := pose x y z qx qy qz qw } auth
      isStatic = q := hq
    rw [hq']
    obtain ⟨b', res⟩ := q
    cases res <;> simp only [afterSet, if_pos hclean, true_and] <;> simp

/-- **C82 (texts).** `can_transform_core` returns the flag of the C++ function together with the text that
`lookupTransform` would throw (empty when it can); unless data is stored 2³¹ s or more away from the time asked
for, when the process may end. -/
theorem C82_text {fl : ℚ → ℚ} (R : Render) (hr : Reachable D b) {target source : Name} {g s : Nat}
    (hg : IsFrame b target g) (hs : IsFrame b source s) (lg : LegalName target) (ls : LegalName source)
    (hne : target ≠ source) {t t' : Time} (ht : timeIn fl t = some t') :
    (∃ m, b.lookupTransform target source t' = .ok m ∧ canCoreT fl R b target source t = .ok (true, [])) ∨
    (∃ x w, b.lookupTransformT R target source t' = .throw x w ∧ b.lookupTransform target source t' = .throw x ∧
      canCoreT fl R b target source t = .ok (false, cstr w)) ∨
    (canCoreT fl R b target source t = .crash ∧ ∃ t'', AboutTime b g s t' t'' ∧ (FarOn b t'' g ∨ FarOn b t'' s)) := by
  unfold canCoreT withTime
  rw [ht]
  dsimp only
  rcases C81_lookup R hr hg hs lg ls hne t' with ⟨m, _, h2, h3⟩ | ⟨x, w, h1, h2, h3, _⟩ | ⟨_, h2, h3⟩
  · rw [h3]; exact Or.inl ⟨m, h2, rfl⟩
  · rw [h3]; exact Or.inr (Or.inl ⟨x, w, h1, h2, rfl⟩)
  · rw [h2]; exact Or.inr (Or.inr ⟨rfl, h3⟩)

end

/-! ### Examples and findings -/

/-- Integers for doubles: translations along x. -/
def toyDoubles : Doubles Int Int := ⟨-1, fun k => if 0 ≤ k then some k.toNat else none, fun x _ _ _ _ _ _ => x⟩

/-- A message-like object with `tr` as its translation. -/
def objWith (tr : PObj Int) : PObj Int :=
  .inst false false [("header", .inst false false [("stamp", .stampObj 15), ("frame_id", .str ['w'])]),
    ("child_frame_id", .str ['n']),
    ("transform", .inst false false [("translation", tr),
      ("rotation", .inst false true [("x", .num 0), ("y", .num 0), ("z", .num 0), ("w", .num 1)])])]

set_option maxRecDepth 8000 in
/-- A good one. -/
example : setObj toyDoubles true exBuf (.message ['n'] ['w'] 15 7 0 0 0 0 0 1) ['u'] false =
      (exBuf.step (put ['w'] ['n'] 15 7), .none) ∧
    setObj toyDoubles true exBuf (objWith (.inst true false [("x", .num 7), ("z", .num 0)])) ['u'] false =
      (exBuf, .typeError) := by
  constructor <;> exact Prod.ext rfl (by decide)

set_option maxRecDepth 8000 in
/-- **C82 (finding: not a number).** `set_transform` with a string where a number should be: Python gets an exception,
and the transform is stored all the same, with -1. -/
theorem C82_number_finding : ∃ (o : PObj Int) (b : Buf Int),
    Has o "transform" (.inst false false [("translation", .inst true false [("x", .str ['a', 'b', 'c']), ("y", .num 0),
      ("z", .num 0)]), ("rotation", .inst false true [("x", .num 0), ("y", .num 0), ("z", .num 0), ("w", .num 1)])]) ∧
    setObj toyDoubles false exBuf o ['u'] false = (b, .systemError) ∧
    exBuf.lookupTransform ['w'] ['n'] 15 = .throw .lookup ∧
    b.lookupTransform ['w'] ['n'] 15 = .ok (tmsg ['w'] ['n'] 15 (-1)) :=
  by
  refine ⟨objWith (.inst true false [("x", .str ['a', 'b', 'c']), ("y", .num 0), ("z", .num 0)]),
    exBuf.step (put ['w'] ['n'] 15 (-1)), ?_, ?_, ?_, ?_⟩
  · exact getAttr_has.1 rfl
  · exact Prod.ext rfl (by decide)
  · decide
  · decide

set_option maxRecDepth 8000 in
/-- **C82 (finding: warnings as errors).** A look-alike of the message class, good numbers: with warnings turned into errors Python
gets an exception, and the transform is stored. -/
theorem C82_strict_finding : ∃ o : PObj Int,
    setObj toyDoubles false exBuf o ['u'] false = (exBuf.step (put ['w'] ['n'] 15 7), .none) ∧
    setObj toyDoubles true exBuf o ['u'] false = (exBuf.step (put ['w'] ['n'] 15 7), .systemError) :=
  ⟨objWith (.inst false false [("x", .num 7), ("y", .num 0), ("z", .num 0)]), Prod.ext rfl (by decide),
    Prod.ext rfl (by decide)⟩

set_option maxRecDepth 8000 in
/-- **C82 (finding: computed attributes).** An attribute computed on access (a Python property) is freed before it is
used. -/
theorem C82_computed_finding : ∃ tr : PObj Int, getAttr tr "x" = some (.num 7, false) ∧
    setObj toyDoubles false exBuf (objWith tr) ['u'] false = (exBuf, .crash) :=
  ⟨.mk none none true false none [(['x'], .num 7, false), (['y'], .num 0, true), (['z'], .num 0, true)], rfl,
    Prod.ext rfl (by decide)⟩

set_option maxRecDepth 8000 in
/-- **C82 (finding: far times in Python).** A stored transform whose `can_transform_core` ends the process. -/
theorem C82_far_finding {fl : ℚ → ℚ} (h : IsFl fl) : ∃ (b : Buf Int), Reachable 100 b ∧
    canCore fl b ['g'] ['s'] 15 = .ok true ∧ canCoreT fl decimalRender b ['g'] ['s'] 15 = .crash := by
  refine ⟨farBuf, ⟨farOps, rfl⟩, ?_, ?_⟩
  · unfold canCore withTime
    rw [small h (by norm_num)]
    decide
  · unfold canCoreT withTime
    rw [small h (by norm_num)]
    decide

end Tf2.Py
