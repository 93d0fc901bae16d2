import Verif.Proofs.PyCloud
import Verif.Props.PointCloud
import Verif.Props.Convert
import Verif.Props.Transform

/-!
# Properties of point clouds transformed in Python: C75
-/
namespace Tf2.Geo.Py

variable {L : RotLib}

/-- A sane cloud: one organised in two rows of two points with `x`, `y`, `z` and an intensity, and a padding word. -/
noncomputable def exCloud : Cloud2 :=
  ⟨⟨3, 7, ['c']⟩, 2, 2, [⟨['x'], 0, 1⟩, ⟨['y'], 1, 1⟩, ⟨['z'], 2, 1⟩, ⟨['i'], 3, 1⟩], 5, 10, (List.range 20).map (fun k => (k : ℝ)), true⟩

theorem exCloud_separate : Separate exCloud.fields := by
  constructor <;> simp [exCloud]

theorem exCloud_first : FirstThree exCloud.fields 0 1 2 := by
  refine ⟨by decide, by decide, ?_, ?_, ?_, ?_⟩
  all_goals simp [Covered, exCloud]
  omega

theorem exCloud_fits : exCloud.Fits := by
  intro i hi f hf
  have hi : i < 4 := hi
  have hs : exCloud.start i ≤ 15 := by
    show 10 * (i / 2) + 5 * (i % 2) ≤ 15
    omega
  have hl : exCloud.data.length = 20 := by simp [exCloud]
  simp only [exCloud, List.mem_cons, List.not_mem_nil, or_false] at hf
  rcases hf with rfl | rfl | rfl | rfl <;> simp only [hl] <;> omega

/-- **C75, outcomes.** A cloud of sane layout is transformed whenever its data are all there and a point has at least
three values; otherwise there is an exception, unless there are no points at all. -/
theorem C75_outcomes (c : Cloud2) (tf : TfStamped) (hs : Separate c.fields) :
    (∃ r, doTransformCloud L c tf = some r) ↔
      c.width * c.height = 0 ∨ (c.Fits ∧ ∃ a b d, a < b ∧ b < d ∧ Covered c.fields a ∧ Covered c.fields b ∧ Covered c.fields d) := by
  have hfit : ∀ i, (∃ f, f ∈ c.fields) → (c.start i + (structOf c.fields).2 ≤ c.data.length ↔
      ∀ f ∈ c.fields, c.start i + f.offset + f.count ≤ c.data.length) := by
    rintro i ⟨g, hg⟩
    constructor
    · intro h f hf
      have := (struct_size hs (structOf c.fields).2).1 (Nat.le_refl _) f hf
      omega
    · intro h
      have h0 := h g hg
      have := (struct_size hs (c.data.length - c.start i)).2 (fun f hf => by have := h f hf; omega)
      omega
  constructor
  · rintro ⟨r, h⟩
    obtain ⟨pts, hlen, hp, -⟩ := doTransformCloud_some h
    rcases Nat.eq_zero_or_pos (c.width * c.height) with h0 | h0
    · exact Or.inl h0
    · right
      have h3 := (movePoint_length (hp 0 h0).2).2
      rw [List.length_map] at h3
      have hsrt := struct_sorted c.fields
      have hmem := struct_mem hs
      generalize hL : (structOf c.fields).1 = M at *
      match M, h3 with
      | a :: b :: d :: rest, _ =>
        simp only [List.pairwise_cons, List.mem_cons] at hsrt
        have ha := (hmem a).1 (by simp)
        refine ⟨fun i hi f hf => ?_, a, b, d, hsrt.1 b (Or.inl rfl), hsrt.2.1 d (Or.inl rfl), ha, (hmem b).1 (by simp),
          (hmem d).1 (by simp)⟩
        exact (hfit i ⟨f, hf⟩).1 (hp i hi).1 f hf
  · rintro h
    unfold doTransformCloud
    dsimp only
    have hok : ∃ pts, each (fun o => (unpackFrom (structOf c.fields) c.data o).bind (movePoint (Kdl.toKdl L tf.transform)))
        (starts c) = some pts ∧ ∀ p ∈ pts, p.length = (structOf c.fields).1.length := by
      have hex := (each_ok (f := fun o => (unpackFrom (structOf c.fields) c.data o).bind (movePoint (Kdl.toKdl L tf.transform)))
        (l := starts c)).2 ?_
      · obtain ⟨pts, hpts⟩ := hex
        refine ⟨pts, hpts, fun p hp => ?_⟩
        have hf := each_some.1 hpts
        obtain ⟨i, hi, rfl⟩ := List.getElem_of_mem hp
        have hg := hf.get (i := i) (by rw [hf.length_eq]; exact hi) hi
        simp only [List.get_eq_getElem] at hg
        rw [Option.bind_eq_some_iff] at hg
        obtain ⟨q, hq, hm⟩ := hg
        rw [(movePoint_length hm).1]
        unfold unpackFrom at hq
        split at hq
        · rw [← Option.some.inj hq, List.length_map]
        · cases hq
      · intro o ho
        rw [starts_eq] at ho
        simp only [List.mem_map, List.mem_range] at ho
        obtain ⟨i, hi, rfl⟩ := ho
        rcases h with h | ⟨hf, a, b, d, hab, hbd, ha, hb, hd⟩
        · omega
        · have hle := (hfit i (by obtain ⟨f, hf, _⟩ := ha; exact ⟨f, hf⟩)).2 (hf i hi)
          unfold unpackFrom
          rw [if_pos hle]
          have ha := (struct_mem hs a).2 ha
          have hb := (struct_mem hs b).2 hb
          have hd := (struct_mem hs d).2 hd
          generalize (structOf c.fields).1 = M at *
          match M, ha, hb, hd with
          | [x], ha, hb, hd => simp at ha hb; omega
          | [x, y], ha, hb, hd => simp at ha hb hd; omega
          | x :: y :: z :: rest, _, _, _ => exact ⟨_, rfl⟩
    obtain ⟨pts, hpts, hl⟩ := hok
    rw [hpts]
    exact createCloud_ok hl

/-- **C75.** What the transformed cloud holds: as many points, under the same fields; in each point the first three
words that belong to fields are moved by the transform, as a point, and every other one is kept; the header is that of
the transform. The points come in one row, however they were organised, and the data are all there. -/
theorem C75_points {c r : Cloud2} {tf : TfStamped} (hs : Separate c.fields) (h : doTransformCloud L c tf = some r) :
    (r.header = tf.header ∧ r.fields = c.fields ∧ r.height = 1 ∧ r.width = c.width * c.height ∧
      r.rowStep = r.pointStep * r.width ∧ r.Fits) ∧
    ∀ i, i < c.width * c.height → ∀ a b d, FirstThree c.fields a b d →
      (⟨r.word i a, r.word i b, r.word i d⟩ : Vec3 ℝ) =
        (Kdl.toKdl L tf.transform).apply ⟨c.word i a, c.word i b, c.word i d⟩ ∧
      ∀ e, Covered c.fields e → e ≠ a → e ≠ b → e ≠ d → r.word i e = c.word i e := by
  obtain ⟨pts, hlen, hp, hr⟩ := doTransformCloud_some h
  obtain ⟨⟨h1, h2, h3, h4, -, h6, h7⟩, hdl, hst, hw⟩ := createCloud_some hr
  refine ⟨⟨h1, h4, h2, by rw [h3, hlen], h7, ?_⟩, ?_⟩
  · intro i hi f hf
    rw [h2, h3, Nat.mul_one] at hi
    rw [h4] at hf
    rw [hst i hi, hdl]
    have := (struct_size hs (structOf c.fields).2).1 (Nat.le_refl _) f hf
    have hm : (structOf c.fields).2 * (i + 1) ≤ (structOf c.fields).2 * pts.length := Nat.mul_le_mul_left _ hi
    rw [Nat.mul_succ] at hm
    omega
  · rintro i hi a b d ⟨hab, hbd, ha, hb, hd, hall⟩
    have hi' : i < pts.length := by omega
    have hmem := struct_mem hs
    have hsrt := struct_sorted c.fields
    obtain ⟨rest, hM⟩ := first_three hsrt hab hbd ((hmem a).2 ha) ((hmem b).2 hb) ((hmem d).2 hd) (fun e he => hall e ((hmem e).1 he))
    have hmv := (hp i hi).2
    have hk := hw i hi'
    rw [hM] at hmv
    simp only [List.map_cons, movePoint] at hmv
    have hpt := Option.some.inj hmv
    have key : ∀ k (hk' : k < (a :: b :: d :: rest).length), r.word i ((a :: b :: d :: rest)[k]) = (pts.getD i []).getD k 0 := by
      rw [← hM]; exact hk
    have e0 := key 0 (by simp)
    have e1 := key 1 (by simp)
    have e2 := key 2 (by simp)
    rw [← hpt] at e0 e1 e2
    simp only [List.getElem_cons_zero, List.getElem_cons_succ, List.cons_append, List.nil_append, List.getD_cons_zero, List.getD_cons_succ] at e0 e1 e2
    refine ⟨by rw [e0, e1, e2], ?_⟩
    intro e he hea heb hed
    have hem := (hmem e).2 he
    rw [hM] at hem
    simp only [List.mem_cons, hea, heb, hed, false_or] at hem
    obtain ⟨k, hk', rfl⟩ := List.getElem_of_mem hem
    have e3 := key (k + 3) (by simpa using hk')
    rw [← hpt] at e3
    simp only [List.getElem_cons_succ, List.cons_append, List.nil_append, List.getD_cons_succ] at e3
    rw [e3, List.getD_eq_getElem?_getD, List.getElem?_map, List.getElem?_eq_getElem hk']
    rfl

/-- The example is transformed, by every transform, and its second row is moved to the first. -/
example (tf : TfStamped) : ∃ r, doTransformCloud L exCloud tf = some r ∧ r.height = 1 ∧ r.width = 4 ∧
    (⟨r.word 3 0, r.word 3 1, r.word 3 2⟩ : Vec3 ℝ) = (Kdl.toKdl L tf.transform).apply ⟨15, 16, 17⟩ ∧ r.word 3 3 = 18 := by
  obtain ⟨r, hr⟩ := (C75_outcomes (L := L) exCloud tf exCloud_separate).2 (Or.inr ⟨exCloud_fits, 0, 1, 2, by decide, by decide,
    exCloud_first.2.2.1, exCloud_first.2.2.2.1, exCloud_first.2.2.2.2.1⟩)
  obtain ⟨⟨-, -, h3, h4, -⟩, hp⟩ := C75_points exCloud_separate hr
  obtain ⟨h5, h6⟩ := hp 3 (by decide) 0 1 2 exCloud_first
  refine ⟨r, hr, h3, h4, ?_, ?_⟩
  · rw [h5]
    norm_num [exCloud, Cloud2.word, Cloud2.start, List.range_succ]
  · rw [h6 3 ⟨⟨['i'], 3, 1⟩, by simp [exCloud], by decide, by decide⟩ (by decide) (by decide) (by decide)]
    norm_num [exCloud, Cloud2.word, Cloud2.start, List.range_succ]

/-- **C75, agreement with C++.** With a unit quaternion, when the fields `x`, `y`, `z` come first, each point ends up
where `doTransform` of C++ puts the same point of the same cloud, and a `Point` message. -/
theorem C75_agrees {c r : Cloud2} {tf : TfStamped} (hL : L.Sound) (hu : tf.transform.rot.Unit) (hs : Separate c.fields)
    (h : doTransformCloud L c tf = some r) {a b d : Nat} (hf : FirstThree c.fields a b d) {i : Nat} (hi : i < c.width * c.height) :
    (⟨r.word i a, r.word i b, r.word i d⟩ : Vec3 ℝ) = applied Geo.doPoint tf ⟨c.word i a, c.word i b, c.word i d⟩ ∧
    (c.rowStep = c.pointStep * c.width → a < c.pointStep → b < c.pointStep → d < c.pointStep →
      (⟨r.word i a, r.word i b, r.word i d⟩ : Vec3 ℝ) = (applied doCloud tf
        ⟨c.header, c.width * c.height, c.pointStep, a, b, d, fun k => c.data.getD k 0⟩).pt i) := by
  have h1 : (⟨r.word i a, r.word i b, r.word i d⟩ : Vec3 ℝ) = applied Geo.doPoint tf ⟨c.word i a, c.word i b, c.word i d⟩ := by
    rw [((C75_points hs h).2 i hi a b d hf).1, applied_point, toKdl_eq hL hu]
    rfl
  refine ⟨h1, fun hrow ha hb hd => ?_⟩
  have hlaid : Cloud.Laid ⟨c.header, c.width * c.height, c.pointStep, a, b, d, fun k => c.data.getD k 0⟩ := by
    obtain ⟨hab, hbd, -⟩ := hf
    exact ⟨ha, hb, hd, by show a ≠ b; omega, by show a ≠ d; omega, by show b ≠ d; omega⟩
  have h2 := C54_agrees_with_points (Ref.self : Ref Cloud Cloud) Ref.self self_lawful (Or.inl rfl) tf
    ⟨c.header, c.width * c.height, c.pointStep, a, b, d, fun k => c.data.getD k 0⟩ hlaid hu (i := i) hi
  have h3 : (applied doCloud tf ⟨c.header, c.width * c.height, c.pointStep, a, b, d, fun k => c.data.getD k 0⟩).pt i =
      applied Geo.doPoint tf (Cloud.pt ⟨c.header, c.width * c.height, c.pointStep, a, b, d, fun k => c.data.getD k 0⟩ i) := h2
  rw [h1, h3]
  have hst : c.start i = i * c.pointStep := by
    unfold Cloud2.start
    rw [hrow, Nat.mul_assoc, ← Nat.mul_add, Nat.div_add_mod, Nat.mul_comm]
  unfold Cloud.pt Cloud2.word
  rw [hst]

/-- **C75, one after the other.** Transforming by one transform and the result by another is transforming by their
composition, word for word. -/
theorem C75_by_way_of {c r r' r'' : Cloud2} {tf tf' : TfStamped} (hL : L.Sound) (hu : tf.transform.rot.Unit)
    (hu' : tf'.transform.rot.Unit) (hs : Separate c.fields) (h : doTransformCloud L c tf = some r)
    (h' : doTransformCloud L r tf' = some r')
    (h'' : doTransformCloud L c ⟨tf'.header, tf.child, tf'.transform.comp tf.transform⟩ = some r'') :
    r'.header = r''.header ∧ r'.fields = r''.fields ∧ r'.width = r''.width ∧ r'.height = r''.height ∧
    ∀ i, i < c.width * c.height → ∀ a b d, FirstThree c.fields a b d → ∀ e, Covered c.fields e → r'.word i e = r''.word i e := by
  obtain ⟨⟨p1, p2, p3, p4, -⟩, p⟩ := C75_points hs h
  obtain ⟨⟨q1, q2, q3, q4, -⟩, q⟩ := C75_points (by rw [p2]; exact hs) h'
  obtain ⟨⟨s1, s2, s3, s4, -⟩, s⟩ := C75_points hs h''
  refine ⟨by rw [q1, s1], by rw [q2, s2, p2], by rw [q4, s4, p3, p4, Nat.mul_one], by rw [q3, s3], ?_⟩
  intro i hi a b d hf e he
  obtain ⟨pa, pe⟩ := p i hi a b d hf
  obtain ⟨qa, qe⟩ := q i (by rw [p3, p4, Nat.mul_one]; exact hi) a b d (by rw [p2]; exact hf)
  obtain ⟨sa, se⟩ := s i hi a b d hf
  have hc : Kdl.toKdl L (tf'.transform.comp tf.transform) = (Kdl.toKdl L tf'.transform).mul (Kdl.toKdl L tf.transform) := by
    rw [toKdl_eq hL hu, toKdl_eq hL hu', toKdl_eq hL (Quat.Unit.mul hu' hu), fromMsg_comp hu' hu]
  rw [pa] at qa
  simp only [hc] at sa
  rw [apply_mul, ← qa] at sa
  by_cases ea : e = a
  · subst ea; exact (congrArg Vec3.x sa).symm
  by_cases eb : e = b
  · subst eb; exact (congrArg Vec3.y sa).symm
  by_cases ed : e = d
  · subst ed; exact (congrArg Vec3.z sa).symm
  rw [qe e (by rw [p2]; exact he) ea eb ed, pe e he ea eb ed, se e he ea eb ed]

/-- **C75, there and back.** Transforming by a transform and the result by its inverse restores every value of every
point. -/
theorem C75_round_trip {c r r' : Cloud2} {tf : TfStamped} (hL : L.Sound) (hu : tf.transform.rot.Unit) (hs : Separate c.fields)
    (h : doTransformCloud L c tf = some r) {hd : Header} {ch : Name} (h' : doTransformCloud L r ⟨hd, ch, tf.transform.inv⟩ = some r')
    {a b d : Nat} (hf : FirstThree c.fields a b d) {i : Nat} (hi : i < c.width * c.height) {e : Nat} (he : Covered c.fields e) :
    r'.word i e = c.word i e := by
  obtain ⟨⟨p1, p2, p3, p4, -⟩, p⟩ := C75_points hs h
  obtain ⟨-, q⟩ := C75_points (by rw [p2]; exact hs) h'
  obtain ⟨pa, pe⟩ := p i hi a b d hf
  obtain ⟨qa, qe⟩ := q i (by rw [p3, p4, Nat.mul_one]; exact hi) a b d (by rw [p2]; exact hf)
  have hi' : Kdl.toKdl L tf.transform.inv = fromMsgT tf.transform.inv := toKdl_eq hL (Quat.Unit.inverse hu)
  rw [pa] at qa
  simp only [hi', toKdl_eq hL hu] at qa
  rw [← apply_mul, ← fromMsg_comp (Quat.Unit.inverse hu) hu, Pose.inv_comp hu, fromMsg_one] at qa
  have hid : ∀ v : Vec3 ℝ, (Xform.identity : Xform ℝ).apply v = v := by
    intro v; ext <;> simp [Xform.identity, Xform.apply, Mat3.identity, Vec3.dot, Vec3.zero]
  rw [hid] at qa
  by_cases ea : e = a
  · subst ea; exact congrArg Vec3.x qa
  by_cases eb : e = b
  · subst eb; exact congrArg Vec3.y qa
  by_cases ed : e = d
  · subst ed; exact congrArg Vec3.z qa
  rw [qe e (by rw [p2]; exact he) ea eb ed, pe e he ea eb ed]

/-- The hypotheses of the theorems above are met: the example is transformed there and back. -/
example (tf : TfStamped) (hd : Header) (ch : Name) : ∃ r r', doTransformCloud L exCloud tf = some r ∧
    doTransformCloud L r ⟨hd, ch, tf.transform.inv⟩ = some r' := by
  have h3 := exCloud_first
  obtain ⟨r, hr⟩ := (C75_outcomes (L := L) exCloud tf exCloud_separate).2 (Or.inr ⟨exCloud_fits, 0, 1, 2, by decide, by decide,
    h3.2.2.1, h3.2.2.2.1, h3.2.2.2.2.1⟩)
  obtain ⟨⟨-, h2, -, -, -, hfit⟩, -⟩ := C75_points exCloud_separate hr
  obtain ⟨r', hr'⟩ := (C75_outcomes (L := L) r ⟨hd, ch, tf.transform.inv⟩ (by rw [h2]; exact exCloud_separate)).2
    (Or.inr ⟨hfit, 0, 1, 2, by decide, by decide, by rw [h2]; exact h3.2.2.1, by rw [h2]; exact h3.2.2.2.1, by rw [h2]; exact h3.2.2.2.2.1⟩)
  exact ⟨r, r', hr, hr'⟩

/-- **C75 (finding).** The coordinates are not found by name: in a sane cloud whose intensity comes before `x`, `y`,
`z`, a shift by one along `x` changes the intensity and leaves the point where it was, while `doTransform` of C++
moves the point. -/
theorem C75_field_order_finding (hL : L.Sound) : ∃ (c r : Cloud2) (tf : TfStamped), Separate c.fields ∧ c.Fits ∧
    c.fields = [⟨['i'], 0, 1⟩, ⟨['x'], 1, 1⟩, ⟨['y'], 2, 1⟩, ⟨['z'], 3, 1⟩] ∧ tf.transform.rot.Unit ∧
    0 < c.width * c.height ∧ doTransformCloud L c tf = some r ∧
    r.word 0 1 = c.word 0 1 ∧ r.word 0 0 ≠ c.word 0 0 ∧
    ((applied doCloud tf ⟨c.header, c.width * c.height, c.pointStep, 1, 2, 3, fun k => c.data.getD k 0⟩).pt 0).x = c.word 0 1 + 1 := by
  let c : Cloud2 := ⟨⟨0, 0, []⟩, 1, 1, [⟨['i'], 0, 1⟩, ⟨['x'], 1, 1⟩, ⟨['y'], 2, 1⟩, ⟨['z'], 3, 1⟩], 4, 4, [0, 0, 0, 0], true⟩
  let tf : TfStamped := ⟨⟨0, 0, []⟩, [], ⟨⟨0, 0, 0, 1⟩, ⟨1, 0, 0⟩⟩⟩
  have hu : tf.transform.rot.Unit := by norm_num [Quat.Unit, tf]
  have hs : Separate c.fields := by constructor <;> simp [c]
  have hfit : c.Fits := by
    intro i hi f hf
    have hi : i = 0 := by simp [c] at hi; exact hi
    subst hi
    simp only [c, List.mem_cons, List.not_mem_nil, or_false] at hf
    rcases hf with rfl | rfl | rfl | rfl <;> simp [c, Cloud2.start]
  have hf : FirstThree c.fields 0 1 2 := by
    refine ⟨by decide, by decide, ?_, ?_, ?_, ?_⟩
    all_goals simp [Covered, c]
    omega
  obtain ⟨r, hr⟩ := (C75_outcomes (L := L) c tf hs).2 (Or.inr ⟨hfit, 0, 1, 2, by decide, by decide, hf.2.2.1, hf.2.2.2.1, hf.2.2.2.2.1⟩)
  have hpt := (C75_agrees hL hu hs hr hf (i := 0) (by simp [c])).1
  rw [applied_point] at hpt
  have e0 := congrArg Vec3.x hpt
  have e1 := congrArg Vec3.y hpt
  simp only at e0 e1
  refine ⟨c, r, tf, hs, hfit, rfl, hu, by simp [c], hr, ?_, ?_, ?_⟩
  · rw [e1]
    norm_num [pointVal, fromMsgT, Xform.ofQuat, Xform.apply, Mat3.ofQuat, Quat.length2, Quat.dot, Vec3.dot, tf, c, Cloud2.word, Cloud2.start]
  · rw [e0]
    norm_num [pointVal, fromMsgT, Xform.ofQuat, Xform.apply, Mat3.ofQuat, Quat.length2, Quat.dot, Vec3.dot, tf, c, Cloud2.word, Cloud2.start]
  · have h2 := C54_agrees_with_points (Ref.self : Ref Cloud Cloud) Ref.self self_lawful (Or.inl rfl) tf
      ⟨c.header, c.width * c.height, c.pointStep, 1, 2, 3, fun k => c.data.getD k 0⟩ (by simp [Cloud.Laid, Ref.self, c]) hu (i := 0) (by simp [Ref.self, c])
    have h3 : (applied doCloud tf ⟨c.header, c.width * c.height, c.pointStep, 1, 2, 3, fun k => c.data.getD k 0⟩).pt 0 =
      applied Geo.doPoint tf (Cloud.pt ⟨c.header, c.width * c.height, c.pointStep, 1, 2, 3, fun k => c.data.getD k 0⟩ 0) := h2
    rw [h3, applied_point]
    norm_num [pointVal, fromMsgT, Xform.ofQuat, Xform.apply, Mat3.ofQuat, Quat.length2, Quat.dot, Vec3.dot, tf, c, Cloud2.word, Cloud2.start, Cloud.pt]

end Tf2.Geo.Py
