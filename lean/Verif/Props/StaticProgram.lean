import Verif.Spec.StaticProgram
import Verif.Props.Geometry
import Verif.Props.PoseDenote

/-!
# C72: the command line publisher of static transforms
-/
namespace Tf2.Geo

variable {atof : Name → ℝ} {params : Name → Option Xml} {now : Time}

theorem publishChecked_spinning {m : Msg Pose} (h : m.parent ≠ m.child) : (publishChecked m).Publishes m := by
  unfold publishChecked
  rw [if_neg h]
  exact ⟨_, rfl, rfl, rfl⟩

theorem publishChecked_cases (m : Msg Pose) :
    (m.parent = m.child ∧ publishChecked m = .exited 1) ∨ (m.parent ≠ m.child ∧ (publishChecked m).Publishes m) := by
  by_cases h : m.parent = m.child
  · exact .inl ⟨h, if_pos h⟩
  · exact .inr ⟨h, publishChecked_spinning h⟩

/-- **C72, quaternion form.** -/
theorem C72_quaternion (prog x y z qx qy qz qw frame child : Name) (h : frame ≠ child) :
    (staticMain atof params now [prog, x, y, z, qx, qy, qz, qw, frame, child]).Publishes
      { parent := frame, child := child, stamp := now,
        xf := ⟨⟨atof qx, atof qy, atof qz, atof qw⟩, ⟨atof x, atof y, atof z⟩⟩ } :=
  publishChecked_spinning h

/-- **C72, angle form.** The rotation published is a unit quaternion of `Rz(yaw) Ry(pitch) Rx(roll)`. -/
theorem C72_angles (prog x y z yaw pitch roll frame child : Name) (h : frame ≠ child) :
    ∃ q : Quat ℝ, (staticMain atof params now [prog, x, y, z, yaw, pitch, roll, frame, child]).Publishes
      { parent := frame, child := child, stamp := now, xf := ⟨q, ⟨atof x, atof y, atof z⟩⟩ } ∧
      q.Unit ∧ (Mat3.ofQuat q).toM = rotZ (atof yaw) * rotY (atof pitch) * rotX (atof roll) := by
  obtain ⟨-, h1, h2, -⟩ := C30_construction (atof roll) (atof pitch) (atof yaw)
  exact ⟨_, publishChecked_spinning h, h1, h2⟩

/-- **C72, parameter form.** With numbers that are floating point on the parameter server. -/
theorem C72_parameter (prog name frame child : Name) (x y z qx qy qz qw : ℝ) (h : frame ≠ child)
    (hp : params name = some (paramOf frame child (.double x) (.double y) (.double z) (.double qx) (.double qy)
      (.double qz) (.double qw))) :
    (staticMain atof params now [prog, name]).Publishes
      { parent := frame, child := child, stamp := now, xf := ⟨⟨qx, qy, qz, qw⟩, ⟨x, y, z⟩⟩ } := by
  unfold staticMain
  dsimp only
  rw [hp]
  have hv : validateXmlRpcTf (paramOf frame child (.double x) (.double y) (.double z) (.double qx) (.double qy)
      (.double qz) (.double qw)) = true := rfl
  have hm : msgOfParam (paramOf frame child (.double x) (.double y) (.double z) (.double qx) (.double qy)
      (.double qz) (.double qw)) now = some { parent := frame, child := child, stamp := now, xf := ⟨⟨qx, qy, qz, qw⟩, ⟨x, y, z⟩⟩ } := rfl
  dsimp only
  rw [if_pos hv, hm]
  exact publishChecked_spinning h

/-- **C72, all outcomes.** Whatever the arguments and the parameter server: the program exits with -1 or 1, or it is
ended by an exception, or it publishes exactly one transform, stamped now, between two different names. It publishes
only when given eight or nine arguments or the name of a parameter. -/
theorem C72_outcomes (argv : List Name) :
    staticMain atof params now argv = .exited (-1) ∨ staticMain atof params now argv = .exited 1 ∨
    (staticMain atof params now argv = .crashed ∧ argv.length = 2) ∨
    ∃ m, (staticMain atof params now argv).Publishes m ∧ m.stamp = now ∧ m.parent ≠ m.child ∧
      (argv.length = 9 ∨ argv.length = 10 ∨ argv.length = 2) := by
  have key : ∀ m : Msg Pose, m.stamp = now → (argv.length = 9 ∨ argv.length = 10 ∨ argv.length = 2) →
      publishChecked m = .exited (-1) ∨ publishChecked m = .exited 1 ∨
      (publishChecked m = .crashed ∧ argv.length = 2) ∨
      ∃ m', (publishChecked m).Publishes m' ∧ m'.stamp = now ∧ m'.parent ≠ m'.child ∧
        (argv.length = 9 ∨ argv.length = 10 ∨ argv.length = 2) := by
    intro m hm hl
    rcases publishChecked_cases m with ⟨_, h⟩ | ⟨h, h'⟩
    · exact .inr (.inl h)
    · exact .inr (.inr (.inr ⟨m, h', hm, h, hl⟩))
  unfold staticMain
  split
  · exact key _ rfl (.inr (.inl rfl))
  · exact key _ rfl (.inl rfl)
  · split
    · exact .inl rfl
    · split
      · split
        · exact .inr (.inr (.inl ⟨rfl, rfl⟩))
        · rename_i m hm
          refine key m ?_ (.inr (.inr rfl))
          simp only [msgOfParam, Option.bind_eq_bind, Option.bind_eq_some_iff, Option.pure_def] at hm
          obtain ⟨_, _, _, _, _, _, _, _, _, _, _, _, _, _, _, _, _, _, hm⟩ := hm
          cases hm
          rfl
      · exact .inl rfl
  · exact .inl rfl

/-- A static transform a buffer has received, and nothing else about its child frame, is what lookups return, at every
time but zero. -/
theorem static_read {D : Duration} {ops : List (Op Pose)} (hreg : Regular D ops) {m : Msg Pose} (hm : m.xf.rot.Unit)
    (hv : ValidMsg m) (hr : Receives ops m) (lc : LegalName (stripSlash m.child)) (lp : LegalName (stripSlash m.parent))
    (nc : stripSlash m.child ≠ noParentName) (np : stripSlash m.parent ≠ noParentName) {t : Time} (ht : t ≠ 0) :
    ((Buf.init D).run ops).lookupTransform (stripSlash m.parent) (stripSlash m.child) t =
      .ok { parent := stripSlash m.parent, child := stripSlash m.child, stamp := t, xf := m.xf } := by
  obtain ⟨⟨a, ha⟩, hr⟩ := hr
  have hall : ∀ e ∈ offersFor (stripSlash m.child) ops, e = (m, true) := by
    rintro ⟨m', s⟩ he
    obtain ⟨⟨a', ha'⟩, hv', hc⟩ := offersFor_mem he
    obtain ⟨rfl, rfl⟩ := hr m' a' s ha' hv' hc
    rfl
  have hmem : (m, true) ∈ offersFor (stripSlash m.child) ops := by
    clear hall hr hreg
    induction ops with
    | nil => cases ha
    | cons o r ih =>
      rcases List.mem_cons.1 ha with rfl | h
      · simp only [offersFor, hv, true_and, if_true]; exact List.mem_cons_self ..
      · cases o with
        | clear => exact ih h
        | set m' a' s' =>
          simp only [offersFor]
          split
          · exact List.mem_cons_of_mem _ (ih h)
          · exact ih h
  obtain ⟨r, h0⟩ : ∃ r, offersFor (stripSlash m.child) ops = (m, true) :: r := by
    cases hl : offersFor (stripSlash m.child) ops with
    | nil => rw [hl] at hmem; cases hmem
    | cons e r => exact ⟨r, by rw [hall e (by rw [hl]; exact List.mem_cons_self ..)]⟩
  have hlast : (offersFor (stripSlash m.child) ops).getLast? = some (m, true) := by
    cases hg : (offersFor (stripSlash m.child) ops).getLast? with
    | none => rw [h0] at hg; simp at hg
    | some e => rw [hall e (List.mem_of_getLast? hg)]
  have hs : Says D ops t (stripSlash m.child) (stripSlash m.parent) m.xf := .static h0 hlast
  have hw : WF D ((Buf.init D : Buf Pose).run ops) := WF.run (WF.init D) ops
  have fc := isFrame_of_mentioned (D := D) (X := Pose) rfl hs.mentioned.1 nc
  have fp := isFrame_of_mentioned (D := D) (X := Pose) rfl hs.mentioned.2 np
  have hpar := (says_iff hreg interpZero_pose rfl ht fc _ _).2 ⟨_, fp, hs⟩
  have hne : stripSlash m.child ≠ stripSlash m.parent := hv.1
  obtain ⟨acc, ch, hwalk, htime, hres⟩ := walkAt_parent hw fc.1 (fun h => hne (hw.inj fc.2 (h ▸ fp.2))) hpar
  rw [lookup_walkAt hw fp fc lp lc hne.symm ht, hwalk]
  simp only [lookupOfWalk, htime, Res.ok.injEq, Msg.mk.injEq, true_and]
  have h1 := pose_laws.comp_one hm
  rcases hres with h | h <;> rw [h, h1]
  rw [pose_laws.inv_one, pose_laws.one_comp hm]

theorem unit_normOK {p : Pose} (h : p.rot.Unit) : Rigid.normOK p = true := by
  show Pose.normOK p = true
  unfold Quat.Unit at h
  have e : p.rot.w * p.rot.w + p.rot.x * p.rot.x + p.rot.y * p.rot.y + p.rot.z * p.rot.z - 1 = 0 := by
    nlinarith [h]
  simp only [Pose.normOK, decide_eq_true_eq]
  rw [e]; norm_num

/-- **C72, end to end.** What the program publishes is what every buffer answers that received it and knows nothing else
about the child frame: for eight arguments, the transform from `child` to `frame` is, at every time but zero, the translation
`(x, y, z)` and the rotation `Rz(yaw) Ry(pitch) Rx(roll)`, whatever else is in the buffer. -/
theorem C72_read {prog x y z yaw pitch roll frame child : Name} {m : Msg Pose}
    (h : (staticMain atof params now [prog, x, y, z, yaw, pitch, roll, frame, child]).Publishes m)
    (lc : LegalName (stripSlash child)) (lp : LegalName (stripSlash frame)) (hne : stripSlash child ≠ stripSlash frame)
    (nc : stripSlash child ≠ noParentName) (np : stripSlash frame ≠ noParentName)
    {D : Duration} {ops : List (Op Pose)} (hreg : Regular D ops) (hr : Receives ops m) {t : Time} (ht : t ≠ 0) :
    ∃ r, ((Buf.init D).run ops).lookupTransform (stripSlash frame) (stripSlash child) t = .ok r ∧ r.stamp = t ∧
      r.xf.trans = ⟨atof x, atof y, atof z⟩ ∧ r.xf.rot.Unit ∧
      (Mat3.ofQuat r.xf.rot).toM = rotZ (atof yaw) * rotY (atof pitch) * rotX (atof roll) := by
  have hfc : frame ≠ child := fun e => hne (by rw [e])
  obtain ⟨q, ⟨b, hb, -, hm⟩, hq, hM⟩ := C72_angles (atof := atof) (params := params) (now := now) prog x y z yaw pitch roll frame child hfc
  obtain ⟨b', hb', -, hm'⟩ := h
  rw [hb] at hb'
  cases hb'
  rw [hm] at hm'
  simp only [Option.some.injEq, List.cons.injEq, and_true] at hm'
  subst hm'
  have hv : ValidMsg (X := Pose) { parent := frame, child := child, stamp := now, xf := ⟨q, ⟨atof x, atof y, atof z⟩⟩ } :=
    ⟨hne, lc.1, lp.1, rfl, unit_normOK hq⟩
  exact ⟨_, static_read hreg hq hv hr lc lp nc np ht, rfl, rfl, hq, hM⟩

/-- The same for nine arguments that are a unit quaternion. -/
theorem C72_read_quaternion {prog x y z qx qy qz qw frame child : Name} {m : Msg Pose}
    (h : (staticMain atof params now [prog, x, y, z, qx, qy, qz, qw, frame, child]).Publishes m)
    (hq : (⟨atof qx, atof qy, atof qz, atof qw⟩ : Quat ℝ).Unit)
    (lc : LegalName (stripSlash child)) (lp : LegalName (stripSlash frame)) (hne : stripSlash child ≠ stripSlash frame)
    (nc : stripSlash child ≠ noParentName) (np : stripSlash frame ≠ noParentName)
    {D : Duration} {ops : List (Op Pose)} (hreg : Regular D ops) (hr : Receives ops m) {t : Time} (ht : t ≠ 0) :
    ((Buf.init D).run ops).lookupTransform (stripSlash frame) (stripSlash child) t =
      .ok ⟨stripSlash frame, stripSlash child, t, ⟨⟨atof qx, atof qy, atof qz, atof qw⟩, ⟨atof x, atof y, atof z⟩⟩⟩ := by
  have hfc : frame ≠ child := fun e => hne (by rw [e])
  obtain ⟨b, hb, -, hm⟩ := C72_quaternion (atof := atof) (params := params) (now := now) prog x y z qx qy qz qw frame child hfc
  obtain ⟨b', hb', -, hm'⟩ := h
  rw [hb] at hb'
  cases hb'
  rw [hm] at hm'
  simp only [Option.some.injEq, List.cons.injEq, and_true] at hm'
  subst hm'
  have hv : ValidMsg (X := Pose) { parent := frame, child := child, stamp := now, xf := ⟨⟨atof qx, atof qy, atof qz, atof qw⟩, ⟨atof x, atof y, atof z⟩⟩ } :=
    ⟨hne, lc.1, lp.1, rfl, unit_normOK hq⟩
  exact static_read hreg hq hv hr lc lp nc np ht

/-- The hypotheses of `C72_read`, met: a quarter turn of `/arm` above `base`, received by a buffer that also knows
another frame. -/
example : let argv : List Name := [[], ['1'], ['2'], ['3'], ['4'], ['5'], ['6'], ['b'], ['/', 'a']]
    ∃ m, (staticMain (fun _ => 1) params 7 argv).Publishes m ∧
      let ops : List (Op Pose) := [.set ⟨['b'], ['c'], 3, Pose.one⟩ [] false, .set m ['p'] true]
      Regular 10 ops ∧ Receives ops m ∧ LegalName (stripSlash ['/', 'a']) ∧ LegalName (stripSlash ['b']) ∧
      stripSlash ['/', 'a'] ≠ stripSlash ['b'] ∧ stripSlash ['/', 'a'] ≠ noParentName ∧ stripSlash ['b'] ≠ noParentName := by
  intro argv
  obtain ⟨q, h, -, -⟩ := C72_angles (atof := fun _ => 1) (params := params) (now := 7) [] ['1'] ['2'] ['3'] ['4'] ['5'] ['6'] ['b'] ['/', 'a'] (by decide)
  refine ⟨_, h, ⟨by decide, ?_, ?_⟩, ⟨⟨_, List.mem_cons_of_mem _ (List.mem_cons_self ..)⟩, ?_⟩, ⟨by decide, by decide⟩, ⟨by decide, by decide⟩, by decide, by decide, by decide⟩
  · intro m a s hm _
    simp only [List.mem_cons, Op.set.injEq, List.not_mem_nil, or_false] at hm
    rcases hm with ⟨rfl, _, _⟩ | ⟨rfl, _, _⟩ <;> dsimp only <;> decide
  · intro m a s hm _
    simp only [List.mem_cons, Op.set.injEq, List.not_mem_nil, or_false] at hm
    rcases hm with ⟨rfl, _, _⟩ | ⟨rfl, _, _⟩ <;> dsimp only <;> decide
  · intro m a s hm _ hc
    simp only [List.mem_cons, Op.set.injEq, List.not_mem_nil, or_false] at hm
    rcases hm with ⟨rfl, _, _⟩ | ⟨rfl, _, rfl⟩
    · dsimp only at hc; exact absurd hc (by decide)
    · exact ⟨rfl, rfl⟩

/-! ### Findings -/

/-- **C72, finding.** The program compares the names as they are written; the buffer strips a leading slash first. Given
`a` and `/a` it publishes happily what every buffer refuses. -/
theorem C72_slash_finding (prog x y z yaw pitch roll a : Name) (ha : a.head? ≠ some '/') :
    ∃ m, (staticMain atof params now [prog, x, y, z, yaw, pitch, roll, a, '/' :: a]).Publishes m ∧
      ∀ (b : Buf Pose) auth, b.setTransform m auth true = (b, .invalid) := by
  obtain ⟨q, h, -, -⟩ := C72_angles (atof := atof) (params := params) (now := now) prog x y z yaw pitch roll a ('/' :: a)
    (by intro e; have := congrArg List.length e; simp at this)
  refine ⟨_, h, fun b auth => Buf.setTransform_invalid ?_⟩
  rw [← Bool.not_eq_true, msgValid_iff]
  rintro ⟨h1, -⟩
  apply h1
  cases a with
  | nil => rfl
  | cons c r =>
    simp only [stripSlash]
    split
    · rename_i e; simp_all
    · rfl

/-- **C72, finding.** Nor does it check the quaternion: four numbers that are far from a unit quaternion are published and
refused everywhere. -/
theorem C72_norm_finding (prog x y z qx qy qz qw frame child : Name) (h : frame ≠ child)
    (hq : 10e-3 ≤ |atof qw * atof qw + atof qx * atof qx + atof qy * atof qy + atof qz * atof qz - 1|) :
    ∃ m, (staticMain atof params now [prog, x, y, z, qx, qy, qz, qw, frame, child]).Publishes m ∧
      ∀ (b : Buf Pose) auth, b.setTransform m auth true = (b, .invalid) := by
  refine ⟨_, C72_quaternion prog x y z qx qy qz qw frame child h, fun b auth => Buf.setTransform_invalid ?_⟩
  rw [← Bool.not_eq_true, msgValid_iff]
  rintro ⟨-, -, -, -, h5⟩
  have h5 : Pose.normOK _ = true := h5
  simp only [Pose.normOK, decide_eq_true_eq] at h5
  exact absurd h5 (not_lt.2 hq)

/-- **C72, finding.** A parameter that passes the program's validation ends it with an exception if one of its numbers was
written without a decimal point. -/
theorem C72_integer_finding (prog name frame child : Name) (n : Int) (y z qx qy qz qw : Xml)
    (hp : params name = some (paramOf frame child (.int n) y z qx qy qz qw)) :
    validateXmlRpcTf (paramOf frame child (.int n) y z qx qy qz qw) = true ∧
    staticMain atof params now [prog, name] = .crashed := by
  refine ⟨rfl, ?_⟩
  unfold staticMain
  dsimp only
  rw [hp]
  have hv : validateXmlRpcTf (paramOf frame child (.int n) y z qx qy qz qw) = true := rfl
  have hm : msgOfParam (paramOf frame child (.int n) y z qx qy qz qw) now = none := rfl
  dsimp only
  rw [if_pos hv, hm]

end Tf2.Geo
