import Verif.Props.Buffer
import Verif.Proofs.Pose
import Verif.Props.Cache
import Verif.Props.Lookup
import Verif.Props.Listing
import Verif.Props.Geometry

/-!
# Properties of buffers holding real quaternions and translations: C05, C06, C27, C50,
and C15, C16, C17, C26 for them
-/
namespace Tf2

/-! ## C05 -/

/-- **C05.** A query at the stamp of a stored sample returns exactly that sample: parent, child, stamp,
rotation and translation, whatever its neighbours and whatever its quaternion (no unit requirement). -/
theorem C05_exact_stamp {D : Duration} {st : List (Sample Pose)} (h : ReachableCache D st)
    {s : Sample Pose} (hs : s ∈ st) (h0 : s.stamp ≠ 0) : dynGetData st s.stamp = .ok s := by
  rcases C04_on_stamp h hs h0 with e | ⟨n, _, _, e⟩
  · exact e
  · rw [e, Pose.interp_zero]

/-- Two samples with opposite quaternions and different translations (the antipodal case of slerp). -/
example : ReachableCache 100
    [(⟨20, 1, 2, ⟨⟨0, 0, 0, -1⟩, ⟨4, 5, 6⟩⟩⟩ : Sample Pose), ⟨10, 1, 2, ⟨⟨0, 0, 0, 1⟩, ⟨1, 2, 3⟩⟩⟩] :=
  ⟨[.insert ⟨10, 1, 2, ⟨⟨0, 0, 0, 1⟩, ⟨1, 2, 3⟩⟩⟩, .insert ⟨20, 1, 2, ⟨⟨0, 0, 0, -1⟩, ⟨4, 5, 6⟩⟩⟩], by rfl⟩

/-! ## C10 -/

/-- **C10, over real transforms.** What `setTransform` refuses as malformed, spelled out: equal or empty frame names
(one leading slash ignored), or a quaternion whose squared length is off 1 by 0.01 or more. -/
theorem C10_pose {D : Duration} {b : Buf Pose} (hr : Reachable D b) (m : Msg Pose) (auth : Name) (isStatic : Bool) :
    (b.setTransform m auth isStatic).2 = .invalid ↔
      stripSlash m.child = stripSlash m.parent ∨ stripSlash m.child = [] ∨ stripSlash m.parent = [] ∨
      1 / 100 ≤ |m.xf.rot.x ^ 2 + m.xf.rot.y ^ 2 + m.xf.rot.z ^ 2 + m.xf.rot.w ^ 2 - 1| := by
  have h := C10_malformed hr m auth isStatic
  have hq : m.xf.rot.w * m.xf.rot.w + m.xf.rot.x * m.xf.rot.x + m.xf.rot.y * m.xf.rot.y + m.xf.rot.z * m.xf.rot.z - 1 =
      m.xf.rot.x ^ 2 + m.xf.rot.y ^ 2 + m.xf.rot.z ^ 2 + m.xf.rot.w ^ 2 - 1 := by ring
  have hv : ¬ ValidMsg m ↔ stripSlash m.child = stripSlash m.parent ∨ stripSlash m.child = [] ∨ stripSlash m.parent = [] ∨
      1 / 100 ≤ |m.xf.rot.x ^ 2 + m.xf.rot.y ^ 2 + m.xf.rot.z ^ 2 + m.xf.rot.w ^ 2 - 1| := by
    unfold ValidMsg
    have e1 : (Rigid.hasNaN m.xf = false) := rfl
    have e2 : (Rigid.normOK m.xf = true) ↔
        |m.xf.rot.x ^ 2 + m.xf.rot.y ^ 2 + m.xf.rot.z ^ 2 + m.xf.rot.w ^ 2 - 1| < 1 / 100 := by
      show Pose.normOK m.xf = true ↔ _
      unfold Pose.normOK
      rw [decide_eq_true_iff, hq]
      norm_num
    rw [e2, ← not_lt]
    tauto
  rw [← hv]
  constructor
  · intro hi hval
    rcases h.2 hval with h | h | h | h <;> rw [h] at hi <;> cases hi
  · intro hi; rw [h.1 hi]

/-! ## C06 -/

theorem ofAxisAngle_toH {n : Vec3 ℝ} (hn : n.length2 = 1) (θ : ℝ) :
    (Quat.ofAxisAngle n θ).toH = axisTurn n.toV θ := by
  have e : θ * (1 / 2) = θ / 2 := by ring
  unfold Quat.ofAxisAngle axisTurn Vec3.length
  simp only [hn, Real.sqrt_one, div_one, e, Quat.toH, Vec3.toV]
  ext <;> simp <;> ring

/-- **C06.** Strictly between two adjacent samples with the same parent: the translation is the
affine combination with ratio `r = (t - t₁)/(t₂ - t₁)`, which lies in (0,1); the rotation is a unit
quaternion, obtained from the older one by a turn of `r θ` about a fixed axis, where a turn of `θ`
about the same axis leads to the newer rotation (to one of its two quaternions), and `θ ≤ π`: the
shorter arc, at constant rate. -/
theorem C06_interpolation {D : Duration} {st : List (Sample Pose)} (h : ReachableCache D st)
    {o n : Sample Pose} (hadj : Adjacent st o n) {t : Time} (ho : o.stamp < t) (hn : t < n.stamp)
    (hp : o.parent = n.parent) (uo : o.xf.rot.Unit) (un : n.xf.rot.Unit) :
    ∃ s r, dynGetData st t = .ok s ∧ s.parent = o.parent ∧ s.child = o.child ∧ s.stamp = t ∧
      r = ((t : ℝ) - (o.stamp : ℝ)) / ((n.stamp : ℝ) - (o.stamp : ℝ)) ∧ 0 < r ∧ r < 1 ∧
      s.xf.trans.toV = (1 - r) • o.xf.trans.toV + r • n.xf.trans.toV ∧
      s.xf.rot.Unit ∧
      ∃ (axis : Fin 3 → ℝ) (θ : ℝ), axis ⬝ᵥ axis = 1 ∧ 0 ≤ θ ∧ θ ≤ Real.pi ∧
        (n.xf.rot.toH = o.xf.rot.toH * axisTurn axis θ ∨
         -n.xf.rot.toH = o.xf.rot.toH * axisTurn axis θ) ∧
        s.xf.rot.toH = o.xf.rot.toH * axisTurn axis (r * θ) := by
  have hget := C04_between h hadj ho hn
  rw [if_pos hp] at hget
  obtain ⟨ax, hax, hsl, hside⟩ := Quat.slerp_axis uo un
  have ho' : (o.stamp : ℝ) < t := by exact_mod_cast ho
  have hn' : (t : ℝ) < n.stamp := by exact_mod_cast hn
  have hr : (((t : Int) - (o.stamp : Int) : Int) : ℝ) / (((n.stamp : Int) - (o.stamp : Int) : Int) : ℝ) =
      ((t : ℝ) - (o.stamp : ℝ)) / ((n.stamp : ℝ) - (o.stamp : ℝ)) := by push_cast; rfl
  refine ⟨_, ((t : ℝ) - (o.stamp : ℝ)) / ((n.stamp : ℝ) - (o.stamp : ℝ)), hget, rfl, rfl, rfl, rfl, ?_, ?_, ?_, ?_,
    ax.toV, o.xf.rot.angleShortestPath n.xf.rot, ?_, ?_, ?_, ?_, ?_⟩
  · exact div_pos (by linarith) (by linarith)
  · rw [div_lt_one (by linarith)]; linarith
  · show (Pose.interp o.xf n.xf _ _).trans.toV = _
    simp only [Pose.interp, hr]
    generalize ((t : ℝ) - (o.stamp : ℝ)) / ((n.stamp : ℝ) - (o.stamp : ℝ)) = r
    ext i; fin_cases i <;> simp [Vec3.interpolate3, Vec3.toV]
  · exact Quat.slerp_unit uo un _
  · rw [← Vec3.dot_eq]; exact hax
  · rw [Quat.angle_eq uo un]; have := Real.arccos_nonneg |o.xf.rot.dot n.xf.rot|; linarith
  · rw [Quat.angle_eq uo un]
    have := Real.arccos_le_pi_div_two.2 (abs_nonneg (o.xf.rot.dot n.xf.rot))
    linarith
  · rw [← ofAxisAngle_toH hax, ← Quat.toH_mul, ← hside]
    rcases Quat.side_eq o.xf.rot n.xf.rot with e | e <;> rw [e]
    · exact Or.inl rfl
    · exact Or.inr (Quat.toH_neg _).symm
  · show (Pose.interp o.xf n.xf _ _).rot.toH = _
    simp only [Pose.interp, hr]
    rw [hsl, Quat.toH_mul, ofAxisAngle_toH hax]

/-- A half turn about z within 10 ns, queried after 4 ns. -/
example : ∃ (st : List (Sample Pose)) (o n : Sample Pose), ReachableCache 100 st ∧ Adjacent st o n ∧
    o.stamp < 14 ∧ 14 < n.stamp ∧ o.parent = n.parent ∧ o.xf.rot.Unit ∧ n.xf.rot.Unit ∧
    o.xf.rot ≠ n.xf.rot := by
  refine ⟨[⟨20, 1, 2, ⟨⟨0, 0, 1, 0⟩, ⟨4, 5, 6⟩⟩⟩, ⟨10, 1, 2, ⟨⟨0, 0, 0, 1⟩, ⟨1, 2, 3⟩⟩⟩],
    ⟨10, 1, 2, ⟨⟨0, 0, 0, 1⟩, ⟨1, 2, 3⟩⟩⟩, ⟨20, 1, 2, ⟨⟨0, 0, 1, 0⟩, ⟨4, 5, 6⟩⟩⟩,
    ⟨[.insert ⟨10, 1, 2, ⟨⟨0, 0, 0, 1⟩, ⟨1, 2, 3⟩⟩⟩, .insert ⟨20, 1, 2, ⟨⟨0, 0, 1, 0⟩, ⟨4, 5, 6⟩⟩⟩], rfl⟩,
    ⟨by simp, by simp, by decide, ?_⟩, by decide, by decide, rfl, ?_, ?_, ?_⟩
  · intro s hs
    simp only [List.mem_cons, List.not_mem_nil, or_false] at hs
    rcases hs with rfl | rfl
    · exact Or.inr (Nat.le_refl _)
    · exact Or.inl (Nat.le_refl _)
  · unfold Quat.Unit; norm_num
  · unfold Quat.Unit; norm_num
  · intro h; have := congrArg Quat.w h; norm_num at this

theorem Vec3.toH_add (a b : Vec3 ℝ) : (a.add b).toH = a.toH + b.toH := by
  apply Quaternion.ext <;> first | exact (add_zero (0 : ℝ)).symm | rfl

/-! ## C15, C16, C17, C26 for real transforms -/

/-- **C16 for quaternions and translations.** -/
theorem C16_inverse_pose {D : Duration} {ops : List (Op Pose)}
    (hU : AllOffered (fun p : Pose => p.rot.Unit) ops) {b : Buf Pose} (hb : b = (Buf.init D).run ops)
    {f1 f2 : Name} {t : Time} (ht : t ≠ 0) {i r l : Nat} (hi : IsFrame b f2 i) (he : EndsAt b t i r l)
    {m1 m2 : Msg Pose} (h1 : b.lookupTransform f1 f2 t = .ok m1) (h2 : b.lookupTransform f2 f1 t = .ok m2) :
    m1.xf.comp m2.xf = ⟨⟨0, 0, 0, 1⟩, ⟨0, 0, 0⟩⟩ ∧ m2.xf.comp m1.xf = ⟨⟨0, 0, 0, 1⟩, ⟨0, 0, 0⟩⟩ :=
  C16_inverse pose_laws hU hb ht hi he h1 h2

/-- **C17 for quaternions and translations.** -/
theorem C17_compose_pose {D : Duration} {ops : List (Op Pose)}
    (hU : AllOffered (fun p : Pose => p.rot.Unit) ops) {b : Buf Pose} (hb : b = (Buf.init D).run ops)
    {fa fb fc : Name} {t : Time} (ht : t ≠ 0) {i j k ra rb rc : Nat} (hi : IsFrame b fa i)
    (hj : IsFrame b fb j) (hk : IsFrame b fc k) (la : LegalName fa) (lb : LegalName fb)
    (lc : LegalName fc) (ri : Rooted b t i ra) (rj : Rooted b t j rb) (rk : Rooted b t k rc)
    {m1 m2 : Msg Pose} (h1 : b.lookupTransform fa fb t = .ok m1) (h2 : b.lookupTransform fb fc t = .ok m2) :
    ∃ m3, b.lookupTransform fa fc t = .ok m3 ∧
      m3.xf.rot.toH = m1.xf.rot.toH * m2.xf.rot.toH ∧
      m3.xf.trans.toH = m1.xf.rot.toH * m2.xf.trans.toH * star m1.xf.rot.toH + m1.xf.trans.toH := by
  obtain ⟨m3, h3, e⟩ := C17_compose pose_laws hU hb ht hi hj hk la lb lc ri rj rk h1 h2
  refine ⟨m3, h3, ?_, ?_⟩
  · rw [e, ← Quat.toH_mul]; rfl
  · rw [e, ← Quat.toH_rotate]
    exact Vec3.toH_add _ _

/-- **C26 for quaternions and translations.** -/
theorem C26_read_your_write_pose {D : Duration} (hD : 0 ≤ D) {ops : List (Op Pose)}
    (hU : AllOffered (fun p : Pose => p.rot.Unit) ops) {b b' : Buf Pose} (hb : b = (Buf.init D).run ops)
    (m : Msg Pose) (hm : m.xf.rot.Unit) (auth : Name) (isStatic : Bool)
    (h0 : m.stamp ≠ 0) (lc : LegalName (stripSlash m.child)) (lp : LegalName (stripSlash m.parent))
    (nc : stripSlash m.child ≠ noParentName) (np : stripSlash m.parent ≠ noParentName)
    (hset : b.setTransform m auth isStatic = (b', .accepted)) :
    b'.lookupTransform (stripSlash m.parent) (stripSlash m.child) m.stamp =
      .ok { parent := stripSlash m.parent, child := stripSlash m.child, stamp := m.stamp, xf := m.xf } :=
  C26_read_your_write pose_laws (fun _ _ _ => Pose.interp_zero _ _ _) hD hU hb m hm auth isStatic h0 lc lp nc np
    hset

/-! ## C27 -/

theorem Pose.toXform_comp {a b : Pose} (ha : a.rot.Unit) (hb : b.rot.Unit) :
    (a.comp b).toXform = a.toXform.mul b.toXform := by
  ext1
  · show Mat3.ofQuat (a.rot.mul b.rot) = (Mat3.ofQuat a.rot).mul (Mat3.ofQuat b.rot)
    exact Mat3.ofQuat_mul a.rot b.rot ha.ne hb.ne
  · show (a.rot.rotate b.trans).add a.trans = ((Mat3.ofQuat a.rot).mulVec b.trans).add a.trans
    rw [Mat3.ofQuat_mulVec_unit a.rot ha]

theorem Pose.mulMsg_eq {a b : Pose} (ha : a.rot.Unit) (hb : b.rot.Unit) :
    (Pose.mulMsg a b).trans = (a.comp b).trans ∧
    ((Pose.mulMsg a b).rot = (a.comp b).rot ∨ (Pose.mulMsg a b).rot = (a.comp b).rot.neg) := by
  unfold Pose.mulMsg
  rw [← Pose.toXform_comp ha hb]
  exact ⟨rfl, Mat3.getRotation_ofQuat (ha.mul hb)⟩

/-- **C27.** Over unit-quaternion data, a successful fixed-frame lookup consists of two successful
lookups - target from fixed at the target time, fixed from source at the source time - and returns
their product: the affine map is the composition, the quaternion is the product up to sign, and the
stamp is that of the target half. Times may be zero. -/
theorem C27_fixed_frame {D : Duration} {ops : List (Op Pose)}
    (hU : AllOffered (fun p : Pose => p.rot.Unit) ops) {b : Buf Pose} (hb : b = (Buf.init D).run ops)
    {target source fixed : Name} {tt st : Time} {m : Msg Pose}
    (h : b.lookupTransform5 target tt source st fixed = .ok m) :
    ∃ m1 m2, b.lookupTransform target fixed tt = .ok m1 ∧ b.lookupTransform fixed source st = .ok m2 ∧
      m.parent = target ∧ m.child = source ∧ m.stamp = m1.stamp ∧
      m.xf.rot.Unit ∧
      (∀ v, m.xf.toXform.act v = m1.xf.toXform.act (m2.xf.toXform.act v)) ∧
      (m.xf.rot.toH = m1.xf.rot.toH * m2.xf.rot.toH ∨ m.xf.rot.toH = -(m1.xf.rot.toH * m2.xf.rot.toH)) := by
  unfold Buf.lookupTransform5 at h
  cases h1 : b.validateFrameId target with
  | ub => rw [h1] at h; cases h
  | throw e => rw [h1] at h; cases h
  | ok _ =>
    rw [h1] at h
    cases h2 : b.validateFrameId source with
    | ub => rw [h2] at h; cases h
    | throw e => rw [h2] at h; cases h
    | ok _ =>
      rw [h2] at h
      cases h3 : b.validateFrameId fixed with
      | ub => rw [h3] at h; cases h
      | throw e => rw [h3] at h; cases h
      | ok _ =>
        rw [h3] at h
        cases h4 : b.lookupTransform fixed source st with
        | ub => rw [h4] at h; cases h
        | throw e => rw [h4] at h; cases h
        | ok m2 =>
          rw [h4] at h
          cases h5 : b.lookupTransform target fixed tt with
          | ub => rw [h5] at h; cases h
          | throw e => rw [h5] at h; cases h
          | ok m1 =>
            rw [h5] at h
            simp only [Res.ok.injEq] at h
            subst h
            have u1 : m1.xf.rot.Unit := lookup_inU pose_laws hU hb h5
            have u2 : m2.xf.rot.Unit := lookup_inU pose_laws hU hb h4
            obtain ⟨e1, e2⟩ := Pose.mulMsg_eq u1 u2
            have hx : (Pose.mulMsg m1.xf m2.xf).toXform = m1.xf.toXform.mul m2.xf.toXform := by
              rw [← Pose.toXform_comp u1 u2]
              ext1
              · show Mat3.ofQuat (Pose.mulMsg m1.xf m2.xf).rot = Mat3.ofQuat (m1.xf.comp m2.xf).rot
                rcases e2 with e | e <;> rw [e]
                rw [Mat3.ofQuat_neg]
              · exact e1
            refine ⟨m1, m2, rfl, rfl, rfl, rfl, rfl, ?_, ?_, ?_⟩
            · rcases e2 with e | e
              · show (Pose.mulMsg m1.xf m2.xf).rot.Unit
                rw [e]; exact u1.mul u2
              · show (Pose.mulMsg m1.xf m2.xf).rot.Unit
                rw [e]; exact (u1.mul u2).neg
            · intro v
              show (Pose.mulMsg m1.xf m2.xf).toXform.act v = _
              rw [hx]
              exact (C29_group _ _ Xform.identity).2.2.2.1 v
            · rw [← Quat.toH_mul, ← Quat.toH_neg]
              rcases e2 with e | e
              · exact Or.inl (congrArg Quat.toH e)
              · exact Or.inr (congrArg Quat.toH e)

/-- Two quarter-turn edges and translations: the hypotheses of `C16_inverse_pose`, `C17_compose_pose`
and `C27_fixed_frame` are met, with different results for the two halves. -/
example : let x : Pose := ⟨⟨0, 0, 3/5, 4/5⟩, ⟨1, 2, 3⟩⟩
    let y : Pose := ⟨⟨4/5, 0, 0, 3/5⟩, ⟨0, 1, 0⟩⟩
    (∃ ops, AllOffered (fun p : Pose => p.rot.Unit) ops ∧ twoEdges x y = (Buf.init 10).run ops) ∧
    (∃ m, (twoEdges x y).lookupTransform ['a'] ['b'] 1 = .ok m) ∧
    (∃ m, (twoEdges x y).lookupTransform ['b'] ['c'] 1 = .ok m) ∧
    (∃ m, (twoEdges x y).lookupTransform5 ['a'] 1 ['c'] 1 ['b'] = .ok m) := by
  intro x y
  have hx : Rigid.normOK x = true := by
    show Pose.normOK x = true
    simp only [Pose.normOK, x, decide_eq_true_eq]; norm_num
  have hy : Rigid.normOK y = true := by
    show Pose.normOK y = true
    simp only [Pose.normOK, y, decide_eq_true_eq]; norm_num
  obtain ⟨_, h2, h3, h4⟩ := twoEdges_lookups (x := x) (y := y) rfl hx rfl hy
  refine ⟨⟨_, ?_, rfl⟩, ⟨_, h2⟩, ⟨_, h3⟩, ⟨_, h4⟩⟩
  intro m a s hm
  simp only [List.mem_cons, Op.set.injEq, List.not_mem_nil, or_false] at hm
  rcases hm with ⟨rfl, _, _⟩ | ⟨rfl, _, _⟩
  · show x.rot.Unit; unfold Quat.Unit; simp only [x]; norm_num
  · show y.rot.Unit; unfold Quat.Unit; simp only [y]; norm_num

/-! ## C50 -/

/-- **C50 (finding).** `setTransform` accepts every transform with `| |q|² - 1 | < 0.01`. After it has
accepted one, both lookups between its frames succeed and their product is the quaternion `|q|²`
(not 1) and the translation `(1 - |q|⁴) v`: it is the identity only if the quaternion was exactly
unit. -/
theorem C50_finding (p : Pose) (hacc : Pose.normOK p = true) :
    ((Buf.init 10).setTransform (edgeMsg 'a' 'b' 1 p) [] true).2 = .accepted ∧
    ∃ m1 m2, (oneEdge p).lookupTransform ['a'] ['b'] 1 = .ok m1 ∧
      (oneEdge p).lookupTransform ['b'] ['a'] 1 = .ok m2 ∧
      (m1.xf.comp m2.xf).rot = ⟨0, 0, 0, p.rot.x ^ 2 + p.rot.y ^ 2 + p.rot.z ^ 2 + p.rot.w ^ 2⟩ ∧
      (m1.xf.comp m2.xf).trans.toV =
        (1 - (p.rot.x ^ 2 + p.rot.y ^ 2 + p.rot.z ^ 2 + p.rot.w ^ 2) ^ 2) • p.trans.toV ∧
      (m1.xf.comp m2.xf = ⟨⟨0, 0, 0, 1⟩, ⟨0, 0, 0⟩⟩ ↔ p.rot.Unit) := by
  obtain ⟨h1, h2, h3⟩ := oneEdge_lookups (x := p) rfl hacc
  have e1 : (Rigid.comp p Rigid.one : Pose) = p := Pose.comp_one p
  have e2 : (Rigid.comp (Rigid.inv p) Rigid.one : Pose) = Rigid.inv p := Pose.comp_one _
  have e3 : (Rigid.comp (Rigid.inv Rigid.one) p : Pose) = p := by
    have : (Rigid.inv Rigid.one : Pose) = Pose.one := by
      show Pose.inv Pose.one = Pose.one
      simp only [Pose.inv, Pose.one, Quat.inverse, Quat.identity, Vec3.neg, Vec3.zero, Quat.rotate, Quat.mul,
        Quat.mulVec]
      ext <;> simp
    rw [this]; exact Pose.one_comp p
  rw [e1] at h2 h3
  rw [e3] at h2
  rw [e2] at h3
  have hrot : (p.comp p.inv).rot = ⟨0, 0, 0, p.rot.x ^ 2 + p.rot.y ^ 2 + p.rot.z ^ 2 + p.rot.w ^ 2⟩ := by
    simp only [Pose.comp, Pose.inv, Quat.mul, Quat.inverse]
    ext <;> ring
  have htr : (p.comp p.inv).trans.toV =
      (1 - (p.rot.x ^ 2 + p.rot.y ^ 2 + p.rot.z ^ 2 + p.rot.w ^ 2) ^ 2) • p.trans.toV := by
    ext i
    fin_cases i <;> simp [Pose.comp, Pose.inv, Quat.rotate, Quat.mul, Quat.mulVec, Quat.inverse, Vec3.toV,
      Vec3.add, Vec3.neg] <;> ring
  refine ⟨h1, _, _, h2, h3, hrot, htr, ?_, ?_⟩
  · intro h
    have := congrArg (fun q : Pose => q.rot.w) h
    simp only [edgeMsg] at this
    have e : (p.comp (Rigid.inv p)).rot.w = _ := congrArg Quat.w hrot
    rw [e] at this
    exact this
  · intro h
    exact Pose.comp_inv h

/-- An accepted transform whose two lookups do not compose to the identity. -/
example : Pose.normOK ⟨⟨0, 0, 0, 1.004⟩, ⟨1, 0, 0⟩⟩ = true ∧
    ¬ (⟨⟨0, 0, 0, 1.004⟩, ⟨1, 0, 0⟩⟩ : Pose).rot.Unit := by
  constructor
  · simp only [Pose.normOK, decide_eq_true_eq]; norm_num [abs_lt]
  · unfold Quat.Unit; norm_num

end Tf2
