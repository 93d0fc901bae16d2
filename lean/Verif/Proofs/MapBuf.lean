import Verif.Model.BufferCore

/-!
# A buffer of pairs is a pair of buffers

A function between two types of transforms that respects the operations of a lookup commutes with lookups; storing does
not depend on the transforms at all, apart from the checks.
-/
namespace Tf2

variable {X Y : Type}

def Sample.mapX (f : X → Y) (s : Sample X) : Sample Y := ⟨s.stamp, s.parent, s.child, f s.xf⟩

def Cache.mapX (f : X → Y) : Cache X → Cache Y
  | .dyn D st => .dyn D (st.map (Sample.mapX f))
  | .stat o => .stat (o.map (Sample.mapX f))

def Msg.mapX (f : X → Y) (m : Msg X) : Msg Y := { parent := m.parent, child := m.child, stamp := m.stamp, xf := f m.xf }

def Buf.mapX (f : X → Y) (b : Buf X) : Buf Y :=
  { cacheTime := b.cacheTime, frames := b.frames.map (Option.map (Cache.mapX f)), frameIDs := b.frameIDs
    frameIDsReverse := b.frameIDsReverse, authority := b.authority }

def Op.mapX (f : X → Y) : Op X → Op Y
  | .set m a s => .set (m.mapX f) a s
  | .clear => .clear

def Res.mapX {α β : Type} (g : α → β) : Res α → Res β
  | .ok a => .ok (g a)
  | .throw e => .throw e
  | .ub => .ub

variable {f : X → Y}

/-! ### Caches -/

theorem findClosest_mapX (st : List (Sample X)) (t : Time) :
    findClosest (st.map (Sample.mapX f)) t = match findClosest st t with
      | .zero => .zero
      | .one a => .one (a.mapX f)
      | .two a b => .two (a.mapX f) (b.mapX f)
      | .ub => .ub := by
  have tw : ∀ l : List (Sample X), ((l.map (Sample.mapX f)).takeWhile (fun s => decide (t < s.stamp))).length =
      (l.takeWhile (fun s => decide (t < s.stamp))).length := by
    intro l
    induction l with
    | nil => rfl
    | cons a r ih =>
      simp only [List.map_cons, List.takeWhile_cons, Sample.mapX]
      split
      · simp [ih]
      · rfl
  have lb : ∀ l : List (Sample X), lowerBound (l.map (Sample.mapX f)) t = lowerBound l t := by
    intro l
    unfold lowerBound
    simp only [tw, ← List.map_drop, List.all_map]
    rfl
  cases st with
  | nil => rfl
  | cons front rest =>
    cases rest with
    | nil =>
      simp only [findClosest, List.map_cons, List.map_nil, Sample.mapX]
      split
      · rfl
      · split <;> rfl
    | cons second rest' =>
      have gl : ((second :: rest').map (Sample.mapX f)).getLast (by simp) = ((second :: rest').getLast (by simp)).mapX f := by
        rw [List.getLast_map]
      have lb' := lb (front :: second :: rest')
      simp only [List.map_cons] at gl lb'
      simp only [findClosest, List.map_cons, gl, lb']
      have e0 : (front.mapX f).stamp = front.stamp := rfl
      have e1 : (((second :: rest').getLast (by simp)).mapX f).stamp = ((second :: rest').getLast (by simp)).stamp := rfl
      simp only [e0, e1]
      by_cases h0 : t = 0
      · simp [h0]
      simp only [h0, if_false]
      by_cases h1 : t = front.stamp
      · simp [h1]
      simp only [h1, if_false]
      by_cases h2 : t = ((second :: rest').getLast (by simp)).stamp
      · rw [if_pos h2, if_pos h2]
      rw [if_neg h2, if_neg h2]
      by_cases h3 : front.stamp < t
      · simp [h3]
      simp only [h3, if_false]
      by_cases h4 : t < ((second :: rest').getLast (by simp)).stamp
      · rw [if_pos h4, if_pos h4]
      rw [if_neg h4, if_neg h4]
      cases lowerBound (front :: second :: rest') t with
      | none => rfl
      | some i =>
        have em : ∀ j : Nat, (front.mapX f :: second.mapX f :: rest'.map (Sample.mapX f))[j]? = ((front :: second :: rest')[j]?).map (Sample.mapX f) := by
          intro j; rw [← List.getElem?_map]; rfl
        simp only [em]
        cases (front :: second :: rest')[i]? with
        | none => cases i <;> rfl
        | some o =>
          cases i with
          | zero => rfl
          | succ j =>
            simp only [Option.map_some]
            cases (front :: second :: rest')[j]? <;> rfl

/-- The function respects the operations of a lookup. -/
structure RigidHom (f : X → Y) [RX : Rigid X] [RY : Rigid Y] : Prop where
  one : f Rigid.one = Rigid.one
  comp : ∀ a b, f (Rigid.comp a b) = Rigid.comp (f a) (f b)
  inv : ∀ a, f (Rigid.inv a) = Rigid.inv (f a)
  interp : ∀ a b n d, f (Rigid.interp a b n d) = Rigid.interp (f a) (f b) n d
  mulMsg : ∀ a b, f (Rigid.mulMsg a b) = Rigid.mulMsg (f a) (f b)

def GetRes.mapX (f : X → Y) : GetRes X → GetRes Y
  | .fail => .fail
  | .ok s => .ok (s.mapX f)
  | .ub => .ub

section lookup
variable [Rigid X] [Rigid Y]

theorem getData_mapX (h : RigidHom f) (c : Cache X) (t : Time) : (c.mapX f).getData t = (c.getData t).mapX f := by
  cases c with
  | dyn D st =>
    show dynGetData (st.map (Sample.mapX f)) t = (dynGetData st t).mapX f
    unfold dynGetData
    rw [findClosest_mapX]
    cases findClosest st t with
    | zero => rfl
    | one a => rfl
    | ub => rfl
    | two a b =>
      show (if a.parent = b.parent then GetRes.ok (interpolate (a.mapX f) (b.mapX f) t) else .ok (a.mapX f)) =
        GetRes.mapX f (if a.parent = b.parent then .ok (interpolate a b t) else .ok a)
      by_cases hp : a.parent = b.parent
      · rw [if_pos hp, if_pos hp]
        have e : interpolate (a.mapX f) (b.mapX f) t = (interpolate a b t).mapX f := by
          unfold interpolate
          show (if b.stamp = a.stamp then b.mapX f else _) = Sample.mapX f (if b.stamp = a.stamp then b else _)
          by_cases hs : b.stamp = a.stamp
          · rw [if_pos hs, if_pos hs]
          · rw [if_neg hs, if_neg hs]
            simp only [Sample.mapX, h.interp]
        rw [e]
        rfl
      · rw [if_neg hp, if_neg hp]; rfl
  | stat o => cases o <;> rfl

omit [Rigid X] [Rigid Y] in
theorem latest_mapX (c : Cache X) : (c.mapX f).latestTimeAndParent = c.latestTimeAndParent := by
  cases c with
  | dyn D st => cases st <;> rfl
  | stat o => cases o <;> rfl

omit [Rigid X] [Rigid Y] in
theorem latestStamp_mapX (c : Cache X) : (c.mapX f).latestStamp = c.latestStamp := by
  cases c with
  | dyn D st => cases st <;> rfl
  | stat o => cases o <;> rfl

omit [Rigid X] [Rigid Y] in
theorem Buf.getFrame_mapX (b : Buf X) (i : Nat) : (b.mapX f).getFrame i = (b.getFrame i).map (Cache.mapX f) := by
  simp only [Buf.getFrame, Buf.mapX, List.getElem?_map]
  cases b.frames[i]? with
  | none => rfl
  | some o => rfl

/-! ### Walks -/

def TAcc.mapX (f : X → Y) (a : TAcc X) : TAcc Y :=
  { st := a.st.map (Sample.mapX f), time := a.time, sourceToTop := f a.sourceToTop, targetToTop := f a.targetToTop, result := f a.result }

theorem gather_mapX (h : RigidHom f) (c : Cache X) (t : Time) (a : TAcc X) :
    transformAccum.gather (c.mapX f) t (a.mapX f) = ((transformAccum.gather c t a).1, (transformAccum.gather c t a).2.mapX f) := by
  simp only [transformAccum, getData_mapX h]
  cases c.getData t <;> rfl

theorem accum_mapX (h : RigidHom f) (s : Bool) (a : TAcc X) :
    transformAccum.accum s (a.mapX f) = (transformAccum.accum s a).mapX f := by
  have e : (a.mapX f).edge = f a.edge := by
    unfold TAcc.edge TAcc.mapX
    cases a.st with
    | none => exact h.one.symm
    | some s => rfl
  cases s
  · show ({ a.mapX f with targetToTop := Rigid.comp (a.mapX f).edge (f a.targetToTop) } : TAcc Y) =
      TAcc.mapX f { a with targetToTop := Rigid.comp a.edge a.targetToTop }
    rw [e, ← h.comp]; rfl
  · show ({ a.mapX f with sourceToTop := Rigid.comp (a.mapX f).edge (f a.sourceToTop) } : TAcc Y) =
      TAcc.mapX f { a with sourceToTop := Rigid.comp a.edge a.sourceToTop }
    rw [e, ← h.comp]; rfl

theorem finalize_mapX (h : RigidHom f) (w : WalkEnding) (t : Time) (a : TAcc X) :
    transformAccum.finalize w t (a.mapX f) = (transformAccum.finalize w t a).mapX f := by
  cases w <;> simp [transformAccum, TAcc.mapX, h.comp, h.inv]

def Loop1.mapA {A B : Type} (g : A → B) : Loop1 A → Loop1 B
  | .exit t e a c => .exit t e (g a) c
  | .early a c => .early (g a) c
  | .tooDeep => .tooDeep
  | .ub => .ub

def Loop2.mapA {A B : Type} (g : A → B) : Loop2 A → Loop2 B
  | .exit t a c => .exit t (g a) c
  | .extrap => .extrap
  | .early a c => .early (g a) c
  | .tooDeep => .tooDeep
  | .ub => .ub

theorem walkSource_mapX (h : RigidHom f) (b : Buf X) (t : Time) (target : Nat) : ∀ (k frame : Nat) (a : TAcc X) (ch : List Nat),
    (b.mapX f).walkSource transformAccum t target k frame (a.mapX f) ch =
      (b.walkSource transformAccum t target k frame a ch).mapA (TAcc.mapX f) := by
  intro k
  induction k with
  | zero =>
    intro frame a ch
    unfold Buf.walkSource
    by_cases h0 : frame = 0
    · simp only [h0, if_true]; rfl
    simp only [h0, if_false, Buf.getFrame_mapX]
    cases b.getFrame frame with
    | none => rfl
    | some c =>
      simp only [Option.map_some, gather_mapX h]
      generalize transformAccum.gather c t a = r
      obtain ⟨p, a'⟩ := r
      cases p with
      | ub => rfl
      | id p =>
        cases p with
        | zero => rfl
        | succ p =>
          simp only [finalize_mapX h]
          split <;> rfl
  | succ k ih =>
    intro frame a ch
    unfold Buf.walkSource
    by_cases h0 : frame = 0
    · simp only [h0, if_true]; rfl
    simp only [h0, if_false, Buf.getFrame_mapX]
    cases b.getFrame frame with
    | none => rfl
    | some c =>
      simp only [Option.map_some, gather_mapX h]
      generalize transformAccum.gather c t a = r
      obtain ⟨p, a'⟩ := r
      cases p with
      | ub => rfl
      | id p =>
        cases p with
        | zero => rfl
        | succ p =>
          simp only [finalize_mapX h, accum_mapX h, ih]
          split <;> rfl

theorem walkTarget_mapX (h : RigidHom f) (b : Buf X) (t : Time) (source top : Nat) : ∀ (k frame : Nat) (a : TAcc X) (ch : List Nat),
    (b.mapX f).walkTarget transformAccum t source top k frame (a.mapX f) ch =
      (b.walkTarget transformAccum t source top k frame a ch).mapA (TAcc.mapX f) := by
  intro k
  induction k with
  | zero =>
    intro frame a ch
    unfold Buf.walkTarget
    by_cases h0 : frame = top
    · simp only [h0, if_true]; rfl
    simp only [h0, if_false, Buf.getFrame_mapX]
    cases b.getFrame frame with
    | none => rfl
    | some c =>
      simp only [Option.map_some, gather_mapX h]
      generalize transformAccum.gather c t a = r
      obtain ⟨p, a'⟩ := r
      cases p with
      | ub => rfl
      | id p =>
        cases p with
        | zero => rfl
        | succ p =>
          simp only [finalize_mapX h]
          split <;> rfl
  | succ k ih =>
    intro frame a ch
    unfold Buf.walkTarget
    by_cases h0 : frame = top
    · simp only [h0, if_true]; rfl
    simp only [h0, if_false, Buf.getFrame_mapX]
    cases b.getFrame frame with
    | none => rfl
    | some c =>
      simp only [Option.map_some, gather_mapX h]
      generalize transformAccum.gather c t a = r
      obtain ⟨p, a'⟩ := r
      cases p with
      | ub => rfl
      | id p =>
        cases p with
        | zero => rfl
        | succ p =>
          simp only [finalize_mapX h, accum_mapX h, ih]
          split <;> rfl

omit [Rigid X] [Rigid Y] in
theorem lctSource_mapX (b : Buf X) (target : Nat) : ∀ (k frame : Nat) (common : Time) (l : List (Time × Nat)),
    (b.mapX f).lctSource target k frame common l = b.lctSource target k frame common l := by
  intro k
  induction k with
  | zero =>
    intro frame common l
    unfold Buf.lctSource
    simp only [Buf.getFrame_mapX]
    cases b.getFrame frame with
    | none => rfl
    | some c => simp only [Option.map_some, latest_mapX]
  | succ k ih =>
    intro frame common l
    unfold Buf.lctSource
    simp only [Buf.getFrame_mapX]
    cases b.getFrame frame with
    | none => rfl
    | some c => simp only [Option.map_some, latest_mapX, ih]

omit [Rigid X] [Rigid Y] in
theorem lctTarget_mapX (b : Buf X) (source : Nat) (l : List (Time × Nat)) : ∀ (k frame : Nat) (common : Time),
    (b.mapX f).lctTarget source l k frame common = b.lctTarget source l k frame common := by
  intro k
  induction k with
  | zero =>
    intro frame common
    unfold Buf.lctTarget
    simp only [Buf.getFrame_mapX]
    cases b.getFrame frame with
    | none => rfl
    | some c => simp only [Option.map_some, latest_mapX]
  | succ k ih =>
    intro frame common
    unfold Buf.lctTarget
    simp only [Buf.getFrame_mapX]
    cases b.getFrame frame with
    | none => rfl
    | some c => simp only [Option.map_some, latest_mapX, ih]

omit [Rigid X] [Rigid Y] in
theorem latestCommonTime_mapX (b : Buf X) (target source : Nat) :
    (b.mapX f).latestCommonTime target source = b.latestCommonTime target source := by
  unfold Buf.latestCommonTime
  simp only [lctSource_mapX, lctTarget_mapX, Buf.getFrame_mapX]
  cases b.getFrame source with
  | none => rfl
  | some c => simp only [Option.map_some, latestStamp_mapX]

def WalkRes.mapA {A B : Type} (g : A → B) : WalkRes A → WalkRes B
  | .done a c => .done (g a) c
  | .err c => .err c
  | .ub => .ub

theorem walkAt_mapX (h : RigidHom f) (b : Buf X) (a : TAcc X) (t : Time) (target source : Nat) :
    (b.mapX f).walkAt transformAccum (a.mapX f) t target source = (b.walkAt transformAccum a t target source).mapA (TAcc.mapX f) := by
  unfold Buf.walkAt
  rw [walkSource_mapX h]
  cases b.walkSource transformAccum t target maxGraphDepth source a [] with
  | ub => rfl
  | tooDeep => rfl
  | early => rfl
  | exit top ex a' ch =>
    simp only [Loop1.mapA, walkTarget_mapX h]
    cases b.walkTarget transformAccum t source top maxGraphDepth target a' [] with
    | ub => rfl
    | tooDeep => rfl
    | extrap => rfl
    | early => rfl
    | exit fr a'' rev =>
      simp only [Loop2.mapA, finalize_mapX h]
      split
      · split <;> rfl
      · split <;> rfl

theorem walk_mapX (h : RigidHom f) (b : Buf X) (a : TAcc X) (t : Time) (target source : Nat) :
    (b.mapX f).walk transformAccum (a.mapX f) t target source = (b.walk transformAccum a t target source).mapA (TAcc.mapX f) := by
  unfold Buf.walk
  simp only [latestCommonTime_mapX, walkAt_mapX h, finalize_mapX h]
  split
  · rfl
  · split
    · cases b.latestCommonTime target source <;> rfl
    · rfl

/-! ### Lookups -/

omit [Rigid X] [Rigid Y] in
theorem validate_mapX (b : Buf X) (n : Name) : (b.mapX f).validateFrameId n = b.validateFrameId n := rfl

theorem lookup_mapX (h : RigidHom f) (b : Buf X) (target source : Name) (t : Time) :
    (b.mapX f).lookupTransform target source t = (b.lookupTransform target source t).mapX (Msg.mapX f) := by
  unfold Buf.lookupTransform
  have ei : (TAcc.init : TAcc Y) = (TAcc.init : TAcc X).mapX f := by simp [TAcc.init, TAcc.mapX, h.one]
  simp only [Buf.getFrame_mapX, validate_mapX, ei, walk_mapX h]
  split
  · simp only [Res.mapX, Msg.mapX, h.one]
    have el : (b.mapX f).lookupFrameNumber target = b.lookupFrameNumber target := rfl
    rw [el]
    cases b.getFrame (b.lookupFrameNumber target) with
    | none => rfl
    | some c => simp only [Option.map_some, latestStamp_mapX]
  · cases b.validateFrameId target with
    | throw e => rfl
    | ub => rfl
    | ok tid =>
      dsimp only
      cases b.validateFrameId source with
      | throw e => rfl
      | ub => rfl
      | ok sid =>
        dsimp only
        cases b.walk transformAccum TAcc.init t tid sid <;> rfl

theorem lookup5_mapX (h : RigidHom f) (b : Buf X) (target : Name) (tt : Time) (source : Name) (st : Time) (fixed : Name) :
    (b.mapX f).lookupTransform5 target tt source st fixed = (b.lookupTransform5 target tt source st fixed).mapX (Msg.mapX f) := by
  unfold Buf.lookupTransform5
  simp only [validate_mapX, lookup_mapX h]
  cases b.validateFrameId target with
  | throw e => rfl
  | ub => rfl
  | ok _ =>
  dsimp only
  cases b.validateFrameId source with
  | throw e => rfl
  | ub => rfl
  | ok _ =>
  dsimp only
  cases b.validateFrameId fixed with
  | throw e => rfl
  | ub => rfl
  | ok _ =>
  dsimp only
  cases b.lookupTransform fixed source st with
  | throw e => rfl
  | ub => rfl
  | ok m1 =>
  simp only [Res.mapX]
  cases b.lookupTransform target fixed tt with
  | throw e => rfl
  | ub => rfl
  | ok m2 => simp [Msg.mapX, h.mulMsg]

end lookup

/-! ### Storing -/

theorem pruneRev_mapX (D : Duration) (latest : Time) (l : List (Sample X)) :
    pruneRev D latest (l.map (Sample.mapX f)) = ((pruneRev D latest l).1.map (Sample.mapX f), (pruneRev D latest l).2) := by
  induction l with
  | nil => rfl
  | cons a r ih =>
    simp only [List.map_cons, pruneRev, Sample.mapX]
    cases timeAdd a.stamp D with
    | none => rfl
    | some e =>
      dsimp only
      split
      · exact ih
      · rfl

theorem pruneList_mapX (D : Duration) (l : List (Sample X)) :
    pruneList D (l.map (Sample.mapX f)) = ((pruneList D l).1.map (Sample.mapX f), (pruneList D l).2) := by
  cases l with
  | nil => rfl
  | cons a r =>
    have e : pruneRev D a.stamp ((a :: r).map (Sample.mapX f)).reverse =
        ((pruneRev D a.stamp (a :: r).reverse).1.map (Sample.mapX f), (pruneRev D a.stamp (a :: r).reverse).2) := by
      rw [← List.map_reverse, pruneRev_mapX]
    show ((pruneRev D a.stamp ((a :: r).map (Sample.mapX f)).reverse).1.reverse, _) = _
    simp only [pruneList, e, List.map_reverse]
    rw [show (pruneRev D (a.mapX f).stamp (List.map (Sample.mapX f) (a :: r)).reverse) = _ from e]

theorem insertBody_mapX (D : Duration) (st : List (Sample X)) (s : Sample X) :
    insertBody D (st.map (Sample.mapX f)) (s.mapX f) = ((insertBody D st s).1.map (Sample.mapX f), (insertBody D st s).2) := by
  have tw : (st.map (Sample.mapX f)).takeWhile (fun e => decide (¬ e.stamp ≤ s.stamp)) =
      (st.takeWhile (fun e => decide (¬ e.stamp ≤ s.stamp))).map (Sample.mapX f) := by rw [List.takeWhile_map]; rfl
  have dw : (st.map (Sample.mapX f)).dropWhile (fun e => decide (¬ e.stamp ≤ s.stamp)) =
      (st.dropWhile (fun e => decide (¬ e.stamp ≤ s.stamp))).map (Sample.mapX f) := by rw [List.dropWhile_map]; rfl
  have es : (s.mapX f).stamp = s.stamp := rfl
  unfold insertBody
  simp only [es, tw, dw]
  generalize st.takeWhile (fun e => decide (¬ e.stamp ≤ s.stamp)) = pre
  generalize st.dropWhile (fun e => decide (¬ e.stamp ≤ s.stamp)) = post
  have ep : ∀ post : List (Sample X), pruneList D (pre.map (Sample.mapX f) ++ s.mapX f :: post.map (Sample.mapX f)) =
      ((pruneList D (pre ++ s :: post)).1.map (Sample.mapX f), (pruneList D (pre ++ s :: post)).2) := by
    intro post
    rw [← pruneList_mapX]
    simp
  cases post with
  | nil =>
    have := ep []
    simp only [List.map_nil] at this
    simp only [List.map_nil]
    rw [this]
  | cons e r =>
    have ee : (e.mapX f).stamp = e.stamp := rfl
    simp only [List.map_cons, ee]
    have := ep (e :: r)
    simp only [List.map_cons] at this
    split
    · rfl
    · rw [this]

theorem insert_mapX (c : Cache X) (s : Sample X) : (c.mapX f).insert (s.mapX f) = ((c.insert s).1.mapX f, (c.insert s).2) := by
  cases c with
  | stat o => rfl
  | dyn D st =>
    have e : dynInsert D (st.map (Sample.mapX f)) (s.mapX f) = ((dynInsert D st s).1.map (Sample.mapX f), (dynInsert D st s).2) := by
      cases st with
      | nil => exact insertBody_mapX D [] s
      | cons a r =>
        have e1 : (s.mapX f).stamp = s.stamp := rfl
        have e2 : (a.mapX f).stamp = a.stamp := rfl
        have ib := insertBody_mapX (f := f) D (a :: r) s
        simp only [List.map_cons] at ib
        simp only [dynInsert, List.map_cons, e1, e2, ib]
        cases timeAdd s.stamp D with
        | none => rfl
        | some l =>
          dsimp only
          split <;> rfl
    simp only [Cache.insert, Cache.mapX, e]

theorem loifn_mapX (b : Buf X) (n : Name) :
    (b.mapX f).lookupOrInsertFrameNumber n = ((b.lookupOrInsertFrameNumber n).1.mapX f, (b.lookupOrInsertFrameNumber n).2) := by
  unfold Buf.lookupOrInsertFrameNumber
  have e : (b.mapX f).frameIDs = b.frameIDs := rfl
  rw [e]
  cases b.frameIDs n with
  | some i => rfl
  | none => simp [Buf.mapX]

theorem set_mapX (b : Buf X) (i : Nat) (c : Cache X) :
    ({ b.mapX f with frames := (b.mapX f).frames.set i (some (c.mapX f)) } : Buf Y) =
      ({ b with frames := b.frames.set i (some c) } : Buf X).mapX f := by
  simp [Buf.mapX, List.map_set]

theorem setTransform_mapX [Rigid X] [Rigid Y] (b : Buf X) (m : Msg X) (auth : Name) (s : Bool)
    (hv : Buf.msgValid (Buf.stripMsg (m.mapX f)) = Buf.msgValid (Buf.stripMsg m)) :
    (b.mapX f).setTransform (m.mapX f) auth s = ((b.setTransform m auth s).1.mapX f, (b.setTransform m auth s).2) := by
  unfold Buf.setTransform
  simp only [hv]
  cases Buf.msgValid (Buf.stripMsg m) with
  | false => rfl
  | true =>
    simp only [if_true]
    have ec : (Buf.stripMsg (m.mapX f)).child = (Buf.stripMsg m).child := rfl
    have ep : (Buf.stripMsg (m.mapX f)).parent = (Buf.stripMsg m).parent := rfl
    simp only [ec, ep, loifn_mapX]
    generalize b.lookupOrInsertFrameNumber (Buf.stripMsg m).child = r1
    obtain ⟨b1, cid⟩ := r1
    have eg : ((b1.mapX f).getFrame cid).getD ((b1.mapX f).newCache s) = ((b1.getFrame cid).getD (b1.newCache s)).mapX f := by
      rw [Buf.getFrame_mapX]
      cases b1.getFrame cid with
      | some c => rfl
      | none => cases s <;> rfl
    have el : (b1.mapX f).frames.length = b1.frames.length := by simp [Buf.mapX]
    simp only [eg, el, set_mapX, loifn_mapX]
    generalize (b1.getFrame cid).getD (b1.newCache s) = c
    generalize Buf.lookupOrInsertFrameNumber { b1 with frames := b1.frames.set cid (some c) } (Buf.stripMsg m).parent = r2
    obtain ⟨b3, pid⟩ := r2
    dsimp only
    split
    · have ei := insert_mapX (f := f) c { stamp := (Buf.stripMsg m).stamp, parent := pid, child := cid, xf := (Buf.stripMsg m).xf }
      have ei' : (c.mapX f).insert { stamp := (Buf.stripMsg (m.mapX f)).stamp, parent := pid, child := cid, xf := (Buf.stripMsg (m.mapX f)).xf } = _ := ei
      rw [ei']
      generalize c.insert { stamp := (Buf.stripMsg m).stamp, parent := pid, child := cid, xf := (Buf.stripMsg m).xf } = r
      obtain ⟨c', res⟩ := r
      cases res <;> simp [Buf.mapX, List.map_set]
    · rfl

theorem clear_mapX (b : Buf X) : (b.mapX f).clear = b.clear.mapX f := by
  have e : ∀ o : Option (Cache X), (o.map (Cache.mapX f)).map Cache.clearList = (o.map Cache.clearList).map (Cache.mapX f) := by
    intro o
    cases o with
    | none => rfl
    | some c => cases c <;> rfl
  simp only [Buf.clear, Buf.mapX, List.map_append, List.map_take, List.map_map, ← List.map_drop, Buf.mk.injEq, true_and, and_true]
  congr 1
  refine List.map_congr_left fun o _ => ?_
  exact e o

theorem run_mapX [Rigid X] [Rigid Y] (ops : List (Op X)) :
    ∀ (b : Buf X), (∀ m a s, Op.set m a s ∈ ops → Buf.msgValid (Buf.stripMsg (m.mapX f)) = Buf.msgValid (Buf.stripMsg m)) →
      (b.mapX f).run (ops.map (Op.mapX f)) = (b.run ops).mapX f := by
  induction ops with
  | nil => intro b _; rfl
  | cons o r ih =>
    intro b ho
    have hs : (b.mapX f).step (o.mapX f) = (b.step o).mapX f := by
      cases o with
      | clear => exact clear_mapX b
      | set m a s =>
        show ((b.mapX f).setTransform (m.mapX f) a s).1 = _
        rw [setTransform_mapX b m a s (ho m a s List.mem_cons_self)]
        rfl
    show ((b.mapX f).step (o.mapX f)).run (r.map (Op.mapX f)) = _
    rw [hs]
    exact ih _ (fun m a s hm => ho m a s (List.mem_cons_of_mem _ hm))

end Tf2
