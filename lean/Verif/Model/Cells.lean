/-!
# The four numbers of a `tf2::Vector3`: equality and serialisation

`Vector3` stores four numbers, of which the fourth is not a coordinate; `operator==` compares it and serialisation copies
it.  A number that was never written is indeterminate, and reading it is undefined behaviour.  A program works on
variables of type `Vector3`, numbered; a `Matrix3x3` is three and a `Transform` four of them in a row (Matrix3x3.h:35,
Transform.h:35-37: the rows, then the origin).  Simplification: the implicit copy of a vector copies indeterminate
numbers without complaint.
-/
namespace Tf2.Cells

/-- `double` (values of type `α`; `float` is `β`) with its comparisons. Nothing is assumed: NaN is
unequal to itself. -/
class Dbl (α : Type) where
  zero : α
  eqb : α → α → Bool
  ltb : α → α → Bool

/-- The conversions between `double` and `float`. -/
class Flt (α β : Type) where
  toFloat : α → β
  toDouble : β → α

/-- `m_floats`, tf2/include/tf2/LinearMath/Vector3.h:62; `none`: never written. -/
structure Vec (α : Type) where
  x : Option α
  y : Option α
  z : Option α
  w : Option α
deriving DecidableEq

/-- The numbers of three coordinates. -/
structure Co (α : Type) where
  x : α
  y : α
  z : α

/-- One statement. -/
inductive Op (α β : Type) where
  | declare (r : Nat)                                       -- `Vector3 v;`
  | make (r : Nat) (x y z : α)                              -- `v = Vector3(x, y, z)`, `v.setValue(x, y, z)`
  | four (r : Nat) (x y z w : α)                            -- `v = tf2Vector4(x, y, z, w)`
  | copy (r s : Nat)                                        -- `v = u`
  | expr (r : Nat) (args : List Nat) (f : List (Co α) → Co α)   -- `v = ` an expression built by the three-argument constructor
  | update (r : Nat) (args : List Nat) (f : Co α → List (Co α) → Co α) -- `v += u`, `v.normalize()`
  | overwrite (r : Nat) (args : List Nat) (f : List (Co α) → Co α)     -- `v.setInterpolate3(...)`
  | setX (r : Nat) (a : α)
  | setY (r : Nat) (a : α)
  | setZ (r : Nat) (a : α)
  | setW (r : Nat) (a : α)
  | setMax (r s : Nat)
  | setMin (r s : Nat)
  | store (r k : Nat)                                       -- `v.serialize(data)`
  | storeFloat (r k : Nat)                                  -- `v.serializeFloat(data)`
  | load (r k : Nat)                                        -- `v.deSerialize(data)`
  | loadFloat (r k : Nat)                                   -- `v.deSerializeFloat(data)`

/-- State: the variables, and the data of `serialize` and of `serializeFloat`. -/
structure State (α β : Type) where
  vecs : Nat → Vec α
  data : Nat → Option (α × α × α × α)
  fdata : Nat → Option (β × β × β × β)

variable {α β : Type}

/-- A vector nobody has written to. -/
def Vec.raw : Vec α := ⟨none, none, none, none⟩

/-- The coordinates; `none`: one of them was never written. -/
def Vec.co (v : Vec α) : Option (Co α) :=
  match v.x, v.y, v.z with
  | some x, some y, some z => some ⟨x, y, z⟩
  | _, _, _ => none

/-- All four numbers, read by the loops of `serialize`, Vector3.h:715-720. -/
def Vec.all (v : Vec α) : Option (α × α × α × α) :=
  match v.x, v.y, v.z, v.w with
  | some x, some y, some z, some w => some (x, y, z, w)
  | _, _, _, _ => none

/-- Assignment to a variable. -/
def State.put (s : State α β) (r : Nat) (v : Vec α) : State α β :=
  { s with vecs := fun i => if i = r then v else s.vecs i }

/-- `tf2SetMax(a, b)` with `lt a b`, `tf2SetMin(a, b)` with `lt b a`, tf2/include/tf2/LinearMath/MinMax.h:39-54. -/
def pick (lt : α → α → Bool) (a b : Option α) : Option (Option α) :=
  match a, b with
  | some a, some b => some (some (if lt a b then b else a))
  | _, _ => none

/-- `setMax`, `setMin`, Vector3.h:289-306: all four numbers. -/
def pick4 (lt : α → α → Bool) (v u : Vec α) : Option (Vec α) :=
  match pick lt v.x u.x, pick lt v.y u.y, pick lt v.z u.z, pick lt v.w u.w with
  | some x, some y, some z, some w => some ⟨x, y, z, w⟩
  | _, _, _, _ => none

/-- The coordinates of several variables. -/
def State.cos (s : State α β) : List Nat → Option (List (Co α))
  | [] => some []
  | r :: l => match (s.vecs r).co, s.cos l with
    | some c, some cs => some (c :: cs)
    | _, _ => none

/-- One statement; `none`: undefined behaviour. -/
def step [Dbl α] [Flt α β] (s : State α β) : Op α β → Option (State α β)
  | .declare r => some (s.put r .raw)                                               -- Vector3.h:71
  | .make r x y z => some (s.put r ⟨some x, some y, some z, some Dbl.zero⟩)   -- Vector3.h:77-83, 308-314
  | .four r x y z w => some (s.put r ⟨some x, some y, some z, some w⟩)              -- Vector3.h:498-502
  | .copy r q => some (s.put r (s.vecs q))
  | .expr r args f =>                                                               -- Vector3.h:340-407, Matrix3x3.h, Transform.h:91-96
    match s.cos args with
    | some cs => some (s.put r ⟨some (f cs).x, some (f cs).y, some (f cs).z, some Dbl.zero⟩)
    | none => none
  | .update r args f =>                                                             -- Vector3.h:90-119, 150-153, 242-246
    match (s.vecs r).co, s.cos args with
    | some c, some cs =>
      some (s.put r { s.vecs r with x := some (f c cs).x, y := some (f c cs).y, z := some (f c cs).z })
    | _, _ => none
  | .overwrite r args f =>                                                          -- Vector3.h:220-228
    match s.cos args with
    | some cs => some (s.put r { s.vecs r with x := some (f cs).x, y := some (f cs).y, z := some (f cs).z })
    | none => none
  | .setX r a => some (s.put r { s.vecs r with x := some a })                       -- Vector3.h:255
  | .setY r a => some (s.put r { s.vecs r with y := some a })                       -- Vector3.h:257
  | .setZ r a => some (s.put r { s.vecs r with z := some a })                       -- Vector3.h:259
  | .setW r a => some (s.put r { s.vecs r with w := some a })                       -- Vector3.h:261
  | .setMax r q => (pick4 (fun a b => Dbl.ltb a b) (s.vecs r) (s.vecs q)).map (s.put r)
  | .setMin r q => (pick4 (fun a b => Dbl.ltb b a) (s.vecs r) (s.vecs q)).map (s.put r)
  | .store r k =>                                                                   -- Vector3.h:702-707, 715-720
    match (s.vecs r).all with
    | some d => some { s with data := fun i => if i = k then some d else s.data i }
    | none => none
  | .storeFloat r k =>                                                              -- Vector3.h:688-693
    match (s.vecs r).all with
    | some (x, y, z, w) =>
      let d := (Flt.toFloat x, Flt.toFloat y, Flt.toFloat z, Flt.toFloat w)
      some { s with fdata := fun i => if i = k then some d else s.fdata i }
    | none => none
  | .load r k =>                                                                    -- Vector3.h:709-713, 722-726
    match s.data k with
    | some (x, y, z, w) => some (s.put r ⟨some x, some y, some z, some w⟩)
    | none => none
  | .loadFloat r k =>                                                               -- Vector3.h:695-699
    match s.fdata k with
    | some (x, y, z, w) =>
      some (s.put r ⟨some (Flt.toDouble x), some (Flt.toDouble y), some (Flt.toDouble z), some (Flt.toDouble w)⟩)
    | none => none

/-- A program; `none`: undefined behaviour. -/
def run [Dbl α] [Flt α β] : List (Op α β) → State α β → Option (State α β)
  | [], s => some s
  | op :: r, s => match step s op with
    | some s' => run r s'
    | none => none

/-- Nothing written yet. -/
def State.init : State α β := ⟨fun _ => .raw, fun _ => none, fun _ => none⟩

/-- One comparison of `operator==`; `none`: undefined behaviour. -/
def eqCell [Dbl α] (a b : Option α) (rest : Option Bool) : Option Bool :=
  match a, b with
  | some a, some b => if Dbl.eqb a b then rest else some false
  | _, _ => none

/-- `operator==` of vectors, Vector3.h:276-279: the fourth number first. -/
def equal [Dbl α] (v u : Vec α) : Option Bool :=
  eqCell v.w u.w (eqCell v.z u.z (eqCell v.y u.y (eqCell v.x u.x (some true))))

/-- `operator==` of matrices, tf2/include/tf2/LinearMath/Matrix3x3.h:641-646, for the matrices at `p` and `q`: column by column,
without the fourth numbers; followed by `rest`. -/
def equalMat [Dbl α] (s : State α β) (p q : Nat) (rest : Option Bool) : Option Bool :=
  eqCell (s.vecs p).x (s.vecs q).x <| eqCell (s.vecs (p + 1)).x (s.vecs (q + 1)).x <|
  eqCell (s.vecs (p + 2)).x (s.vecs (q + 2)).x <|
  eqCell (s.vecs p).y (s.vecs q).y <| eqCell (s.vecs (p + 1)).y (s.vecs (q + 1)).y <|
  eqCell (s.vecs (p + 2)).y (s.vecs (q + 2)).y <|
  eqCell (s.vecs p).z (s.vecs q).z <| eqCell (s.vecs (p + 1)).z (s.vecs (q + 1)).z <|
  eqCell (s.vecs (p + 2)).z (s.vecs (q + 2)).z rest

/-- `operator==` of transforms, tf2/include/tf2/LinearMath/Transform.h:244-248. -/
def equalTransform [Dbl α] (s : State α β) (p q : Nat) : Option Bool :=
  equalMat s p q (equal (s.vecs (p + 3)) (s.vecs (q + 3)))

/-- `Matrix3x3::serialize` / `Transform::serialize`, Matrix3x3.h:663-667, Transform.h:266-270: the rows and the origin in turn. -/
def storeTransform (p k : Nat) : List (Op α β) := [.store p k, .store (p + 1) (k + 1), .store (p + 2) (k + 2), .store (p + 3) (k + 3)]
/-- `deSerialize`, `deSerializeDouble`, Transform.h:279-283, 291-295. -/
def loadTransform (p k : Nat) : List (Op α β) := [.load p k, .load (p + 1) (k + 1), .load (p + 2) (k + 2), .load (p + 3) (k + 3)]
/-- `serializeFloat`, Transform.h:272-276. -/
def storeFloatTransform (p k : Nat) : List (Op α β) :=
  [.storeFloat p k, .storeFloat (p + 1) (k + 1), .storeFloat (p + 2) (k + 2), .storeFloat (p + 3) (k + 3)]
/-- `deSerializeFloat`, Transform.h:285-289. -/
def loadFloatTransform (p k : Nat) : List (Op α β) :=
  [.loadFloat p k, .loadFloat (p + 1) (k + 1), .loadFloat (p + 2) (k + 2), .loadFloat (p + 3) (k + 3)]

end Tf2.Cells
