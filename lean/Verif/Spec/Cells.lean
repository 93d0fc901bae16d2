import Verif.Model.Cells

/-!
# Specification vocabulary: equality and serialisation of vectors and transforms
-/
namespace Tf2.Cells

variable {α β : Type}

/-- The statement does not set the fourth number on purpose (`setW`, `tf2Vector4`). -/
def Op.plain : Op α β → Prop
  | .four _ _ _ _ _ => False
  | .setW _ _ => False
  | _ => True

/-- What the statement does to the variables that have been given a value as a whole since their last declaration: by a
constructor with coordinates, `setValue`, an arithmetic expression, a copy of such a variable, or deserialisation. -/
def wholeStep (w : Nat → Bool) : Op α β → Nat → Bool
  | .declare r => fun i => if i = r then false else w i
  | .make r _ _ _ => fun i => if i = r then true else w i
  | .four r _ _ _ _ => fun i => if i = r then true else w i
  | .expr r _ _ => fun i => if i = r then true else w i
  | .copy r q => fun i => if i = r then w q else w i
  | .load r _ => fun i => if i = r then true else w i
  | .loadFloat r _ => fun i => if i = r then true else w i
  | _ => w

/-- The variables that have a value as a whole after the program. -/
def whole (ops : List (Op α β)) : Nat → Bool := ops.foldl wholeStep (fun _ => false)

/-- The coordinates are equal. -/
def Co.same [Dbl α] (c d : Co α) : Bool := Dbl.eqb c.x d.x && Dbl.eqb c.y d.y && Dbl.eqb c.z d.z

/-- The number as a `float` and back. -/
def viaFloat (β : Type) [Flt α β] (a : α) : α := Flt.toDouble (Flt.toFloat a : β)

/-- All four numbers replaced. -/
def Vec.map (f : α → α) (v : Vec α) : Vec α := ⟨v.x.map f, v.y.map f, v.z.map f, v.w.map f⟩

/-- No number of the vector is unequal to itself (NaN). -/
def Vec.noNaN [Dbl α] (v : Vec α) : Prop :=
  (∀ a ∈ v.x, Dbl.eqb a a = true) ∧ (∀ a ∈ v.y, Dbl.eqb a a = true) ∧ (∀ a ∈ v.z, Dbl.eqb a a = true) ∧
    ∀ a ∈ v.w, Dbl.eqb a a = true

/-- The statement writes the variable. -/
def Op.writes (r : Nat) : Op α β → Prop
  | .declare p | .make p _ _ _ | .four p _ _ _ _ | .copy p _ | .expr p _ _ | .update p _ _ | .overwrite p _ _ | .setX p _
  | .setY p _ | .setZ p _ | .setW p _ | .setMax p _ | .setMin p _ | .load p _ | .loadFloat p _ => p = r
  | _ => False

/-- The statement writes the data `k`. -/
def Op.stores (k : Nat) : Op α β → Prop
  | .store _ j => j = k
  | .storeFloat _ j => j = k
  | _ => False

end Tf2.Cells
