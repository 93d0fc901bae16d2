import Verif.Spec.Buffer

/-!
# Specification vocabulary: what a history of `setTransform`/`clear` calls says about one frame
-/
namespace Tf2

variable {X : Type}

/-- The documented conditions for `setTransform` to take a message: after removing one leading slash
from each id, child and parent differ and are not empty; no component is NaN; the quaternion is
normalised to within 1 %. -/
def ValidMsg [Rigid X] (m : Msg X) : Prop :=
  stripSlash m.child ≠ stripSlash m.parent ∧ stripSlash m.child ≠ [] ∧ stripSlash m.parent ≠ [] ∧
    Rigid.hasNaN m.xf = false ∧ Rigid.normOK m.xf = true

instance [Rigid X] (m : Msg X) : Decidable (ValidMsg m) := by unfold ValidMsg; infer_instance

/-- The valid messages of a history for child frame `n`, with their static flags, in order. -/
def offersFor [Rigid X] (n : Name) : List (Op X) → List (Msg X × Bool)
  | [] => []
  | .clear :: r => offersFor n r
  | .set m _ s :: r =>
    if ValidMsg m ∧ stripSlash m.child = n then (m, s) :: offersFor n r else offersFor n r

/-- The calls a history makes on the cache of frame `n`, with `ids` numbering the frames. -/
def frameCalls [Rigid X] (ids : Name → Nat) (n : Name) : List (Op X) → List (CacheOp X)
  | [] => []
  | .clear :: r => .clear :: frameCalls ids n r
  | .set m _ _ :: r =>
    if ValidMsg m ∧ stripSlash m.child = n then
      .insert ⟨m.stamp, ids (stripSlash m.parent), ids n, m.xf⟩ :: frameCalls ids n r
    else frameCalls ids n r

/-- The names mentioned by the valid messages of a history, in order of mention. -/
def mentions [Rigid X] : List (Op X) → List Name
  | [] => []
  | .clear :: r => mentions r
  | .set m _ _ :: r =>
    if ValidMsg m then stripSlash m.child :: stripSlash m.parent :: mentions r else mentions r

/-- Keeps the first occurrence of each name, after those in `acc`. -/
def firstOccurrences (acc : List Name) : List Name → List Name
  | [] => acc
  | n :: r => firstOccurrences (if n ∈ acc then acc else acc ++ [n]) r

/-- What the buffer `b` holds for frame `n` after a history: no cache if no valid message for it was
sent; if the first one was static, exactly the last one; if the first one was dynamic, a time cache
on which exactly the history's calls for `n` were made (whose content is C01's window). -/
def FrameContent [Rigid X] (D : Duration) (ops : List (Op X)) (b : Buf X) (n : Name) : Prop :=
  match offersFor n ops with
  | [] => ∀ i, b.frameIDs n = some i → b.getFrame i = none
  | (_, true) :: _ => ∃ i m s, b.frameIDs n = some i ∧ (offersFor n ops).getLast? = some (m, s) ∧
      b.getFrame i = some (.stat (some ⟨m.stamp, b.lookupFrameNumber (stripSlash m.parent), i, m.xf⟩))
  | (_, false) :: _ => ∃ i, b.frameIDs n = some i ∧
      b.getFrame i = some (Cache.run (.dyn D []) (frameCalls b.lookupFrameNumber n ops))

end Tf2
