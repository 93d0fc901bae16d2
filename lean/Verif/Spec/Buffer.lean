import Verif.Model.BufferCore
import Verif.Spec.Cache

/-!
# Specification vocabulary for buffers: stored edges and chains of frames
-/
namespace Tf2

variable {X : Type}

/-- At time `t` the buffer holds, for frame `f`, a transform `e` to a parent `p` (0 is not a
frame). -/
def ParentAt [Rigid X] (b : Buf X) (t : Time) (f p : Nat) (e : X) : Prop :=
  p ≠ 0 ∧ ∃ c s, b.getFrame f = some c ∧ c.getData t = .ok s ∧ s.parent = p ∧ s.xf = e

/-- `Chain b t a c x n`: following stored child-to-parent transforms at time `t` leads from `a` to
`c` in `n` steps, and `x` is their composition (it maps coordinates in `a` to coordinates
in `c`). -/
inductive Chain [Rigid X] (b : Buf X) (t : Time) (a : Nat) : Nat → X → Nat → Prop where
  | refl : Chain b t a a Rigid.one 0
  | snoc {c p : Nat} {x e : X} {n : Nat} :
      Chain b t a c x n → ParentAt b t c p e → Chain b t a p (Rigid.comp e x) (n + 1)

/-- The chain of `a` ends at `r`: no transform to a parent is available for `r` at time `t`. -/
def EndsAt [Rigid X] (b : Buf X) (t : Time) (a r : Nat) (n : Nat) : Prop :=
  (∃ x, Chain b t a r x n) ∧ ¬ ∃ p e, ParentAt b t r p e

/-- What every reachable buffer satisfies about one cache: a time cache with the buffer's storage
duration produced by insertions, or a static cache that has been filled; samples name the frame that
owns the cache, and a known, different parent. -/
def CacheOK (D : Duration) (i N : Nat) : Cache X → Prop
  | .dyn D' st => D' = D ∧ ReachableCache D st ∧ ∀ s ∈ st, s.parent < N ∧ s.parent ≠ i ∧ s.child = i
  | .stat (some s) => s.parent < N ∧ s.parent ≠ i ∧ s.child = i
  | .stat none => False

/-- The structural invariant of a buffer. -/
structure WF (D : Duration) (b : Buf X) : Prop where
  cacheTime : b.cacheTime = D
  lenEq : b.frameIDsReverse.length = b.frames.length
  zero : b.frameIDsReverse[0]? = some noParentName
  ids : ∀ n i, b.frameIDs n = some i ↔ b.frameIDsReverse[i]? = some n
  caches : ∀ i c, b.getFrame i = some c → CacheOK D i b.frames.length c

end Tf2

namespace Tf2

variable {X : Type}

/-- `n` names frame number `i` of the buffer (the reserved number 0 is not a frame). -/
def IsFrame (b : Buf X) (n : Name) (i : Nat) : Prop := i ≠ 0 ∧ b.frameIDs n = some i

/-- Names that queries accept: not empty, no leading slash. -/
def LegalName (n : Name) : Prop := n ≠ [] ∧ n.head? ≠ some '/'

/-- The laws of rigid motions, on the well-formed ones (`U`; for quaternion + translation: unit
quaternions). -/
structure RigidLaws [Rigid X] (U : X → Prop) : Prop where
  one : U Rigid.one
  comp : ∀ {a b}, U a → U b → U (Rigid.comp a b)
  inv : ∀ {a}, U a → U (Rigid.inv a)
  interp : ∀ {a b} {num den : Int}, U a → U b → 0 ≤ num → num ≤ den → 0 < den →
    U (Rigid.interp a b num den)
  assoc : ∀ {a b c}, U a → U b → U c → Rigid.comp (Rigid.comp a b) c = Rigid.comp a (Rigid.comp b c)
  one_comp : ∀ {a}, U a → Rigid.comp Rigid.one a = a
  comp_one : ∀ {a}, U a → Rigid.comp a Rigid.one = a
  inv_comp : ∀ {a}, U a → Rigid.comp (Rigid.inv a) a = Rigid.one
  comp_inv : ∀ {a}, U a → Rigid.comp a (Rigid.inv a) = Rigid.one

/-- Every transform a history offers to the buffer is well formed. -/
def AllOffered (U : X → Prop) (ops : List (Op X)) : Prop :=
  ∀ m a s, Op.set m a s ∈ ops → U m.xf

end Tf2

namespace Tf2

variable {X : Type}

/-- At time `t` the parent chain of frame `i` ends at `r` within the depth limit. -/
def Rooted [Rigid X] (b : Buf X) (t : Time) (i r : Nat) : Prop := ∃ n, n ≤ 1000 ∧ EndsAt b t i r n

/-- At time `t` the parent chain of frame `i` never ends (it runs into a loop). -/
def Endless [Rigid X] (b : Buf X) (t : Time) (i : Nat) : Prop := ∀ n, ∃ c x, Chain b t i c x n

end Tf2
