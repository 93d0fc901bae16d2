import Verif.Spec.Order

/-!
# Specification vocabulary: what a history of messages says, without any buffer

Everything here is about the list of calls made; frames are names.
-/
namespace Tf2

variable {X : Type}

/-- The valid messages for child frame `n` since the last `clear`, in order (after those in `acc`). -/
def recentFor [Rigid X] (n : Name) : List (Op X) → List (Msg X) → List (Msg X)
  | [], acc => acc
  | .clear :: r, _ => recentFor n r []
  | .set m _ _ :: r, acc =>
    if ValidMsg m ∧ stripSlash m.child = n then recentFor n r (acc ++ [m]) else recentFor n r acc

/-- The message `m` for frame `n` counts: it is the first one with its stamp, and no message for `n` is newer than it
by more than the cache duration. -/
def Effective [Rigid X] (D : Duration) (ops : List (Op X)) (n : Name) (m : Msg X) : Prop :=
  (recentFor n ops []).find? (fun a => a.stamp == m.stamp) = some m ∧
    ∀ a ∈ recentFor n ops [], (a.stamp : Int) ≤ m.stamp + D

/-- What the messages say about frame `n` at time `t ≠ 0`: its parent and its transform. -/
inductive Says [Rigid X] (D : Duration) (ops : List (Op X)) (t : Time) (n : Name) : Name → X → Prop where
  /-- the first message for `n` was static: the last one holds at all times -/
  | static {m0 m : Msg X} {s : Bool} {r : List (Msg X × Bool)} : offersFor n ops = (m0, true) :: r →
      (offersFor n ops).getLast? = some (m, s) → Says D ops t n (stripSlash m.parent) m.xf
  /-- a message for exactly that time -/
  | exact {m0 m : Msg X} {r : List (Msg X × Bool)} : offersFor n ops = (m0, false) :: r →
      Effective D ops n m → m.stamp = t → Says D ops t n (stripSlash m.parent) m.xf
  /-- between two consecutive messages with the same parent: interpolation -/
  | between {m0 o w : Msg X} {r : List (Msg X × Bool)} : offersFor n ops = (m0, false) :: r →
      Effective D ops n o → Effective D ops n w → o.stamp < t → t < w.stamp →
      (∀ k, Effective D ops n k → k.stamp ≤ o.stamp ∨ w.stamp ≤ k.stamp) →
      stripSlash o.parent = stripSlash w.parent →
      Says D ops t n (stripSlash o.parent) (Rigid.interp o.xf w.xf ((t : Int) - o.stamp) ((w.stamp : Int) - o.stamp))
  /-- between two consecutive messages with different parents: the older one -/
  | switch {m0 o w : Msg X} {r : List (Msg X × Bool)} : offersFor n ops = (m0, false) :: r →
      Effective D ops n o → Effective D ops n w → o.stamp < t → t < w.stamp →
      (∀ k, Effective D ops n k → k.stamp ≤ o.stamp ∨ w.stamp ≤ k.stamp) →
      stripSlash o.parent ≠ stripSlash w.parent →
      Says D ops t n (stripSlash o.parent) o.xf

/-- Following what the messages say from frame `a` leads to frame `c` in `k` steps; `x` takes coordinates in `a` to
coordinates in `c`.  (The reserved name NO_PARENT is not a frame.) -/
inductive Leads [Rigid X] (D : Duration) (ops : List (Op X)) (t : Time) (a : Name) : Name → X → Nat → Prop where
  | refl : Leads D ops t a a Rigid.one 0
  | snoc {c p : Name} {x e : X} {k : Nat} : Leads D ops t a c x k → Says D ops t c p e → p ≠ noParentName →
      Leads D ops t a p (Rigid.comp e x) (k + 1)

/-- The way up from `a` ends after at most 1000 steps. -/
def WayEnds [Rigid X] (D : Duration) (ops : List (Op X)) (t : Time) (a : Name) : Prop :=
  ∃ r x k, k ≤ 1000 ∧ Leads D ops t a r x k ∧ ¬ ∃ p e, Says D ops t r p e ∧ p ≠ noParentName

/-- The calls stay inside the range of the time type, the cache duration is not negative, and nobody publishes
a frame called NO_PARENT. -/
structure Regular [Rigid X] (D : Duration) (ops : List (Op X)) : Prop where
  dur : 0 ≤ D
  range : ∀ m a s, Op.set m a s ∈ ops → ValidMsg m → (m.stamp : Int) + D ≤ TIME_MAX
  names : NoReservedChild ops

/-- Interpolating at the older end gives the older value. -/
def InterpZero (X : Type) [Rigid X] : Prop := ∀ (a b : X) (d : Int), Rigid.interp a b 0 d = a

/-- Frame `n` is told about at time `t`: it is static, or messages for `n` that count lie on both sides of `t` (or on
it). -/
def Covered [Rigid X] (D : Duration) (ops : List (Op X)) (t : Time) (n : Name) : Prop :=
  (∃ m0 r, offersFor n ops = (m0, true) :: r) ∨
  (∃ m0 r, offersFor n ops = (m0, false) :: r) ∧ ∃ m1 ∈ recentFor n ops [], ∃ m2 ∈ recentFor n ops [],
    m1.stamp ≤ t ∧ t ≤ m2.stamp ∧ ∀ a ∈ recentFor n ops [], (a.stamp : Int) ≤ m1.stamp + D

/-- All messages agree with one tree: `par` gives the parent of every frame that is ever published, and no frame is
deeper than 1000. -/
structure OneTree [Rigid X] (ops : List (Op X)) (par : Name → Option Name) (depth : Name → Nat) : Prop where
  agrees : ∀ m a s, Op.set m a s ∈ ops → ValidMsg m → par (stripSlash m.child) = some (stripSlash m.parent)
  deeper : ∀ n p, par n = some p → depth p < depth n
  bound : ∀ n, depth n ≤ 1000
  named : ∀ n p, par n = some p → p ≠ noParentName

/-- Every frame on the way from `a` up to `c` in the tree satisfies `P` (`c` itself need not). -/
inductive UpTo (par : Name → Option Name) (P : Name → Prop) (a : Name) : Name → Prop where
  | refl : UpTo par P a a
  | snoc {c p : Name} : UpTo par P a c → par c = some p → P c → UpTo par P a p

end Tf2
