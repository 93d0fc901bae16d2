import Verif.Spec.Denote

/-!
# Specification vocabulary: histories that tell a buffer the same data

Everything about the history is stated over the list of calls; `Indistinguishable` lists the queries by name.
-/
namespace Tf2

variable {X : Type}

/-- What a message says about its child: when, below which frame (one leading slash ignored), and where. -/
def Msg.gist (m : Msg X) : Time × Name × X := (m.stamp, stripSlash m.parent, m.xf)

/-- How frame `n` was first published: static (`true`), dynamic (`false`), or never. -/
def kindOf [Rigid X] (n : Name) (ops : List (Op X)) : Option Bool := (offersFor n ops).head?.map Prod.snd

/-- Two histories name the same frames, publish each frame for the first time in the same way, end with the same
message for every static frame, and for every dynamic frame have the same messages that count (`Effective`).  They may
differ in everything else: order, repetitions, refused and expired messages, who sent what, and `clear` calls. -/
structure SameData [Rigid X] (D : Duration) (ops ops' : List (Op X)) : Prop where
  known : ∀ n, n ∈ mentions ops ↔ n ∈ mentions ops'
  kind : ∀ n, kindOf n ops = kindOf n ops'
  static : ∀ n, kindOf n ops = some true →
    (offersFor n ops).getLast?.map (fun e => e.1.gist) = (offersFor n ops').getLast?.map (fun e => e.1.gist)
  counts : ∀ n, kindOf n ops = some false → ∀ v,
    (∃ m, Effective D ops n m ∧ m.gist = v) ↔ (∃ m, Effective D ops' n m ∧ m.gist = v)

/-- No query by name tells the two buffers apart: same transforms and exceptions, same availability, same parents,
chains and frames, the same listings up to order; and the next `setTransform` returns the same. -/
structure Indistinguishable [Rigid X] (b b' : Buf X) : Prop where
  lookup : ∀ target source t, b'.lookupTransform target source t = b.lookupTransform target source t
  lookupFixed : ∀ target tt source st fixed,
    b'.lookupTransform5 target tt source st fixed = b.lookupTransform5 target tt source st fixed
  can : ∀ target source t, b'.canTransform target source t = b.canTransform target source t
  canFixed : ∀ target tt source st fixed,
    b'.canTransform5 target tt source st fixed = b.canTransform5 target tt source st fixed
  parent : ∀ n t, b'.getParent n t = b.getParent n t
  chain : ∀ target tt source st fixed,
    b'.chainAsVector target tt source st fixed = b.chainAsVector target tt source st fixed
  frames : ∀ n, b'.frameExists n = b.frameExists n
  names : b'.getFrameStrings.Perm b.getFrameStrings
  listing : ∃ L L', b.allFrames = .ok L ∧ b'.allFrames = .ok L' ∧ L'.Perm L
  nextSet : ∀ m a s, (b'.setTransform m a s).2 = (b.setTransform m a s).2

/-- Message `m` with static flag `s` was delivered and is acceptable. -/
def Delivered [Rigid X] (ops : List (Op X)) (m : Msg X) (s : Bool) : Prop := (∃ a, Op.set m a s ∈ ops) ∧ ValidMsg m

/-- The messages do not contradict each other: each frame is always static or always dynamic, has one message if it is
static, and at most one per stamp if it is dynamic. -/
def Consistent [Rigid X] (ops : List (Op X)) : Prop :=
  ∀ m s m' s', Delivered ops m s → Delivered ops m' s' → stripSlash m.child = stripSlash m'.child →
    s = s' ∧ (s = true → m = m') ∧ (m.stamp = m'.stamp → m = m')

end Tf2
