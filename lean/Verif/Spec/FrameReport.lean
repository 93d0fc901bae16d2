import Verif.Model.FrameReport
import Verif.Spec.History

/-!
# Specification vocabulary: who broadcast a frame last
-/
namespace Tf2

variable {X : Type}

/-- After the calls `pre`, `setTransform m a s` returns `true`. -/
def TakenAfter [Rigid X] (D : Duration) (pre : List (Op X)) (m : Msg X) (a : Name) (s : Bool) : Prop :=
  (((Buf.init D).run pre).setTransform m a s).2 = .accepted

/-- `a` is the authority of the last call of the history that set child frame `n` and returned
`true`. -/
def LastBroadcaster [Rigid X] (D : Duration) (ops : List (Op X)) (n : Name) (a : Name) : Prop :=
  ∃ pre m s post, ops = pre ++ .set m a s :: post ∧ stripSlash m.child = n ∧ TakenAfter D pre m a s ∧
    ∀ mid m' a' s' rest, post = mid ++ .set m' a' s' :: rest → stripSlash m'.child = n →
      ¬ TakenAfter D (pre ++ .set m a s :: mid) m' a' s'

/-- Every stamp of the history, plus the storage duration, is a time `ros::Time` can hold. -/
def StampsFit (D : Duration) (ops : List (Op X)) : Prop :=
  ∀ m a s, Op.set m a s ∈ ops → (m.stamp : Int) + D ≤ TIME_MAX

/-- The entry for frame number `i`, called `n`, says what the buffer holds for it: a dynamic frame is
reported with the number of its stored transforms, the stamps of the newest and of the oldest one and
the parent of the newest; a static frame with its one transform, stamped 0. -/
def ReportsFrame (D : Duration) (b : Buf X) (now : Int) (n : Name) (i : Nat) (r : FrameReport) : Prop :=
  r.frame = n ∧
  ((∃ st newest oldest, b.getFrame i = some (.dyn D st) ∧ newest ∈ st ∧ oldest ∈ st ∧
      (∀ s ∈ st, oldest.stamp ≤ s.stamp ∧ s.stamp ≤ newest.stamp) ∧
      b.frameIDs r.parent = some newest.parent ∧ r.count = st.length ∧
      r.latest = newest.stamp ∧ r.oldest = oldest.stamp) ∨
   (∃ s, b.getFrame i = some (.stat (some s)) ∧ b.frameIDs r.parent = some s.parent ∧ r.count = 1 ∧
      r.latest = 0 ∧ r.oldest = 0)) ∧
  r.span = (r.latest : Int) - r.oldest ∧
  r.ratePer = max (r.latest - r.oldest) 100000 ∧
  r.delay = (if 0 < now then some (now - r.latest) else none)

/-- The buffer holds at least one transform for frame number `i`. -/
def HoldsData (b : Buf X) (i : Nat) : Prop :=
  (∃ D st, b.getFrame i = some (.dyn D st) ∧ st ≠ []) ∨ (∃ s, b.getFrame i = some (.stat s))

end Tf2
