import Verif.Model.ViewFrames
import Verif.Spec.FrameReport

/-!
# Specification vocabulary for `view_frames`
-/
namespace Tf2

/-- YAML reads each of these names, written without quotes, as that string. -/
def PlainNames (load : Name → YKey) (ns : List Name) : Prop := ∀ n ∈ ns, load n = .str n

/-- The picture has an arrow from `p` to `n`. -/
def Arrow (es : List DotEdge) (p n : Name) : Prop := ∃ e ∈ es, e.parent = p ∧ e.child = n

/-- One can follow arrows of these entries from `a` to `b`, along at least one. -/
inductive Above (L : List FrameReport) : Name → Name → Prop
  | one {r} : r ∈ L → Above L r.parent r.frame
  | step {a r} : Above L a r.parent → r ∈ L → Above L a r.frame

/-- Some frame is above itself. -/
def HasLoop (L : List FrameReport) : Prop := ∃ n, Above L n n

/-- An arrow shows what the report of a frame says. -/
def Shows (e : DotEdge) (r : FrameReport) : Prop :=
  e.parent = r.parent ∧ e.child = r.frame ∧ e.broadcaster = r.broadcaster ∧ e.count = r.count ∧ e.ratePer = r.ratePer ∧
  e.span = r.span ∧ e.latest = r.latest ∧ e.oldest = r.oldest

end Tf2
