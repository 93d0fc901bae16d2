import Verif.Model.Rounded
import Verif.Spec.Drift
import Verif.Spec.Buffer

/-!
# Specification vocabulary: distances of transforms, doubles, lookups in two arithmetics
-/
namespace Tf2

/-- Distance of two quaternions in the space of their four components. -/
noncomputable def Quat.apart (a b : Quat ℝ) : ℝ :=
  Real.sqrt ((a.x - b.x) ^ 2 + (a.y - b.y) ^ 2 + (a.z - b.z) ^ 2 + (a.w - b.w) ^ 2)

/-- Distance of two points. -/
noncomputable def Vec3.apart (a b : Vec3 ℝ) : ℝ :=
  Real.sqrt ((a.x - b.x) ^ 2 + (a.y - b.y) ^ 2 + (a.z - b.z) ^ 2)

/-- The quaternion has unit length up to 1e-6 (squared), and the translation is at most `L` long. -/
def Normal (L : ℝ) (p : Pose) : Prop := |p.rot.length2 - 1| ≤ 1 / 1000000 ∧ p.trans.length ≤ L

/-- The machine's interpolation between two such transforms is off by at most `dq` (rotation) and `dt`
(translation). -/
def InterpNear (F : Rounding) (L dq dt : ℝ) : Prop :=
  ∀ a b num den, Normal L a → Normal L b → 0 ≤ num → num ≤ den → 0 < den →
    (F.interp a b num den).rot.apart (Pose.interp a b num den).rot ≤ dq ∧
    (F.interp a b num den).trans.apart (Pose.interp a b num den).trans ≤ dt

/-- The conditions under which the error is bounded: the machine's relative error and its smallest spacing are at most a
billionth (a `double` has 1.2e-16), the error of its interpolation at most half a millionth, numbers of ten thousand times
the largest translation do not overflow. -/
structure Tame (F : Rounding) (L dq dt : ℝ) : Prop where
  u : F.u ≤ 1 / 10 ^ 9
  η : F.η ≤ 1 / 10 ^ 9
  dq0 : 0 ≤ dq
  dq1 : dq ≤ 5 / 10 ^ 7
  dt0 : 0 ≤ dt
  dt1 : dt ≤ 1
  L0 : 0 ≤ L
  Ω : 10 ^ 4 * (L + 1) ≤ F.Ω

/-- Every message offered was static. -/
def StaticOnly (ops : List (Op Pose)) : Prop := ∀ m a s, Op.set m a s ∈ ops → s = true

/-- The finite numbers of IEEE 754 binary64: 53 bits of mantissa, exponents from -1074 to 971. -/
def IsDouble (x : ℝ) : Prop := ∃ m k : ℤ, |m| ≤ 2 ^ 53 ∧ -1074 ≤ k ∧ k ≤ 971 ∧ x = m * (2 : ℝ) ^ k

/-- `rnd` gives a nearest `double`, for numbers up to 2^1023. Nothing is said about ties. -/
def NearestDouble (rnd : ℝ → ℝ) : Prop :=
  ∀ x, |x| ≤ (2 : ℝ) ^ (1023 : ℤ) → IsDouble (rnd x) ∧ ∀ y, IsDouble y → |rnd x - x| ≤ |y - x|

/-- The answers of two machines to one lookup: the same exception, or messages with the same names and stamp whose
transforms are close. `n` and `k` are the numbers of transforms on the two sides of the path. -/
def Agree (F : Rounding) (L dq dt : ℝ) (D : Duration) (ops : List (Op Pose)) (target source : Name) (t : Time) : Prop :=
  (∃ e, F.lookup (F.run D ops) target source t = .throw e ∧
    ((Buf.init D).run ops).lookupTransform target source t = .throw e) ∨
  ∃ m m', F.lookup (F.run D ops) target source t = .ok m ∧
    ((Buf.init D).run ops).lookupTransform target source t = .ok m' ∧
    m.parent = m'.parent ∧ m.child = m'.child ∧ m.stamp = m'.stamp ∧ (target = source → m = m') ∧
    (target ≠ source → ∃ s g r x y n k, IsFrame ((Buf.init D).run ops) source s ∧ IsFrame ((Buf.init D).run ops) target g ∧
      n ≤ 1000 ∧ k ≤ 1000 ∧
      Chain ((Buf.init D).run ops) m'.stamp s r x n ∧ Chain ((Buf.init D).run ops) m'.stamp g r y k ∧
      m.xf.rot.apart m'.xf.rot ≤ 2 * ((n + k : ℕ) + 1) * (10 * F.u + dq + 16 * F.η) ∧
      m.xf.trans.apart m'.xf.trans ≤
        4 * ((n + k : ℕ) + 1) ^ 2 * (10 * F.u + dq + 16 * F.η) * L + 2 * ((n + k : ℕ) + 1) * (dt + 40 * F.η))

end Tf2
