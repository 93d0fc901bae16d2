import Verif.Model.LinearMath

/-!
# Smallest, largest, clamping, selecting and swapping bytes

tf2/include/tf2/LinearMath/MinMax.h, Vector3.h, Scalar.h. Values are elements of a linear order: NaN is not modelled.
-/
namespace Tf2.MinMax

section
variable {K : Type} [LinearOrder K]

/-- `tf2Min`, MinMax.h:21-25. -/
def tf2Min (a b : K) : K := if a < b then a else b
/-- `tf2Max`, MinMax.h:27-31. -/
def tf2Max (a b : K) : K := if a > b then a else b
/-- `GEN_clamped`, MinMax.h:33-37. -/
def clamped (a lb ub : K) : K := if a < lb then lb else (if ub < a then ub else a)
/-- `tf2SetMin`: the new value of `a`, MinMax.h:39-46. -/
def setMin (a b : K) : K := if b < a then b else a
/-- `tf2SetMax`: the new value of `a`, MinMax.h:48-55. -/
def setMax (a b : K) : K := if a < b then b else a
/-- `GEN_clamp`: the new value of `a`, MinMax.h:57-68. -/
def clamp (a lb ub : K) : K := if a < lb then lb else if ub < a then ub else a

/-- `minAxis`, Vector3.h:198-201. -/
def minAxis (v : Vec3 K) : Fin 3 := if v.x < v.y then (if v.x < v.z then 0 else 2) else (if v.y < v.z then 1 else 2)
/-- `maxAxis`, Vector3.h:205-208. -/
def maxAxis (v : Vec3 K) : Fin 3 := if v.x < v.y then (if v.y < v.z then 2 else 1) else (if v.x < v.z then 2 else 0)

/-- `Vector3::setMin`, Vector3.h:300-306. -/
def vecSetMin (v o : Vec3 K) : Vec3 K := ⟨setMin v.x o.x, setMin v.y o.y, setMin v.z o.z⟩
/-- `Vector3::setMax`, Vector3.h:289-295. -/
def vecSetMax (v o : Vec3 K) : Vec3 K := ⟨setMax v.x o.x, setMax v.y o.y, setMax v.z o.z⟩

/-- `maxAxis4`, Vector3.h:519-547; `large` is `TF2_LARGE_FLOAT`, negated here. The `if`s are four steps of the same
kind; the last one does not store `maxVal`, which is not read again. -/
def maxAxis4 (negLarge : K) (v : Fin 4 → K) : Int :=
  let s : Int × K := (-1, negLarge)
  let s := if v 0 > s.2 then (0, v 0) else s
  let s := if v 1 > s.2 then (1, v 1) else s
  let s := if v 2 > s.2 then (2, v 2) else s
  if v 3 > s.2 then 3 else s.1

/-- `minAxis4`, Vector3.h:550-577. -/
def minAxis4 (large : K) (v : Fin 4 → K) : Int :=
  let s : Int × K := (-1, large)
  let s := if v 0 < s.2 then (0, v 0) else s
  let s := if v 1 < s.2 then (1, v 1) else s
  let s := if v 2 < s.2 then (2, v 2) else s
  if v 3 < s.2 then 3 else s.1

end

/-- `absolute()`, Vector3.h:172-178. -/
def absolute (v : Vec3 ℝ) : Vec3 ℝ := ⟨|v.x|, |v.y|, |v.z|⟩
/-- `furthestAxis()`, Vector3.h:210-213. -/
noncomputable def furthestAxis (v : Vec3 ℝ) : Fin 3 := minAxis (absolute v)
/-- `closestAxis()`, Vector3.h:215-218. -/
noncomputable def closestAxis (v : Vec3 ℝ) : Fin 3 := maxAxis (absolute v)
/-- `closestAxis4()`, Vector3.h:580-583, with `TF2_LARGE_FLOAT` from Scalar.h:161. -/
noncomputable def closestAxis4 (v : Fin 4 → ℝ) : Int := maxAxis4 (-10 ^ 30 : ℝ) (fun i => |v i|)

/-- `tf2Select(unsigned, unsigned, unsigned)`, Scalar.h:267-276; `none`: `-(int)condition` overflows, undefined. The
right shift of a negative number is arithmetic, as the comment in the code supposes. -/
def tf2Select (condition valueIfNonZero valueIfZero : BitVec 32) : Option (BitVec 32) :=
  if condition = BitVec.intMin 32 then none
  else
    let testNz := (condition ||| -condition).sshiftRight 31
    let testEqz := ~~~testNz
    some ((valueIfNonZero &&& testNz) ||| (valueIfZero &&& testEqz))

/-- `tf2SwapEndian(unsigned)`, Scalar.h:301-304. -/
def swapEndian (val : BitVec 32) : BitVec 32 :=
  ((val &&& 0xff000000#32) >>> 24) ||| ((val &&& 0x00ff0000#32) >>> 8) ||| ((val &&& 0x0000ff00#32) <<< 8) |||
    ((val &&& 0x000000ff#32) <<< 24)

/-- `tf2SwapEndian(unsigned short)`, Scalar.h:306-309: the operators work on `int`s, then the result is cut to 16 bits. -/
def swapEndian16 (val : BitVec 16) : BitVec 16 :=
  let v := val.setWidth 32
  (((v &&& 0xff00#32) >>> 8) ||| ((v &&& 0x00ff#32) <<< 8)).setWidth 16

end Tf2.MinMax
