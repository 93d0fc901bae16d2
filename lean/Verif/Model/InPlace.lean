import Verif.Model.AxisAngle

/-!
# Operations that write into their operands

tf2/include/tf2/LinearMath. The functions modelled elsewhere as functions of values take their arguments by reference, and
the operand that is written may be the same object as one that is read, or contain it. Here memory is an array of scalar
cells and the functions are sequences of reads and writes: a `Vector3` or `Quaternion` at address `a` takes the cells
`a .. a+3`, a `Matrix3x3` at `a` three such (rows at `a`, `a+4`, `a+8`), a `Transform` a matrix followed by the origin at
`a+12`. (Uninitialised cells have some value.)
-/
namespace Tf2.InPlace

/-- Memory. -/
abbrev Mem (K : Type) := Nat → K

section
variable {K : Type}

/-- Writing one cell. -/
def write (h : Mem K) (a : Nat) (x : K) : Mem K := fun c => if c = a then x else h c

/-- An argument of type `const tf2Scalar&`: a cell, or a temporary, which is no cell of any object. -/
inductive Arg (K : Type) where
  | ref (a : Nat)
  | val (x : K)

/-- The value read through an argument. -/
def Arg.read (h : Mem K) : Arg K → K
  | .ref a => h a
  | .val x => x

/-- The vector at an address: `x()`, `y()`, `z()`, Vector3.h:261-266. -/
def vec (h : Mem K) (a : Nat) : Vec3 K := ⟨h a, h (a + 1), h (a + 2)⟩
/-- The quaternion at an address: `x()` .. `w()`, QuadWord.h:73-79. -/
def quat (h : Mem K) (a : Nat) : Quat K := ⟨h a, h (a + 1), h (a + 2), h (a + 3)⟩
/-- The matrix at an address: `m_el`, Matrix3x3.h:36. -/
def mat (h : Mem K) (a : Nat) : Mat3 K := ⟨vec h a, vec h (a + 4), vec h (a + 8)⟩
/-- The transform at an address: `m_basis`, `m_origin`, Transform.h:35-37. -/
def xform (h : Mem K) (a : Nat) : Xform K := ⟨mat h a, vec h (a + 12)⟩

/-- `Vector3` copy (generated by the compiler): all four cells. -/
def copyVec (h : Mem K) (a b : Nat) : Mem K :=
  let h := write h a (h b)
  let h := write h (a + 1) (h (b + 1))
  let h := write h (a + 2) (h (b + 2))
  write h (a + 3) (h (b + 3))
/-- `Matrix3x3::operator=`, Matrix3x3.h:72-78. -/
def copyMat (h : Mem K) (a b : Nat) : Mem K :=
  let h := copyVec h a b
  let h := copyVec h (a + 4) (b + 4)
  copyVec h (a + 8) (b + 8)
/-- `Transform::operator=`, Transform.h:67-72. -/
def copyXform (h : Mem K) (a b : Nat) : Mem K :=
  let h := copyMat h a b
  copyVec h (a + 12) (b + 12)

/-- `setValue(x, y, z, w)`, Vector3.h:608-614 and QuadWord.h:123-129. -/
def setValue4 (h : Mem K) (a : Nat) (x y z w : Arg K) : Mem K :=
  let h := write h a (x.read h)
  let h := write h (a + 1) (y.read h)
  let h := write h (a + 2) (z.read h)
  write h (a + 3) (w.read h)

/-- `operator==`, Vector3.h:276-279: four comparisons, of the fourth cell first. -/
def eqVec [DecidableEq K] (h : Mem K) (a b : Nat) : Bool :=
  decide (h (a + 3) = h (b + 3)) && decide (h (a + 2) = h (b + 2)) && decide (h (a + 1) = h (b + 1)) && decide (h a = h b)

end

section
variable {K : Type} [CommRing K]

/-- `setValue(x, y, z)`, Vector3.h:308-314 and QuadWord.h:102-108. -/
def setValue (h : Mem K) (a : Nat) (x y z : Arg K) : Mem K :=
  let h := write h a (x.read h)
  let h := write h (a + 1) (y.read h)
  let h := write h (a + 2) (z.read h)
  write h (a + 3) 0

/-- `operator+=`, Vector3.h:90-95. -/
def addVec (h : Mem K) (a b : Nat) : Mem K :=
  let h := write h a (h a + h b)
  let h := write h (a + 1) (h (a + 1) + h (b + 1))
  write h (a + 2) (h (a + 2) + h (b + 2))
/-- `operator-=`, Vector3.h:100-104. -/
def subVec (h : Mem K) (a b : Nat) : Mem K :=
  let h := write h a (h a - h b)
  let h := write h (a + 1) (h (a + 1) - h (b + 1))
  write h (a + 2) (h (a + 2) - h (b + 2))
/-- `operator*=(const Vector3&)`, Vector3.h:242-246. -/
def mulVec (h : Mem K) (a b : Nat) : Mem K :=
  let h := write h a (h a * h b)
  let h := write h (a + 1) (h (a + 1) * h (b + 1))
  write h (a + 2) (h (a + 2) * h (b + 2))
/-- `operator*=(const tf2Scalar&)`, Vector3.h:107-111. -/
def scaleVec (h : Mem K) (a : Nat) (s : Arg K) : Mem K :=
  let h := write h a (h a * s.read h)
  let h := write h (a + 1) (h (a + 1) * s.read h)
  write h (a + 2) (h (a + 2) * s.read h)
/-- `setInterpolate3(v0, v1, rt)`, Vector3.h:220-228: `rt` is passed by value; the fourth cell is left. -/
def setInterpolate3 (h : Mem K) (a v0 v1 : Nat) (rt : K) : Mem K :=
  let s := 1 - rt
  let h := write h a (s * h v0 + rt * h v1)
  let h := write h (a + 1) (s * h (v0 + 1) + rt * h (v1 + 1))
  write h (a + 2) (s * h (v0 + 2) + rt * h (v1 + 2))
/-- `getSkewSymmetricMatrix(v0, v1, v2)`, Vector3.h:316-321: `-z()` is a temporary, `y()` a reference. -/
def skew (h : Mem K) (a v0 v1 v2 : Nat) : Mem K :=
  let h := setValue h v0 (.val 0) (.val (-h (a + 2))) (.ref (a + 1))
  let h := setValue h v1 (.ref (a + 2)) (.val 0) (.val (-h a))
  setValue h v2 (.val (-h (a + 1))) (.ref a) (.val 0)

/-- `Quaternion::operator+=`, Quaternion.h:121-125. -/
def addQuat (h : Mem K) (a b : Nat) : Mem K :=
  let h := write h a (h a + h b)
  let h := write h (a + 1) (h (a + 1) + h (b + 1))
  let h := write h (a + 2) (h (a + 2) + h (b + 2))
  write h (a + 3) (h (a + 3) + h (b + 3))
/-- `Quaternion::operator-=`, Quaternion.h:129-133. -/
def subQuat (h : Mem K) (a b : Nat) : Mem K :=
  let h := write h a (h a - h b)
  let h := write h (a + 1) (h (a + 1) - h (b + 1))
  let h := write h (a + 2) (h (a + 2) - h (b + 2))
  write h (a + 3) (h (a + 3) - h (b + 3))
/-- `Quaternion::operator*=(const tf2Scalar&)`, Quaternion.h:137-141. -/
def scaleQuat (h : Mem K) (a : Nat) (s : Arg K) : Mem K :=
  let h := write h a (h a * s.read h)
  let h := write h (a + 1) (h (a + 1) * s.read h)
  let h := write h (a + 2) (h (a + 2) * s.read h)
  write h (a + 3) (h (a + 3) * s.read h)
/-- `Quaternion::operator*=(const Quaternion&)`, Quaternion.h:146-153: the four arguments of `setValue` are temporaries. -/
def mulQuat (h : Mem K) (a q : Nat) : Mem K :=
  setValue4 h a
    (.val (h (a + 3) * h q + h a * h (q + 3) + h (a + 1) * h (q + 2) - h (a + 2) * h (q + 1)))
    (.val (h (a + 3) * h (q + 1) + h (a + 1) * h (q + 3) + h (a + 2) * h q - h a * h (q + 2)))
    (.val (h (a + 3) * h (q + 2) + h (a + 2) * h (q + 3) + h a * h (q + 1) - h (a + 1) * h q))
    (.val (h (a + 3) * h (q + 3) - h a * h q - h (a + 1) * h (q + 1) - h (a + 2) * h (q + 2)))

/-- `Matrix3x3::setValue` with nine temporaries, given as a matrix, Matrix3x3.h:137-144; also what copying a temporary
matrix into a variable does. -/
def setMat (h : Mem K) (a : Nat) (m : Mat3 K) : Mem K :=
  let h := setValue h a (.val m.r0.x) (.val m.r0.y) (.val m.r0.z)
  let h := setValue h (a + 4) (.val m.r1.x) (.val m.r1.y) (.val m.r1.z)
  setValue h (a + 8) (.val m.r2.x) (.val m.r2.y) (.val m.r2.z)
/-- Copying a temporary vector into a variable. -/
def setVec (h : Mem K) (a : Nat) (v : Vec3 K) : Mem K := setValue h a (.val v.x) (.val v.y) (.val v.z)

/-- `Matrix3x3::operator*=`, Matrix3x3.h:524-531: the arguments of `setValue` are temporaries. -/
def mulMat (h : Mem K) (a m : Nat) : Mem K := setMat h a ((mat h a).mul (mat h m))

/-- `Transform::operator*=`, Transform.h:179-184. The temporary `m_basis * t.m_origin` is a value here. -/
def mulXform (h : Mem K) (a t : Nat) : Mem K :=
  let v := (mat h a).mulVec (vec h (t + 12))
  let h := write h (a + 12) (h (a + 12) + v.x)
  let h := write h (a + 13) (h (a + 13) + v.y)
  let h := write h (a + 14) (h (a + 14) + v.z)
  mulMat h a t

/-- `Transform::mult(t1, t2)`, Transform.h:78-81. -/
def mult (h : Mem K) (a t1 t2 : Nat) : Mem K :=
  let h := setMat h a ((mat h t1).mul (mat h t2))
  setVec h (a + 12) ((xform h t1).apply (vec h (t2 + 12)))

/-- `Matrix3x3::getOpenGLSubMatrix(m)`, Matrix3x3.h:227-241. -/
def getSubGL (h : Mem K) (a m : Nat) : Mem K :=
  let h := write h m (h a)
  let h := write h (m + 1) (h (a + 4))
  let h := write h (m + 2) (h (a + 8))
  let h := write h (m + 3) 0
  let h := write h (m + 4) (h (a + 1))
  let h := write h (m + 5) (h (a + 5))
  let h := write h (m + 6) (h (a + 9))
  let h := write h (m + 7) 0
  let h := write h (m + 8) (h (a + 2))
  let h := write h (m + 9) (h (a + 6))
  let h := write h (m + 10) (h (a + 10))
  write h (m + 11) 0
/-- `Transform::getOpenGLMatrix(m)`, Transform.h:138-145. -/
def getGL (h : Mem K) (a m : Nat) : Mem K :=
  let h := getSubGL h a m
  let h := write h (m + 12) (h (a + 12))
  let h := write h (m + 13) (h (a + 13))
  let h := write h (m + 14) (h (a + 14))
  write h (m + 15) 1
/-- `Matrix3x3::setFromOpenGLSubMatrix(m)`, Matrix3x3.h:120-126. -/
def setSubGL (h : Mem K) (a m : Nat) : Mem K :=
  let h := setValue h a (.ref m) (.ref (m + 4)) (.ref (m + 8))
  let h := setValue h (a + 4) (.ref (m + 1)) (.ref (m + 5)) (.ref (m + 9))
  setValue h (a + 8) (.ref (m + 2)) (.ref (m + 6)) (.ref (m + 10))
/-- `Transform::setFromOpenGLMatrix(m)`, Transform.h:130-134. -/
def setGL (h : Mem K) (a m : Nat) : Mem K :=
  let h := setSubGL h a m
  setValue h (a + 12) (.ref (m + 12)) (.ref (m + 13)) (.ref (m + 14))

end

/-- `operator/=(const tf2Scalar&)`, Vector3.h:115-119: the quotient is a temporary (division by zero asserts in debug
builds only; here `1/0 = 0`). -/
def divVec {F : Type} [Field F] (h : Mem F) (a : Nat) (s : Arg F) : Mem F := scaleVec h a (.val (1 / s.read h))
/-- `Quaternion::operator/=(const tf2Scalar&)`, Quaternion.h:199-203. -/
def divQuat {F : Type} [Field F] (h : Mem F) (a : Nat) (s : Arg F) : Mem F := scaleQuat h a (.val (1 / s.read h))

/-- `tf2PlaneSpace1(n, p, q)`, Vector3.h:656-674. -/
noncomputable def planeSpace (h : Mem ℝ) (n p q : Nat) : Mem ℝ :=
  if |h (n + 2)| > sqrt12 then
    let a := h (n + 1) * h (n + 1) + h (n + 2) * h (n + 2)
    let k := 1 / Real.sqrt a
    let h := setValue h p (.val 0) (.val (-h (n + 2) * k)) (.val (h (n + 1) * k))
    setValue h q (.val (a * k)) (.val (-h n * h (p + 2))) (.val (h n * h (p + 1)))
  else
    let a := h n * h n + h (n + 1) * h (n + 1)
    let k := 1 / Real.sqrt a
    let h := setValue h p (.val (-h (n + 1) * k)) (.val (h n * k)) (.val 0)
    setValue h q (.val (-h (n + 2) * h (p + 1))) (.val (h (n + 2) * h p)) (.val (a * k))

/-- `tf2SwapScalarEndian(sourceVal, destVal)`, Vector3.h:621-633, on memory of bytes. -/
def swapScalar {B : Type} (h : Mem B) (src dest : Nat) : Mem B :=
  let h := write h dest (h (src + 7))
  let h := write h (dest + 1) (h (src + 6))
  let h := write h (dest + 2) (h (src + 5))
  let h := write h (dest + 3) (h (src + 4))
  let h := write h (dest + 4) (h (src + 3))
  let h := write h (dest + 5) (h (src + 2))
  let h := write h (dest + 6) (h (src + 1))
  write h (dest + 7) (h src)

/-- `tf2SwapVector3Endian(sourceVec, destVec)`, Vector3.h:635-642; scalar `i` takes the bytes `8*i .. 8*i+7`. -/
def swapVec {B : Type} (h : Mem B) (src dest : Nat) : Mem B :=
  let h := swapScalar h src dest
  let h := swapScalar h (src + 8) (dest + 8)
  let h := swapScalar h (src + 16) (dest + 16)
  swapScalar h (src + 24) (dest + 24)

/-- Copying 32 bytes, one after the other. -/
def copyBytes {B : Type} (h : Mem B) (a b : Nat) : Nat → Mem B
  | 0 => h
  | n + 1 => let h := copyBytes h a b n; write h (a + n) (h (b + n))

/-- `tf2UnSwapVector3Endian(vector)`, Vector3.h:645-654; the local `swappedVec` is at `tmp`. -/
def unSwapVec {B : Type} (h : Mem B) (v tmp : Nat) : Mem B :=
  let h := swapVec h v tmp
  copyBytes h v tmp 32

end Tf2.InPlace
