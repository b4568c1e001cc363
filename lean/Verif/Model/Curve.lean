import Verif.Model.Num
import Verif.Model.Big
/-
xcrypto/secp256k1/secp256k1.go. `big.Int` values are integers; the methods take the curve prime as `curve.P`, here
the parameter `p`. `Lsh` by one bit is doubling.
-/
namespace Toku.Curve

/-- secp256k1.go:26-35 -/
def P : ℕ := 0xfffffffffffffffffffffffffffffffffffffffffffffffffffffffefffffc2f
def N : ℕ := 0xfffffffffffffffffffffffffffffffebaaedce6af48a03bbfd25e8cd0364141
def B : ℕ := 7
def Gx : ℤ := 0x79be667ef9dcbbac55a06295ce870b07029bfcdb2dce28d959f2815b16f81798
def Gy : ℤ := 0x483ada7726a3c4655da4fbfc0e1108a8fd17b448a68554199c47d08ffb10d4b8

/-- A point in Jacobian coordinates. -/
structure Jac where
  x : ℤ
  y : ℤ
  z : ℤ
  deriving DecidableEq, Repr

/-- secp256k1.go:49-62 -/
def isOnCurve (x y : ℤ) : Bool := (x * x * x + B) % P == (y * y) % P

/-- secp256k1.go:67-73 -/
def zForAffine (x y : ℤ) : ℤ := if x ≠ 0 ∨ y ≠ 0 then 1 else 0

/-- secp256k1.go:82-97. A nil inverse is dereferenced. -/
def affineFromJacobian (p : ℕ) (j : Jac) : Res (ℤ × ℤ) :=
  if j.z = 0 then .ok (0, 0)
  else match Num.modInverse j.z p with
    | none => .panic
    | some zinv => .ok ((j.x * (zinv * zinv)) % p, (j.y * (zinv * zinv * zinv)) % p)

/-- secp256k1.go:191-240 -/
def doubleJacobian (p : ℕ) (q : Jac) : Jac :=
  let a := (q.x * q.x) % p
  let b := (q.y * q.y) % p
  let c := (b * b) % p
  let d := ((q.x + b) * (q.x + b) - a - c) * 2
  let d := if d < 0 then d + p else d % p
  let e := (3 * a) % p
  let f := (e * e) % p
  let x3 := f - d * 2
  let x3 := if x3 < 0 then x3 + p else x3 % p
  let y3 := e * (d - x3) - c * 8
  let y3 := if y3 < 0 then y3 + p else y3 % p
  ⟨x3, y3, (q.y * q.z * 2) % p⟩

/-- secp256k1.go:108-181 -/
def addJacobian (p : ℕ) (q1 q2 : Jac) : Jac :=
  if q1.z = 0 then q2
  else if q2.z = 0 then q1
  else
    let z1z1 := (q1.z * q1.z) % p
    let z2z2 := (q2.z * q2.z) % p
    let u1 := (q1.x * z2z2) % p
    let u2 := (q2.x * z1z1) % p
    let h := u2 - u1
    let xEqual := h = 0
    let h := if h < 0 then h + p else h
    let i := (h * 2) * (h * 2)
    let j := h * i
    let s1 := (q1.y * q2.z * z2z2) % p
    let s2 := (q2.y * q1.z * z1z1) % p
    let r := s2 - s1
    let r := if r < 0 then r + p else r
    let yEqual := r = 0
    if xEqual ∧ yEqual then doubleJacobian p q1
    else
      let r := r * 2
      let v := u1 * i
      let x3 := (r * r - j - v - v) % p
      let y3 := (r * (v - x3) - s1 * j * 2) % p
      let z3 := (((q1.z + q2.z) * (q1.z + q2.z) - z1z1 - z2z2) * h) % p
      ⟨x3, y3, z3⟩

/-- secp256k1.go:99-103 -/
def addPoint (p : ℕ) (x1 y1 x2 y2 : ℤ) : Res (ℤ × ℤ) :=
  affineFromJacobian p (addJacobian p ⟨x1, y1, zForAffine x1 y1⟩ ⟨x2, y2, zForAffine x2 y2⟩)

/-- secp256k1.go:184-187 -/
def doublePoint (p : ℕ) (x1 y1 : ℤ) : Res (ℤ × ℤ) :=
  affineFromJacobian p (doubleJacobian p ⟨x1, y1, zForAffine x1 y1⟩)

/-- The loop over the bits of a byte, most significant first, secp256k1.go:247-255. -/
def byteLoop (p : ℕ) (b : Jac) : ℕ → UInt8 → Jac → Jac
  | 0, _, q => q
  | n + 1, byte, q =>
    let q := doubleJacobian p q
    let q := if byte &&& 0x80 = 0x80 then addJacobian p b q else q
    byteLoop p b n (byte <<< 1) q

/-- secp256k1.go:243-257 -/
def scalarMult (p : ℕ) (bx bY : ℤ) (k : Bytes) : Res (ℤ × ℤ) :=
  affineFromJacobian p (k.foldl (fun q byte => byteLoop p ⟨bx, bY, 1⟩ 8 byte q) ⟨0, 0, 0⟩)

/-- `Add`, `Double`, `ScalarMult` and `ScalarBaseMult` of secp256k1, secp256k1.go:99-103, 184-187, 243-262. -/
def add (x1 y1 x2 y2 : ℤ) : Res (ℤ × ℤ) := addPoint P x1 y1 x2 y2
def double (x1 y1 : ℤ) : Res (ℤ × ℤ) := doublePoint P x1 y1
def mult (x y : ℤ) (k : Bytes) : Res (ℤ × ℤ) := scalarMult P x y k
def baseMult (k : Bytes) : Res (ℤ × ℤ) := scalarMult P Gx Gy k

end Toku.Curve
