import Verif.Model.Curve
/-
xcrypto/pubkey.go, xcrypto/prvkey.go and xcrypto/secp256k1/sec.go. The curve is always secp256k1, whose `BitSize` is
256, so `byteLen` is 32.
-/
namespace Toku.Num

/-- `a ^ e % m`, for exponents below `2 ^ fuel`: `Exp` of math/big. -/
def powMod (m : ℕ) : ℕ → ℕ → ℕ → ℕ
  | 0, _, _ => 1 % m
  | f + 1, a, e => if e = 0 then 1 % m else
    if e % 2 = 1 then a * powMod m f (a * a % m) (e / 2) % m else powMod m f (a * a % m) (e / 2)

/-- `new(big.Int).ModSqrt(a, p)` of math/big for a prime `p` congruent to 3 modulo 4, below 2^256: the power
(p+1)/4 if it is a square root of `a`, nil (`none`) if `a` is not a square. -/
def modSqrt (a p : ℕ) : Option ℕ :=
  let r := powMod p 256 (a % p) ((p + 1) / 4)
  if r * r % p = a % p then some r else none

end Toku.Num

namespace Toku.Keys
open Toku.Curve

/-- xcrypto/pubkey.go:30 (`ecdsa.PublicKey`). The curve is left out. -/
structure PubKey where
  x : ℤ
  y : ℤ
  deriving DecidableEq, Repr

/-- xcrypto/prvkey.go:22 (`ecdsa.PrivateKey`): the embedded public key and the number `D`. -/
structure PrvKey where
  pub : PubKey
  d : ℕ
  deriving DecidableEq, Repr

/-- `Bytes()` of a `big.Int`: the bytes of the absolute value. -/
def intBytes (x : ℤ) : Bytes := natToBE x.natAbs

/-- `Bit(0) == 1` of a `big.Int`. -/
def isOdd (y : ℤ) : Bool := y % 2 == 1

/-- xcrypto/secp256k1/sec.go:15-29. A coordinate of 33 bytes overwrites the format byte, a longer one panics. -/
def secMarshal (x y : ℤ) : Res Bytes :=
  let format : UInt8 := if isOdd y then 3 else 2
  let xb := intBytes x
  if xb.length > 33 then .panic
  else .ok ((format :: List.replicate 32 0).take (33 - xb.length) ++ xb)

/-- xcrypto/secp256k1/sec.go:34-56. `none` is the nil result. If there is no square root, `Y` keeps its value 0. -/
def secUnmarshal (data : Bytes) : Res (Option (ℤ × ℤ)) :=
  match data with
  | [] => .panic
  | f :: rest =>
    if f &&& 0xfe ≠ 2 then .ok none
    else
      let x := natOfBE rest
      let y : ℤ := ((Num.modSqrt (x ^ 3 + B) P).getD 0 : ℕ)
      let y := if isOdd y ≠ (f &&& 1 == 1) then P - y else y
      .ok (some (x, y))

def errPubEmpty : Err := .other 10
def errPubFormat : Err := .other 11
def errPubOdd : Err := .other 12
def errPubSize : Err := .other 13
def errPubRange : Err := .other 14
def errPubCurve : Err := .other 15

/-- xcrypto/pubkey.go:43-71: the coordinates before they are checked. -/
def pubCoords (key : Bytes) : Res (ℤ × ℤ) :=
  match key with
  | [] => .err errPubEmpty
  | f :: rest =>
    let ybit := f &&& 1 == 1
    let format := f &&& 0xfe
    if key.length = 65 then
      if format ≠ 4 ∧ format ≠ 6 then .err errPubFormat
      else
        let x : ℤ := (natOfBE (rest.take 32) : ℕ)
        let y : ℤ := (natOfBE (rest.drop 32) : ℕ)
        if format = 6 ∧ ybit ≠ isOdd y then .err errPubOdd
        else .ok (x, y)
    else if key.length = 33 then do
      match ← secUnmarshal key with
      | none => .err errPubFormat
      | some xy => return xy
    else .err errPubSize

/-- xcrypto/pubkey.go:33-85 -/
def pubFromBytes (key : Bytes) : Res PubKey := do
  let (x, y) ← pubCoords key
  if x ≥ P then .err errPubRange
  else if y ≥ P then .err errPubRange
  else if isOnCurve x y then .ok ⟨x, y⟩
  else .err errPubCurve

/-- xcrypto/pubkey.go:98-111 -/
def pubAdd (p p2 : PubKey) : Res PubKey := do
  let (x, y) ← Curve.add p.x p.y p2.x p2.y
  return ⟨x, y⟩

/-- A coordinate copied to the end of 32 zero bytes, xcrypto/pubkey.go:127-135, 161-169. -/
def pad32 (x : ℤ) : Res Bytes :=
  let b := intBytes x
  if b.length > 32 then .panic else .ok (List.replicate (32 - b.length) 0 ++ b)

/-- xcrypto/pubkey.go:119-137 -/
def serializeUncompressed (p : PubKey) : Res Bytes := do
  let xb ← pad32 p.x
  let yb ← pad32 p.y
  return 4 :: (xb ++ yb)

/-- xcrypto/pubkey.go:114-116, 139-142 -/
def serializeCompressed (p : PubKey) : Res Bytes := secMarshal p.x p.y

/-- xcrypto/pubkey.go:150-171 -/
def serializeHybrid (p : PubKey) : Res Bytes := do
  let xb ← pad32 p.x
  let yb ← pad32 p.y
  return (if isOdd p.y then 7 else 6) :: (xb ++ yb)

/-- xcrypto/prvkey.go:25-37 -/
def prvFromBytes (key : Bytes) : Res PrvKey := do
  let (x, y) ← baseMult key
  return ⟨⟨x, y⟩, natOfBE key⟩

/-- xcrypto/prvkey.go:46-52 -/
def prvAdd (p : PrvKey) (n2 : Bytes) : Res PrvKey := prvFromBytes (natToBE ((p.d + natOfBE n2) % N))

/-- xcrypto/prvkey.go:57-66 -/
def prvSerialize (p : PrvKey) : Bytes :=
  let db := natToBE p.d
  List.replicate (32 - db.length) 0 ++ db

end Toku.Keys
