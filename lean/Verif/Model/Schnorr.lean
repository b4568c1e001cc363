import Verif.Model.Keys
import Verif.Model.Hash
/-
xcrypto/schnorr/schnorr.go and xcrypto/signature_schnorr.go, on secp256k1.
-/
namespace Toku.Schnorr
open Toku.Curve Toku.Keys

/-- `big.Jacobi(y, P)` of math/big, for the prime P: by Euler's criterion. -/
def jacobi (y : ℤ) : ℤ :=
  let r := Num.powMod P 256 (y % P).toNat ((P - 1) / 2)
  if r = 0 then 0 else if r = 1 then 1 else -1

/-- xcrypto/schnorr/schnorr.go:144-148. The slice expression panics on more than 32 bytes. The sign is lost. -/
def intToByte (i : ℤ) : Res Bytes :=
  let b := intBytes i
  if b.length > 32 then .panic else .ok (List.replicate (32 - b.length) 0 ++ b)

def errK0 : Err := .other 40
def errVerify : Err := .other 41

section
variable [Hashes]

/-- xcrypto/schnorr/schnorr.go:112-120 -/
def getK0 (m d : Bytes) : Res ℕ :=
  let k0 := natOfBE (Hashes.sha256 (d ++ m)) % N
  if k0 = 0 then .err errK0 else .ok k0

/-- xcrypto/schnorr/schnorr.go:134-141 -/
def getE (m : Bytes) (px py : ℤ) (rX : Bytes) : Res ℕ := do
  let sec ← secMarshal px py
  return natOfBE (Hashes.sha256 (rX ++ sec ++ m)) % N

end

/-- xcrypto/schnorr/schnorr.go:123-131. The code stores the result in `k0` too; the callers do not use it afterwards. -/
def getK (ry : ℤ) (k0 : ℕ) : ℤ := if jacobi ry = 1 then k0 else N - k0

section
variable [Hashes]

/-- xcrypto/schnorr/schnorr.go:32-71. The private key is the number only. Erasing the secrets is left out. -/
def sign (d : ℕ) (m : Bytes) : Res (ℤ × ℤ) := do
  let db ← intToByte d
  let k0 ← getK0 m db
  let (rx, ry) ← baseMult (natToBE k0)
  let rX ← intToByte rx
  let k := getK ry k0
  let (px, py) ← baseMult db
  let e ← getE m px py rX
  return (rx, (k + e * d) % N)

/-- xcrypto/schnorr/schnorr.go:87-109 -/
def verify (pub : PubKey) (m : Bytes) (r s : ℤ) : Res Bool :=
  if r > P ∨ s > N then .ok false
  else do
    let rb ← intToByte r
    let e ← getE m pub.x pub.y rb
    let sb ← intToByte s
    let (sgx, sgy) ← baseMult sb
    let eb ← intToByte e
    let (epx, epy) ← mult pub.x pub.y eb
    let (rx, ry) ← Curve.add sgx sgy epx (P - epy)
    return !((rx == 0 && ry == 0) || jacobi ry != 1 || rx != r)

/-- xcrypto/signature_schnorr.go:28-33. The first copy is of 32 bytes into 32. -/
def serialize (r s : ℤ) : Res Bytes := do
  let rb ← intToByte r
  let sb ← intToByte s
  return rb ++ sb

/-- xcrypto/signature_schnorr.go:36-40. For fewer than 32 bytes the slice expression panics (unless the slice has
capacity for more, which is left out). -/
def deserialize (sig : Bytes) : Res (ℤ × ℤ) :=
  if sig.length < 32 then .panic
  else .ok ((natOfBE (sig.take 32) : ℕ), (natOfBE (sig.drop 32) : ℕ))

/-- xcrypto/signature_schnorr.go:43-51 -/
def schnorrSign (prv : PrvKey) (hash : Bytes) : Res Bytes := do
  let (r, s) ← sign prv.d hash
  serialize r s

/-- xcrypto/signature_schnorr.go:54-65 -/
def schnorrVerify (pub : PubKey) (hash sig : Bytes) : Res Unit := do
  let (r, s) ← deserialize sig
  if ← verify pub hash r s then .ok () else .err errVerify

end

end Toku.Schnorr
