import Verif.Model.Keys
import Verif.Model.Hmac
import Verif.Model.Der
/-
xcrypto/ecdsa/ecdsa.go, xcrypto/ecdsa/rfc6979.go and xcrypto/signature_ecdsa.go. The curve is secp256k1 and the hash of
the nonce function SHA-256. `Verify` calls crypto/ecdsa of the Go standard library; for a curve that is not built in this
is the generic algorithm on the curve's own methods.
-/
namespace Toku.Ecdsa
open Toku.Curve Toku.Keys

/-- `BitLen()` -/
def bitLen (n : ℕ) : ℕ := if n = 0 then 0 else n.log2 + 1

/-- xcrypto/ecdsa/rfc6979.go:78-85 -/
def bits2int (bs : Bytes) (qlen : ℕ) : ℕ :=
  let v := natOfBE bs
  if bs.length * 8 > qlen then v / 2 ^ (bs.length * 8 - qlen) else v

/-- xcrypto/ecdsa/rfc6979.go:88-107 -/
def int2octets (v rolen : ℕ) : Bytes :=
  let out := natToBE v
  if out.length < rolen then List.replicate (rolen - out.length) 0 ++ out
  else if out.length > rolen then out.drop (out.length - rolen)
  else out

/-- xcrypto/ecdsa/rfc6979.go:110-117 -/
def bits2octets (bs : Bytes) (q qlen rolen : ℕ) : Bytes :=
  let z1 := bits2int bs qlen
  if z1 < q then int2octets z1 rolen else int2octets (z1 - q) rolen

variable [Hashes]

/-- xcrypto/ecdsa/rfc6979.go:54-57: the inner loop; `n` bounds the number of rounds. -/
def fill (k : Bytes) (want : ℕ) : ℕ → Bytes → Bytes → Bytes × Bytes
  | 0, v, t => (v, t)
  | n + 1, v, t =>
    if t.length < want then
      let v := hmac256 k v
      fill k want n v (t ++ v)
    else (v, t)

/-- xcrypto/ecdsa/rfc6979.go:49-66: the loop; `none` means that it has not returned after `fuel` rounds. Each round of
the inner loop adds a byte at least, so `qlen` rounds suffice. -/
def nonceLoop (q qlen : ℕ) : ℕ → Bytes → Bytes → Option ℕ
  | 0, _, _ => none
  | fuel + 1, k, v =>
    let (v, t) := fill k (qlen / 8) qlen v []
    let secret := bits2int t qlen
    if 1 ≤ secret ∧ secret < q then some secret
    else
      let k := hmac256 k (v ++ [0])
      let v := hmac256 k v
      nonceLoop q qlen fuel k v

/-- xcrypto/ecdsa/rfc6979.go:25-67. The buffers reused by `mac` are copies here: every `Sum` overwrites a slice whose
contents were consumed before. -/
def nonce (q : ℕ) (fuel : ℕ) (x : ℕ) (hash : Bytes) : Option ℕ :=
  let qlen := bitLen q
  let rolen := (qlen + 7) / 8
  let bx := int2octets x rolen ++ bits2octets hash q qlen rolen
  let v := List.replicate 32 1
  let k := List.replicate 32 0
  let k := hmac256 k (v ++ [0] ++ bx)
  let v := hmac256 k v
  let k := hmac256 k (v ++ [1] ++ bx)
  let v := hmac256 k v
  nonceLoop q qlen fuel k v

omit [Hashes] in
/-- xcrypto/ecdsa/ecdsa.go:68-81 -/
def hashToInt (hash : Bytes) : ℕ :=
  let orderBits := bitLen N
  let orderBytes := (orderBits + 7) / 8
  let hash := if hash.length > orderBytes then hash.take orderBytes else hash
  let v := natOfBE hash
  if hash.length * 8 > orderBits then v / 2 ^ (hash.length * 8 - orderBits) else v

def errRZero : Err := .other 30
def errSZero : Err := .other 31
def errVerify : Err := .other 32
/-- Not an error of the code: the nonce loop is still running after `fuel` rounds. -/
def errRunning : Err := .other 33

omit [Hashes] in
/-- xcrypto/ecdsa/ecdsa.go:25-53, from the nonce on. -/
def signWith (k d : ℕ) (hash : Bytes) : Res (ℤ × ℤ) := do
  let (x, _) ← baseMult (natToBE k)
  let r := x % N
  if r = 0 then .err errRZero
  else
    let e := hashToInt hash
    match Num.modInverse k N with
    | none => .panic
    | some kinv =>
      let s := ((d * r + e) * kinv) % N
      let s := if s > (N / 2 : ℕ) then N - s else s
      if s = 0 then .err errSZero else .ok (r, s)

/-- xcrypto/ecdsa/ecdsa.go:17-53 -/
def sign (fuel d : ℕ) (hash : Bytes) : Res (ℤ × ℤ) :=
  match nonce N fuel d hash with
  | none => .err errRunning
  | some k => signWith k d hash

omit [Hashes] in
/-- crypto/ecdsa `Verify`, called from xcrypto/ecdsa/ecdsa.go:57-59. -/
def verify (pub : PubKey) (hash : Bytes) (r s : ℤ) : Res Bool :=
  if r ≤ 0 ∨ s ≤ 0 then .ok false
  else if r ≥ N ∨ s ≥ N then .ok false
  else
    let e := hashToInt hash
    match Num.modInverse s N with
    | none => .panic
    | some w => do
      let u1 := (e * w) % N
      let u2 := (r * w) % N
      let (x1, y1) ← baseMult (natToBE u1.toNat)
      let (x2, y2) ← mult pub.x pub.y (natToBE u2.toNat)
      let (x, y) ← Curve.add x1 y1 x2 y2
      if x = 0 ∧ y = 0 then return false
      else return x % N == r

/-- xcrypto/signature_ecdsa.go:44-52 -/
def ecdsaSign (fuel : ℕ) (prv : PrvKey) (hash : Bytes) : Res Bytes := do
  let (r, s) ← sign fuel prv.d hash
  return Der.marshal r s

omit [Hashes] in
/-- xcrypto/signature_ecdsa.go:55-66 -/
def ecdsaVerify (pub : PubKey) (hash sig : Bytes) : Res Unit := do
  let (r, s) ← Der.unmarshal sig
  if ← verify pub hash r s then .ok () else .err errVerify

end Toku.Ecdsa
