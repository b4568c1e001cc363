import Verif.Model.Big
import Mathlib.Data.Int.Notation
import Mathlib.Data.Nat.Notation
/-
encoding/asn1 of the Go standard library, as used by xcrypto/signature_ecdsa.go:29-41: `Marshal` and `Unmarshal` of a
structure of two `*big.Int`. The package is outside the repository; the definitions follow its source (asn1.go,
marshal.go): minimal lengths and integers are required, bytes after the two integers inside the sequence and bytes
after the sequence are accepted. Error texts are not modelled.
-/
namespace Toku.Der

/-- The length octets, marshal.go `appendTagAndLength`: one byte below 128, else the number of bytes with the top bit set
and the bytes. `byte(numBytes)` is truncated. -/
def lenBytes (n : ℕ) : Bytes :=
  if n < 128 then [UInt8.ofNat n] else
    let b := natToBE n
    UInt8.ofNat (0x80 + b.length) :: b

/-- marshal.go `makeBigInt`: two's complement, shortest form. -/
def intContent (x : ℤ) : Bytes :=
  if x < 0 then
    let b := (natToBE (-x - 1).toNat).map (~~~ ·)
    match b with
    | [] => [0xff]
    | c :: _ => if c &&& 0x80 = 0 then 0xff :: b else b
  else
    let b := natToBE x.toNat
    match b with
    | [] => [0]
    | c :: _ => if c &&& 0x80 = 0 then b else 0 :: b

/-- A tag, the length of the content, the content. -/
def tlv (tag : UInt8) (content : Bytes) : Bytes := tag :: (lenBytes content.length ++ content)

/-- `asn1.Marshal(SignatureEcdsa{R, S})`. -/
def marshal (r s : ℤ) : Bytes := tlv 0x30 (tlv 2 (intContent r) ++ tlv 2 (intContent s))

def errSyntax : Err := .other 20

/-- asn1.go `parseTagAndLength`, the long form of lengths: `n` more bytes, `acc` read so far. -/
def longLen : ℕ → ℕ → Bytes → Res (ℕ × Bytes)
  | 0, acc, bs => if acc < 0x80 then .err errSyntax else .ok (acc, bs)
  | _ + 1, _, [] => .err errSyntax
  | n + 1, acc, b :: bs =>
    if acc ≥ 2 ^ 23 then .err errSyntax
    else
      let acc := acc * 256 + b.toNat
      if acc = 0 then .err errSyntax else longLen n acc bs

/-- asn1.go `parseTagAndLength`, the length: the length and what follows it. -/
def readLen (l : UInt8) (rest : Bytes) : Res (ℕ × Bytes) :=
  if l &&& 0x80 = 0 then .ok (l.toNat, rest)
  else if l &&& 0x7f = 0 then .err errSyntax
  else longLen (l &&& 0x7f).toNat 0 rest

/-- asn1.go `parseTagAndLength` and the checks of `parseField` for a given tag byte (class, constructed bit and tag
number): the content and what follows. Any other first byte is an error. -/
def parseTlv (tag : UInt8) (bs : Bytes) : Res (Bytes × Bytes) :=
  match bs with
  | [] => .err errSyntax
  | [_] => .err errSyntax
  | t :: l :: rest => do
    let (len, rest) ← readLen l rest
    if t ≠ tag then .err errSyntax
    else if rest.length < len then .err errSyntax
    else .ok (rest.take len, rest.drop len)

/-- asn1.go `parseBigInt`, with `checkInteger`. -/
def parseInt (bs : Bytes) : Res ℤ :=
  match bs with
  | [] => .err errSyntax
  | [c] => .ok (if c &&& 0x80 = 0 then c.toNat else -((~~~ c).toNat + 1 : ℕ))
  | c :: d :: rest =>
    if (c = 0 ∧ d &&& 0x80 = 0) ∨ (c = 0xff ∧ d &&& 0x80 = 0x80) then .err errSyntax
    else if c &&& 0x80 = 0x80 then .ok (-(natOfBE ((c :: d :: rest).map (~~~ ·)) + 1 : ℕ))
    else .ok (natOfBE (c :: d :: rest) : ℕ)

/-- `asn1.Unmarshal(sign, sig)`, xcrypto/signature_ecdsa.go:38-41. The bytes left over are dropped. -/
def unmarshal (bs : Bytes) : Res (ℤ × ℤ) := do
  let (inner, _) ← parseTlv 0x30 bs
  let (rb, inner) ← parseTlv 2 inner
  let r ← parseInt rb
  let (sb, _) ← parseTlv 2 inner
  let s ← parseInt sb
  return (r, s)

end Toku.Der
