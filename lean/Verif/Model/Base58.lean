import Verif.Model.Big
import Verif.Model.Hash
/-
xbase/base58.go. Go strings are byte sequences.
-/
namespace Toku

/-- A Go string constant as bytes (all constants used are ASCII). -/
def ascii (l : List Char) : Bytes := l.map (fun c => UInt8.ofNat c.toNat)

namespace Base58

/-- xbase/base58.go:16 -/
def alphabet : Bytes := ascii
  ['1','2','3','4','5','6','7','8','9','A','B','C','D','E','F','G','H','J','K','L','M','N','P','Q','R',
   'S','T','U','V','W','X','Y','Z','a','b','c','d','e','f','g','h','i','j','k','m','n','o','p','q','r',
   's','t','u','v','w','x','y','z']

/-- xbase/base58.go:15 -/
def alphabetIdx0 : UInt8 := 0x31

/-- xbase/base58.go:22-55 -/
def b58 : List UInt8 := [
  255, 255, 255, 255, 255, 255, 255, 255,
  255, 255, 255, 255, 255, 255, 255, 255,
  255, 255, 255, 255, 255, 255, 255, 255,
  255, 255, 255, 255, 255, 255, 255, 255,
  255, 255, 255, 255, 255, 255, 255, 255,
  255, 255, 255, 255, 255, 255, 255, 255,
  255, 0, 1, 2, 3, 4, 5, 6,
  7, 8, 255, 255, 255, 255, 255, 255,
  255, 9, 10, 11, 12, 13, 14, 15,
  16, 255, 17, 18, 19, 20, 21, 255,
  22, 23, 24, 25, 26, 27, 28, 29,
  30, 31, 32, 255, 255, 255, 255, 255,
  255, 33, 34, 35, 36, 37, 38, 39,
  40, 41, 42, 43, 255, 44, 45, 46,
  47, 48, 49, 50, 51, 52, 53, 54,
  55, 56, 57, 255, 255, 255, 255, 255,
  255, 255, 255, 255, 255, 255, 255, 255,
  255, 255, 255, 255, 255, 255, 255, 255,
  255, 255, 255, 255, 255, 255, 255, 255,
  255, 255, 255, 255, 255, 255, 255, 255,
  255, 255, 255, 255, 255, 255, 255, 255,
  255, 255, 255, 255, 255, 255, 255, 255,
  255, 255, 255, 255, 255, 255, 255, 255,
  255, 255, 255, 255, 255, 255, 255, 255,
  255, 255, 255, 255, 255, 255, 255, 255,
  255, 255, 255, 255, 255, 255, 255, 255,
  255, 255, 255, 255, 255, 255, 255, 255,
  255, 255, 255, 255, 255, 255, 255, 255,
  255, 255, 255, 255, 255, 255, 255, 255,
  255, 255, 255, 255, 255, 255, 255, 255,
  255, 255, 255, 255, 255, 255, 255, 255,
  255, 255, 255, 255, 255, 255, 255, 255]

/-- Table lookup `b58[c]`; the table has 256 entries so every byte is a valid index. -/
def lookup (c : UInt8) : UInt8 := b58.getD c.toNat 255

/-- The loop of xbase/base58.go:64-73 over the characters from last to first, carrying `answer` and
`j`; `none` is the early return on an invalid character. -/
def decodeLoop : Bytes → Nat → Nat → Option Nat
  | [], answer, _ => some answer
  | c :: cs, answer, j =>
    let tmp := lookup c
    if tmp = 255 then none else decodeLoop cs (answer + j * tmp.toNat) (j * 58)

/-- xbase/base58.go:59-87 -/
def decode (b : Bytes) : Bytes :=
  match decodeLoop b.reverse 0 1 with
  | none => []
  | some answer =>
    let tmpval := natToBE answer
    let numZeros := (b.takeWhile (· == alphabetIdx0)).length
    List.replicate numZeros 0 ++ tmpval

/-- xbase/base58.go:90-115. `answer` is built least significant first, the leading zeros are appended,
then everything is reversed. `alphabet[mod]` cannot be out of range since `mod < 58`. -/
def encode (b : Bytes) : Bytes :=
  let x := natOfBE b
  let answer := (digitsLE 58 x x).map (fun m => alphabet.getD m 0)
  let zeros := (b.takeWhile (· == 0)).map (fun _ => alphabetIdx0)
  (answer ++ zeros).reverse

/-- xbase/base58.go:127-132 -/
def checksum [Hashes] (input : Bytes) : Bytes := (sha256d input).take 4

/-- xbase/base58.go:135-142 -/
def checkEncode [Hashes] (input : Bytes) (version : UInt8) : Bytes :=
  let b := version :: input
  encode (b ++ checksum b)

/-- xbase/base58.go:145-159 -/
def checkDecode [Hashes] (input : Bytes) : Res (Bytes × UInt8) :=
  let decoded := decode input
  if decoded.length < 5 then .err .base58Format
  else
    let version := decoded.headD 0
    let cksum := decoded.drop (decoded.length - 4)
    let body := decoded.take (decoded.length - 4)
    if checksum body ≠ cksum then .err .base58Checksum
    else .ok (body.drop 1, version)

end Base58
end Toku
