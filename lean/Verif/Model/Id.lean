import Verif.Model.Basic
/-
xbase/hash.go: identifiers as byte-reversed hexadecimal. encoding/hex is outside the repository and
modelled by its documentation.
-/
namespace Toku.Id

/-- Lower-case hexadecimal digit of a value below 16 (encoding/hex `hextable`). -/
def hexDigit (n : Nat) : UInt8 := if n < 10 then UInt8.ofNat (0x30 + n) else UInt8.ofNat (0x57 + n)

/-- encoding/hex `fromHexChar`: both cases accepted. -/
def fromHexChar (c : UInt8) : Option Nat :=
  if 0x30 ≤ c ∧ c ≤ 0x39 then some (c.toNat - 0x30)
  else if 0x61 ≤ c ∧ c ≤ 0x66 then some (c.toNat - 0x57)
  else if 0x41 ≤ c ∧ c ≤ 0x46 then some (c.toNat - 0x37)
  else none

/-- `hex.EncodeToString` -/
def hexEncode : Bytes → Bytes
  | [] => []
  | b :: bs => hexDigit (b.toNat / 16) :: hexDigit (b.toNat % 16) :: hexEncode bs

/-- `hex.DecodeString`: an invalid character or an odd length is an error. -/
def hexDecode : Bytes → Res Bytes
  | [] => .ok []
  | [_] => .err .hex
  | a :: b :: rest =>
    match fromHexChar a, fromHexChar b with
    | some x, some y => do
      let r ← hexDecode rest
      return UInt8.ofNat (x * 16 + y) :: r
    | _, _ => .err .hex

/-- The swap loop of xbase/hash.go:20-22 and 31-33: exchanging position `i` with `size-1-i` for
`i < size/2`. -/
def swapLoop (size : Nat) : Nat → Nat → Bytes → Bytes
  | 0, _, h => h
  | k + 1, i, h =>
    swapLoop size k (i + 1) ((h.set i (h.getD (size - 1 - i) 0)).set (size - 1 - i) (h.getD i 0))

/-- xbase/hash.go:13-24 -/
def fromString (s : Bytes) : Res Bytes := do
  let hash ← hexDecode s
  let size := hash.length
  return swapLoop size (size / 2) 0 hash

/-- xbase/hash.go:27-35 -/
def toString (hash : Bytes) : Bytes :=
  let size := hash.length
  hexEncode (swapLoop size (size / 2) 0 hash)

end Toku.Id
