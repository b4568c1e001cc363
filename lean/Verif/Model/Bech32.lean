import Verif.Model.Base58
/-
xbase/bech32.go. Go strings are byte sequences. Error values are abstracted to one constructor per
failing check (the messages are not modelled).
-/
namespace Toku.Bech32

/-- xbase/bech32.go:14 -/
def charset : Bytes := ascii
  ['q','p','z','r','y','9','x','8','g','f','2','t','v','d','w','0',
   's','3','j','n','5','4','k','h','c','e','6','m','u','a','7','l']

/-- `strings.ToLower` on one ASCII byte (the code has already rejected bytes outside 33..126). -/
def lowerByte (c : UInt8) : UInt8 := if 0x41 ≤ c ∧ c ≤ 0x5a then c + 32 else c

/-- `strings.ToUpper` on one ASCII byte. -/
def upperByte (c : UInt8) : UInt8 := if 0x61 ≤ c ∧ c ≤ 0x7a then c - 32 else c

/-- `strings.ToLower` on ASCII text. -/
def toLower (s : Bytes) : Bytes := s.map lowerByte

/-- `strings.ToUpper` on ASCII text. -/
def toUpper (s : Bytes) : Bytes := s.map upperByte

/-- `strings.LastIndexByte`; `none` is Go's -1. -/
def lastIndexByte : Bytes → UInt8 → Option Nat
  | [], _ => none
  | x :: xs, c =>
    match lastIndexByte xs c with
    | some i => some (i + 1)
    | none => if x = c then some 0 else none

/-- `strings.IndexByte`; `none` is Go's -1. -/
def indexByte : Bytes → UInt8 → Option Nat
  | [], _ => none
  | x :: xs, c => if x = c then some 0 else (indexByte xs c).map (· + 1)

/-- xbase/bech32.go:95-105 -/
def toBytes : Bytes → Res Bytes
  | [] => .ok []
  | c :: cs =>
    match indexByte charset c with
    | none => .err .bech32Charset
    | some i => do
      let r ← toBytes cs
      return UInt8.ofNat i :: r

/-- xbase/bech32.go:108-117 -/
def toChars : Bytes → Res Bytes
  | [] => .ok []
  | b :: bs =>
    if b.toNat ≥ charset.length then .err .bech32Data
    else do
      let r ← toChars bs
      return charset.getD b.toNat 0 :: r

/-- xbase/bech32.go:140 -/
def gen : List Nat := [0x3b6a57b2, 0x26508e6d, 0x1ea119fa, 0x3d4233dd, 0x2a1462b3]

/-- The inner loop of xbase/bech32.go:145-149: `chk ^= gen[i]` for each set bit `i` of `b`. -/
def genLoop (b : Nat) : Nat → List Nat → Nat → Nat
  | _, [], chk => chk
  | i, g :: gs, chk => genLoop b (i + 1) gs (if (b >>> i) &&& 1 = 1 then chk ^^^ g else chk)

/-- xbase/bech32.go:143-149: one round of the checksum. Go's `int` is modelled by `Nat`: all values
are non-negative and below 2^30 throughout. -/
def polyStep (chk v : Nat) : Nat :=
  let b := chk >>> 25
  genLoop b 0 gen (((chk &&& 0x1ffffff) <<< 5) ^^^ v)

/-- xbase/bech32.go:138-152 -/
def polymod (values : List Nat) : Nat := values.foldl polyStep 1

/-- xbase/bech32.go:155-165 -/
def hrpExpand (hrp : Bytes) : List Nat :=
  hrp.map (fun c : UInt8 => (c >>> 5).toNat) ++ [0] ++ hrp.map (fun c : UInt8 => (c &&& 31).toNat)

/-- xbase/bech32.go:120-135 -/
def checksum (hrp data : Bytes) : Bytes :=
  let values := hrpExpand hrp ++ data.map UInt8.toNat ++ [0, 0, 0, 0, 0, 0]
  let pm := polymod values ^^^ 1
  (List.range 6).map (fun i => UInt8.ofNat ((pm >>> (5 * (5 - i))) &&& 31))

/-- xbase/bech32.go:168-175 -/
def verifyChecksum (hrp data : Bytes) : Bool :=
  polymod (hrpExpand hrp ++ data.map UInt8.toNat) == 1

/-- xbase/bech32.go:79-92. `append(data, checksum...)` may write into spare capacity of the caller's
slice: see Model/ArgMem. -/
def encode (hrp data : Bytes) : Res Bytes := do
  let combined := data ++ checksum hrp data
  let dataChars ← toChars combined
  return hrp ++ [0x31] ++ dataChars

/-- xbase/bech32.go:19-74. The error branch 62-71 only builds a message: `decoded` has at least 6
elements there because `one + 7 ≤ len`, so its slicing cannot panic. -/
def decode (bech : Bytes) : Res (Bytes × Bytes) :=
  if bech.length < 8 ∨ bech.length > 90 then .err .bech32Length
  else if bech.any (fun c => c < 33 || c > 126) then .err .bech32Char
  else
    let lower := toLower bech
    let upper := toUpper bech
    if bech ≠ lower ∧ bech ≠ upper then .err .bech32Case
    else
      match lastIndexByte lower 0x31 with
      | none => .err .bech32Sep
      | some one =>
        if one < 1 ∨ one + 7 > lower.length then .err .bech32Sep
        else do
          let hrp := lower.take one
          let data := lower.drop (one + 1)
          let decoded ← toBytes data
          if !verifyChecksum hrp decoded then .err .bech32Checksum
          else .ok (hrp, decoded.take (decoded.length - 6))

end Toku.Bech32
