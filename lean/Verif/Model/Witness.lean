import Verif.Model.Bech32
/-
xbase/witness.go: segwit address text.
-/
namespace Toku.Witness

/-- The inner loop of xbase/witness.go:44-47 (file lines): emit groups of `tobits` bits. Go's `int`
accumulator is a 64-bit vector; `>>` on a signed int is the arithmetic shift. `fuel` bounds the loop:
`bits` steps suffice since each iteration removes `tobits ≥ 1` bits. -/
def emit (tobits : Nat) (acc : BitVec 64) : Nat → Nat → Bytes → Nat × Bytes
  | 0, bits, ret => (bits, ret)
  | fuel + 1, bits, ret =>
    if bits ≥ tobits then
      let bits := bits - tobits
      emit tobits acc fuel bits
        (ret ++ [((acc.sshiftRight bits) &&& BitVec.ofNat 64 (2 ^ tobits - 1)).setWidth 8 |> UInt8.ofBitVec])
    else (bits, ret)

/-- xbase/witness.go:41-48: the main loop; note that `acc` is never masked, only `value` is. -/
def convertLoop (frombits tobits : Nat) : Bytes → BitVec 64 → Nat → Bytes → BitVec 64 × Nat × Bytes
  | [], acc, bits, ret => (acc, bits, ret)
  | value :: rest, acc, bits, ret =>
    let maxAcc : BitVec 64 := BitVec.ofNat 64 (2 ^ (frombits + tobits - 1) - 1)
    let acc := (acc <<< frombits) ||| (value.toBitVec.setWidth 64 &&& maxAcc)
    let bits := bits + frombits
    let (bits, ret) := emit tobits acc bits bits ret
    convertLoop frombits tobits rest acc bits ret

/-- xbase/witness.go:34-63 -/
def convertBits (data : Bytes) (frombits tobits : Nat) (pad : Bool) : Res Bytes :=
  let (acc, bits, ret) := convertLoop frombits tobits data 0#64 0 []
  let maxv : BitVec 64 := BitVec.ofNat 64 (2 ^ tobits - 1)
  if pad then
    if bits > 0 then
      .ok (ret ++ [UInt8.ofBitVec (((acc <<< (tobits - bits)) &&& maxv).setWidth 8)])
    else .ok ret
  else if bits ≥ frombits then .err .convertPadding
  else if (acc <<< (tobits - bits)) &&& maxv ≠ 0#64 then .err .convertNonZero
  else .ok ret

/-- xbase/witness.go:13-23. `data[1:]` panics when `data` is empty. -/
def decode (addr : Bytes) : Res (Bytes × UInt8 × Bytes) := do
  let (hrp, data) ← Bech32.decode addr
  match data with
  | [] => .panic
  | version :: rest =>
    let res ← convertBits rest 5 8 false
    return (hrp, version, res)

/-- xbase/witness.go:26-32 -/
def encode (hrp : Bytes) (version : UInt8) (program : Bytes) : Res Bytes := do
  let data ← convertBits program 8 5 true
  Bech32.encode hrp (version :: data)

end Toku.Witness
