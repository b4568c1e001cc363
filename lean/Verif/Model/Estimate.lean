import Verif.Model.Tx
import Mathlib.Data.Rat.Floor
import Mathlib.Data.Int.Log
/-
xcore/estimate.go, with the float64 arithmetic of EstimateFees.
-/
namespace Toku.F64

/-- Nearest integer, ties to even. -/
def roundEven (x : ℚ) : ℤ :=
  if x - ⌊x⌋ < 1 / 2 then ⌊x⌋
  else if 1 / 2 < x - ⌊x⌋ then ⌊x⌋ + 1
  else if ⌊x⌋ % 2 = 0 then ⌊x⌋ else ⌊x⌋ + 1

/-- The double nearest to a positive rational: 53 significant bits, ties to even. Overflow to infinity and
subnormal numbers are not modelled; the arguments below lie between 2^-10 and 2^118. -/
def roundPos (x : ℚ) : ℚ := roundEven (x / 2 ^ (Int.log 2 x - 52)) * 2 ^ (Int.log 2 x - 52)

/-- The double nearest to a rational. The sign of zero does not matter here. -/
def nearest (x : ℚ) : ℚ := if x = 0 then 0 else if 0 < x then roundPos x else -roundPos (-x)

/-- Go conversion `int64(f)`: truncation. Go leaves the result for values out of range to the implementation;
this is the value on amd64. -/
def toInt64 (x : ℚ) : ℤ :=
  let t := if 0 ≤ x then ⌊x⌋ else ⌈x⌉
  if -2^63 ≤ t ∧ t < 2^63 then t else -2^63

end Toku.F64

namespace Toku.Estimate
open Toku.Tx

/-- xcore/estimate.go:21 -/
def inputP2PKHSigScriptSize : Nat := 1 + 73 + 1 + 33

/-- xcore/estimate.go:32 -/
def inputP2PKHSize : Nat := 32 + 4 + 1 + inputP2PKHSigScriptSize + 4

/-- xcore/estimate.go:35-36 -/
def inputWitnessSignatureSize : Nat := 73
def inputWitnessPubKeySize : Nat := 33

/-- xcore/estimate.go:49-71: `baseSize`. Sizes are lengths of slices in memory and cannot overflow. -/
def baseSize (ins : List TxIn) (outs : List TxOut) : Nat :=
  4 + Buffer.varIntSerializeSize (UInt64.ofNat ins.length) +
    (ins.map fun i => if i.hasWitness then 0 else inputP2PKHSize).sum +
    Buffer.varIntSerializeSize (UInt64.ofNat outs.length) + (outs.map fun o => 8 + o.script.length).sum + 4

/-- xcore/estimate.go:73-95: `witnessSize`. -/
def witnessSize (ins : List TxIn) : Nat :=
  if ins.any TxIn.hasWitness then
    (ins.map fun i =>
      if i.hasWitness then Buffer.varIntSerializeSize 2 +
        Buffer.varIntSerializeSize (UInt64.ofNat inputWitnessSignatureSize) +
        Buffer.varIntSerializeSize (UInt64.ofNat inputWitnessPubKeySize)
      else Buffer.varIntSerializeSize 0).sum
  else 0

/-- xcore/estimate.go:44-97 -/
def size (ins : List TxIn) (outs : List TxOut) : Nat :=
  (baseSize ins outs * (4 - 1) + (baseSize ins outs + witnessSize ins)) / 4

/-- xcore/estimate.go:100-123. Both arguments are assumed to be non-negative. -/
def normalSize (ins outs : Nat) : Nat :=
  4 + (Buffer.varIntSerializeSize (UInt64.ofNat ins) + inputP2PKHSize * ins) +
    (Buffer.varIntSerializeSize (UInt64.ofNat outs) + (8 + 25) * outs) + 4

/-- xcore/estimate.go:126-132 -/
def fees (estimateSize relayFeePerKb : ℤ) : ℤ :=
  if relayFeePerKb > 0 then
    F64.toInt64 (F64.nearest (F64.nearest (F64.nearest relayFeePerKb / 1000) * F64.nearest estimateSize))
  else 0

end Toku.Estimate
