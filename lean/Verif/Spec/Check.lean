import Verif.Spec.Bytes
/-
The checks that every node makes on a transaction before looking at the coins (CheckTransaction of the reference client), for transactions other
than the first of a block.
-/
namespace Toku.Spec

/-- 21 million coins of 10^8 satoshi. -/
def maxMoney : Nat := 2100000000000000

/-- The outpoint that stands for no coin: a hash of zeros and the greatest index. -/
def noCoin : Bytes × UInt32 := (List.replicate 32 0, 0xffffffff)

/-- A transaction with these outpoints, amounts and size without witnesses passes: there are inputs and outputs, the size counted four times is at most
four million, amounts and their sum are at most all the money, no coin is spent twice, every input names a coin. -/
structure Checked (outpoints : List (Bytes × UInt32)) (amounts : List Nat) (size : Nat) : Prop where
  ins : outpoints ≠ []
  outs : amounts ≠ []
  size : 4 * size ≤ 4000000
  each : ∀ a ∈ amounts, a ≤ maxMoney
  total : amounts.sum ≤ maxMoney
  once : outpoints.Nodup
  coins : noCoin ∉ outpoints

end Toku.Spec
