import Verif.Model.Builder
import Mathlib.Data.List.Forall2
/-
What a builder configuration asks for.
-/
namespace Toku.Spec
open Toku.Tx Toku.Builder

variable {κ : Type}

/-- The coins to spend, with the group they belong to. -/
def spends (b : Settings κ) : List (Coin × Builder.Group κ) := b.groups.filterMap fun g => g.coin.map fun c => (c, g)

/-- The payments requested. -/
def payments (b : Settings κ) : List Output := b.groups.filterMap (·.output)

/-- The output that makes a payment. -/
def payOut (o : Output) : TxOut := ⟨o.value, match o.addr with | some a => Address.lockingScript a | none => []⟩

/-- Total of the coins. -/
def inSum (b : Settings κ) : Nat := ((spends b).map fun p => p.1.value.toNat).sum

/-- Total of the payments. -/
def outSum (b : Settings κ) : Nat := ((payments b).map fun o => o.value.toNat).sum

/-- The fee the builder decides on: the fixed one, or the estimate for the inputs and the payments when a relay
fee is set. -/
def feeOf (b : Settings κ) (ins : List TxIn) : ℤ :=
  if 0 < b.relayFeePerKb then
    Estimate.fees (Estimate.size ins ((payments b).map payOut) + (b.pushDatas.map List.length).sum : Nat) b.relayFeePerKb
  else b.sendFees

/-- The input spending a coin. -/
def InputFor [Hashes] (p : Coin × Builder.Group κ) (i : TxIn) : Prop :=
  ∃ txid script, Id.fromString p.1.txID = .ok txid ∧ Id.hexDecode p.1.script = .ok script ∧
    newTxIn txid p.1.n p.1.value script p.2.redeemScript = .ok i

/-- An OP_RETURN output carrying data: opcode 0x6a, then the data as a push. -/
def dataOut (d : Bytes) : TxOut := ⟨0, (Script.addData (Script.addOp Buffer.new 0x6a) d).data⟩

/-- The change: none when nothing remains, otherwise one output to the change address. -/
def ChangeFor (b : Settings κ) (remainder : ℤ) (outs : List TxOut) : Prop :=
  (remainder = 0 ∧ outs = []) ∨
  (0 < remainder ∧ ∃ a, b.change = some (some a) ∧ outs = [⟨UInt64.ofNat remainder.toNat, Address.lockingScript a⟩])

end Toku.Spec
