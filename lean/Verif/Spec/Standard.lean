import Verif.Spec.Validity
/-
Spending a P2SH coin by any redeem script of the known opcodes, or a P2PKH coin by any pushes, under rules that are stricter than those of consensus, in the
way of the rules by which nodes relay transactions.
-/
namespace Toku.Spec.Bitcoin
open Toku Toku.Spec

/-- The rules of consensus, and: numbers and the arguments of IF and NOTIF are minimal, and CHECKMULTISIG does not come to an
empty signature. -/
def standard : Rules := ⟨true, true, true, false, true, true⟩

/-- The check of a signature in a legacy script, where the script fails if there is another hash type than ALL or a key that starts with the
byte 5. -/
noncomputable def allCheck [Hashes] (tx : BTx) (idx : Nat) (code : List Token) (sig key : Bytes) : Option Bool :=
  if (sig = [] ∨ sig.getLast? = some 1) ∧ key.head? ≠ some 5 then legacyCheck tx idx code sig key else none

/-- The input at `idx`, which is `i`, spends the P2SH coin by the script `redeem`: there is no witness, and the unlocking script, which leaves
`redeem` on top, is good for the coin. -/
def StandardP2SH [Hashes] (tx : BTx) (idx : Nat) (i : In) (coin : Tx.TxOut) (redeem : Bytes) : Prop :=
  i.witness = [] ∧ ∃ (u : List Token) (h : Bytes), (∀ t ∈ u, t.Valid) ∧ i.scriptSig = encTokens u ∧ h.length = 20 ∧
    coin.script = [0xa9, 0x14] ++ h ++ [0x87] ∧
    VerifyLegacy standard hash160 (allCheck tx idx) u [⟨0xa9, []⟩, ⟨0x14, h⟩, ⟨0x87, []⟩] ∧
    ∀ s, EvalScript standard hash160 (allCheck tx idx u) u [] s → s.head? = some redeem

/-- The input at `idx`, which is `i`, spends the P2PKH coin: there is no witness, and the unlocking script, which only pushes, is good for the
coin and leaves nothing else behind. -/
def StandardP2PKH [Hashes] (tx : BTx) (idx : Nat) (i : In) (coin : Tx.TxOut) : Prop :=
  i.witness = [] ∧ ∃ (u : List Token) (h : Bytes), (∀ t ∈ u, t.Valid) ∧ (∀ t ∈ u, t.op.toNat ≤ 0x60) ∧ i.scriptSig = encTokens u ∧
    h.length = 20 ∧ coin.script = [0x76, 0xa9, 0x14] ++ h ++ [0x88, 0xac] ∧
    ∃ s x, EvalScript standard hash160 (allCheck tx idx u) u [] s ∧
      EvalScript standard hash160 (allCheck tx idx [⟨0x76, []⟩, ⟨0xa9, []⟩, ⟨0x14, h⟩, ⟨0x88, []⟩, ⟨0xac, []⟩])
        [⟨0x76, []⟩, ⟨0xa9, []⟩, ⟨0x14, h⟩, ⟨0x88, []⟩, ⟨0xac, []⟩] s [x] ∧ Truthy x

end Toku.Spec.Bitcoin
