import Verif.Model.TxText
import Verif.Spec.Assemble
import Mathlib.Data.List.Forall2
/-
What the text of a transaction can be expected to show.
-/
namespace Toku.Spec.TxText
open Toku.Tx Toku.Spec.Asm

/-- A script made of whole instructions that fits in memory. -/
def Readable (s : Bytes) : Prop := s.length < 2^62 ∧ ∃ ts, (∀ t ∈ ts, Token.Valid t) ∧ s = encTokens ts

/-- All scripts of the transaction are readable. -/
def AllReadable (tx : Transaction) : Prop :=
  (∀ i ∈ tx.inputs, Readable i.rawLockingScript ∧ Readable i.finalLockingScript ∧ Readable i.rawUnlockingScript ∧
    ∀ r, i.redeemScript = some r → Readable r) ∧ ∀ o ∈ tx.outputs, Readable o.script

/-- All scripts of the transaction fit in memory. -/
def AllFit (tx : Transaction) : Prop :=
  (∀ i ∈ tx.inputs, i.rawLockingScript.length < 2^62 ∧ i.finalLockingScript.length < 2^62 ∧
    i.rawUnlockingScript.length < 2^62 ∧ ∀ r, i.redeemScript = some r → r.length < 2^62) ∧
  ∀ o ∈ tx.outputs, o.script.length < 2^62

/-- Two inputs with the same outpoint, amount, scripts and, if they have script code for a witness, the same first item of the
witness. -/
def SameShown (i i' : TxIn) : Prop :=
  i.hash = i'.hash ∧ i.index = i'.index ∧ i.value = i'.value ∧ i.rawLockingScript = i'.rawLockingScript ∧
  i.finalLockingScript = i'.finalLockingScript ∧ i.rawUnlockingScript = i'.rawUnlockingScript ∧
  i.redeemScript = i'.redeemScript ∧ i.witnessScriptCode = i'.witnessScriptCode ∧
  (i.witnessScriptCode ≠ none → i.witness.head? = i'.witness.head?)

end Toku.Spec.TxText
