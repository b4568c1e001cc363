import Verif.Model.TxSign
import Verif.Model.PartyMem
/-
EmbedIdxEcdsaSignature, xcore/transaction.go:272-278, with the memory of the signature: `append(ecdsaSig, byte(hashType))` writes
behind the caller's slice when that has spare capacity, and the witness of a P2WPKH or P2WSH input keeps the slice
(script_p2wpkh_v0.go:60, script_p2wsh_v0.go:78). Unlocking scripts copy the signature (AddData, see C105). The public key bytes are
new (xcrypto/pubkey.go:140-142); the other byte slices of a transaction stay values.
-/
namespace Toku.Tx
open Toku.Slices Toku.Locking

/-- A transaction beside the memory. `held i = some (n, s)`: item `n` of the witness of input `i` is the slice `s`, and the bytes
`tx` has there have no meaning. -/
structure InMemory where
  heap : Heap UInt8
  tx : Transaction
  held : Nat → Option (Nat × Slice)

/-- An input as its readers see it. -/
def TxIn.seen (h : Heap UInt8) (r : Option (Nat × Slice)) (i : TxIn) : TxIn :=
  match r with
  | none => i
  | some (n, s) => { i with witness := i.witness.set n (elems h s) }

/-- The transaction as its methods see it. -/
def InMemory.view (m : InMemory) : Transaction :=
  { m.tx with inputs := m.tx.inputs.mapIdx fun j i => i.seen m.heap (m.held j) }

/-- Where GetWitnessUnlockingScriptBytes puts the slice of the only signature: script_p2pkh.go:65-67, script_p2sh.go:67-69,
script_p2wpkh_v0.go:58-63, script_p2wsh_v0.go:67-83. -/
def sigItem (k : Kind) : Option Nat :=
  match k with
  | .p2pkh | .p2sh => none
  | .p2wpkh => some 0
  | .p2wsh => some 1

variable {κ : Type} [Hashes] (E : Ecdsa κ)

/-- What input `idx` holds after a call that returned no error: the old slice if the unlocking script could not be made
(xcore/transaction.go:262-263). -/
def heldAfter (tx : Transaction) (idx : Nat) (signs : List PubKeySign) (s : Slice) (old : Option (Nat × Slice)) : Option (Nat × Slice) :=
  match tx.inputs[idx]? with
  | none => old
  | some i =>
    match parse i.rawLockingScript with
    | .ok l =>
      match rawUnlocking l signs i.redeemScript with
      | .ok _ => (sigItem l.kind).map (·, s)
      | _ => old
    | _ => old

/-- EmbedIdxEcdsaSignature, xcore/transaction.go:272-278. `extra` is the spare capacity of a new array. -/
def InMemory.embed (m : InMemory) (extra : Bytes) (idx : Nat) (key : κ) (sig : Slice) (t : UInt32) : Res InMemory :=
  let r := append extra m.heap sig [t.toUInt8]
  let tx := ({ m with heap := r.1 } : InMemory).view
  let signs := [⟨E.pub key true, elems r.1 r.2⟩]
  match Tx.embed tx idx signs with
  | .ok tx' => .ok ⟨r.1, tx', fun j => if j = idx then heldAfter tx idx signs r.2 (m.held idx) else m.held j⟩
  | .err e => .err e
  | .panic => .panic

/-- What a caller does: embed a signature, store a byte in an array, or get a new array. -/
inductive MemOp (κ : Type) where
  | embed (extra : Bytes) (idx : Nat) (key : κ) (sig : Slice) (t : UInt32)
  | store (arr pos : Nat) (b : UInt8)
  | alloc (bytes : Bytes)

def InMemory.step (m : InMemory) : MemOp κ → Res InMemory
  | .embed extra idx key sig t => m.embed E extra idx key sig t
  | .store arr pos b => .ok { m with heap := Mpc.store m.heap arr pos b }
  | .alloc bytes => .ok { m with heap := m.heap ++ [bytes] }

/-- One after another, up to the first error. -/
def InMemory.run (m : InMemory) : List (MemOp κ) → Res InMemory
  | [] => .ok m
  | o :: os =>
    match m.step E o with
    | .ok m' => m'.run os
    | .err e => .err e
    | .panic => .panic

end Toku.Tx
