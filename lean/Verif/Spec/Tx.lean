import Verif.Model.Tx
import Verif.Spec.Bytes
/-
The Bitcoin wire format of transactions (protocol documentation "tx", BIP144) and the signature-hash preimages
(original Bitcoin, BIP143), written down independently of the model's buffers.
-/
namespace Toku.Spec

/-- `n` as `k` little-endian bytes. -/
def le : Nat → Nat → Bytes
  | 0, _ => []
  | k + 1, n => UInt8.ofNat (n % 256) :: le k (n / 256)

/-- CompactSize. -/
def compactSize (n : Nat) : Bytes :=
  if n < 0xfd then [UInt8.ofNat n]
  else if n < 0x10000 then 0xfd :: le 2 n
  else if n < 0x100000000 then 0xfe :: le 4 n
  else 0xff :: le 8 n

/-- A byte string preceded by its length. -/
def varStr (b : Bytes) : Bytes := compactSize b.length ++ b

/-- A list preceded by its length. -/
def counted {α : Type} (enc : α → Bytes) (l : List α) : Bytes := compactSize l.length ++ l.flatMap enc

/-- The unlocking script of an input as it appears on the wire: witness inputs have none. -/
def scriptSig (i : Tx.TxIn) : Bytes := if i.witnessScriptCode = none then i.rawUnlockingScript else []

/-- An input on the wire: outpoint, script, sequence. -/
def wireIn (hash : Bytes) (index : UInt32) (script : Bytes) (sequence : UInt32) : Bytes :=
  hash ++ le 4 index.toNat ++ varStr script ++ le 4 sequence.toNat

/-- An output on the wire: value and script. -/
def wireOut (o : Tx.TxOut) : Bytes := le 8 o.value.toNat ++ varStr o.script

/-- version, inputs, outputs, lock time. -/
def wireLegacy (tx : Tx.Transaction) : Bytes :=
  le 4 tx.version.toNat ++ counted (fun i => wireIn i.hash i.index (scriptSig i) i.sequence) tx.inputs ++
  counted wireOut tx.outputs ++ le 4 tx.lockTime.toNat

/-- BIP144: version, marker 0, flag 1, inputs, outputs, one witness stack per input, lock time. -/
def wireSegwit (tx : Tx.Transaction) : Bytes :=
  le 4 tx.version.toNat ++ [0, 1] ++ counted (fun i => wireIn i.hash i.index (scriptSig i) i.sequence) tx.inputs ++
  counted wireOut tx.outputs ++ tx.inputs.flatMap (fun i => counted varStr i.witness) ++ le 4 tx.lockTime.toNat

/-- Sizes a transaction can have in a Go process: counts and lengths below 2^62, previous hashes of 32 bytes. -/
structure Encodable (tx : Tx.Transaction) : Prop where
  ins : tx.inputs.length < 2^62
  outs : tx.outputs.length < 2^62
  hash : ∀ i ∈ tx.inputs, i.hash.length = 32
  script : ∀ i ∈ tx.inputs, i.rawUnlockingScript.length < 2^62
  out : ∀ o ∈ tx.outputs, o.script.length < 2^62
  wit : ∀ i ∈ tx.inputs, i.witness.length < 2^62 ∧ ∀ w ∈ i.witness, w.length < 2^62

end Toku.Spec

namespace Toku.Spec
open Toku.Tx

/-! ### Parsing relations: any CompactSize form is accepted for lengths and counts -/

/-- `e` is `b` preceded by some encoding of its length. -/
def IsVarStr (e b : Bytes) : Prop := ∃ h, e = h ++ b ∧ IsVarInt h b.length

/-- `e` consists of encodings of the elements of `l` one after another. -/
def IsSeq {α : Type} (R : Bytes → α → Prop) : Bytes → List α → Prop
  | e, [] => e = []
  | e, x :: l => ∃ a t, e = a ++ t ∧ R a x ∧ IsSeq R t l

/-- `e` is some encoding of the length of `l`, then the elements. -/
def IsCounted {α : Type} (R : Bytes → α → Prop) (e : Bytes) (l : List α) : Prop :=
  ∃ h t, e = h ++ t ∧ IsVarInt h l.length ∧ IsSeq R t l

def IsWireIn (e : Bytes) (i : TxIn) : Prop :=
  ∃ s, e = i.hash ++ le 4 i.index.toNat ++ s ++ le 4 i.sequence.toNat ∧ i.hash.length = 32 ∧
    IsVarStr s (scriptSig i)

def IsWireOut (e : Bytes) (o : TxOut) : Prop := ∃ s, e = le 8 o.value.toNat ++ s ∧ IsVarStr s o.script

/-- `e` is a legacy encoding of `tx`. -/
def IsLegacy (e : Bytes) (tx : Transaction) : Prop :=
  ∃ a b, e = le 4 tx.version.toNat ++ a ++ b ++ le 4 tx.lockTime.toNat ∧
    IsCounted IsWireIn a tx.inputs ∧ IsCounted IsWireOut b tx.outputs

/-- `e` is a BIP144 encoding of `tx`. -/
def IsSegwit (e : Bytes) (tx : Transaction) : Prop :=
  ∃ a b c, e = le 4 tx.version.toNat ++ [0, 1] ++ a ++ b ++ c ++ le 4 tx.lockTime.toNat ∧
    IsCounted IsWireIn a tx.inputs ∧ IsCounted IsWireOut b tx.outputs ∧
    IsSeq (fun e (i : TxIn) => IsCounted IsVarStr e i.witness) c tx.inputs

/-! ### Signature hashes -/

/-- The script that a legacy signature covers: the redeem script if there is one, else the locking script
without OP_CODESEPARATOR. -/
def signedScript (i : TxIn) : Res Bytes :=
  match i.redeemScript with
  | some r => .ok r
  | none => Script.removeOpcode i.finalLockingScript 0xab

/-- Original Bitcoin SIGHASH_ALL preimage when the input at `idx` is signed with script `code`: the transaction
with every other script emptied, then the hash type. -/
def legacyPreimage (tx : Transaction) (idx : Nat) (code : Bytes) : Bytes :=
  le 4 tx.version.toNat ++
  counted (fun p : TxIn × Nat => wireIn p.1.hash p.1.index (if p.2 = idx then code else []) p.1.sequence)
    tx.inputs.zipIdx ++
  counted wireOut tx.outputs ++ le 4 tx.lockTime.toNat ++ le 4 1

/-- BIP143 preimage for hash type `t` (a 32-bit number) of the input `i` at `idx`. -/
def bip143 [Hashes] (tx : Transaction) (idx : Nat) (i : TxIn) (t : UInt32) : Bytes :=
  let acp := t &&& 0x80 ≠ 0
  let base := t &&& 0x1f
  let zero : Bytes := List.replicate 32 0
  le 4 tx.version.toNat ++
  (if acp then zero else sha256d (tx.inputs.flatMap fun i => i.hash ++ le 4 i.index.toNat)) ++
  (if acp ∨ base = 3 ∨ base = 2 then zero else sha256d (tx.inputs.flatMap fun i => le 4 i.sequence.toNat)) ++
  i.hash ++ le 4 i.index.toNat ++ varStr (i.witnessScriptCode.getD []) ++ le 8 i.value.toNat ++
  le 4 i.sequence.toNat ++
  (if base = 3 then (match tx.outputs[idx]? with | some o => sha256d (wireOut o) | none => zero)
   else if base = 2 then zero else sha256d (tx.outputs.flatMap wireOut)) ++
  le 4 tx.lockTime.toNat ++ le 4 t.toNat

end Toku.Spec
