import Verif.Model.Locking
import Verif.Model.Ripemd
/-
xcore/transaction.go, and the parts of xcore/script*.go that transactions use: serialisation, identifiers,
signature hashes, sizes. Signing and verification are in Model/TxSign.lean.

`Option` is used for Go slices where the code tells nil from empty (`RedeemScript`, `WitnessScriptCode`, the
three digest caches); elsewhere nil and empty are both the empty list. `Transaction.inputs` holds pointers in
Go; here it holds values, so adding the same `*TxIn` twice is not modelled. Indices are natural numbers:
a negative Go index panics like one that is too large.
-/
namespace Toku.Locking
open Toku.Script

/-- xcore/script.go:25-28 -/
structure PubKeySign where
  pubKey : Bytes
  signature : Bytes
  deriving DecidableEq, Repr

/-- xcore/script.go:17-22; the two versions that `GetScriptVersion` returns. -/
inductive Version where
  | base | witnessV0
  deriving DecidableEq, Repr

/-- GetFinalLockingScriptBytes: script_p2pkh.go:51-53, script_p2sh.go:47-49, script_p2wpkh_v0.go:46-49,
script_p2wsh_v0.go:49-52. -/
def finalLocking [Hashes] (s : LockScript) (redeem : Option Bytes) : Bytes :=
  match s.kind with
  | .p2pkh => rawLocking s
  | .p2sh => rawLocking s
  | .p2wpkh => rawLocking ⟨.p2pkh, s.hash⟩
  | .p2wsh => rawLocking ⟨.p2sh, hash160 (redeem.getD [])⟩

/-- `signs[0]`; panics on an empty slice. -/
def firstSign (signs : List PubKeySign) : Res PubKeySign := Res.ofIdx signs[0]?

/-- script_p2sh.go:54-64 -/
def unlockScriptHash (signs : List PubKeySign) (redeem : Option Bytes) : Bytes :=
  let b := if signs.length > 0 then
    signs.foldl (fun b s => addData b s.signature) (addOp Buffer.new 0x00) else Buffer.new
  (addData b (redeem.getD [])).data

def errRedeemHash : Err := .other 201

/-- GetRawUnlockingScriptBytes: script_p2pkh.go:58-62, script_p2sh.go:54-64, script_p2wpkh_v0.go:52-55,
script_p2wsh_v0.go:56-64. -/
def rawUnlocking [Hashes] (s : LockScript) (signs : List PubKeySign) (redeem : Option Bytes) : Res Bytes :=
  match s.kind with
  | .p2pkh | .p2wpkh => do
    let g ← firstSign signs
    return (addData (addData Buffer.new g.signature) g.pubKey).data
  | .p2sh => .ok (unlockScriptHash signs redeem)
  | .p2wsh =>
    if Hashes.sha256 (redeem.getD []) ≠ s.hash then .err errRedeemHash
    else .ok (unlockScriptHash signs redeem)

/-- GetWitnessUnlockingScriptBytes: script_p2pkh.go:65-67, script_p2sh.go:67-69, script_p2wpkh_v0.go:58-63,
script_p2wsh_v0.go:67-83. -/
def witnessUnlocking [Hashes] (s : LockScript) (signs : List PubKeySign) (redeem : Option Bytes) :
    Res (List Bytes) :=
  match s.kind with
  | .p2pkh | .p2sh => .ok []
  | .p2wpkh => do
    let g ← firstSign signs
    return [g.signature, g.pubKey]
  | .p2wsh =>
    if Hashes.sha256 (redeem.getD []) ≠ s.hash then .err errRedeemHash
    else .ok ((if signs.length > 0 then [] :: signs.map (·.signature) else []) ++ [redeem.getD []])

/-- GetWitnessScriptCode: script_p2pkh.go:70-72, script_p2sh.go:72-74, script_p2wpkh_v0.go:70-73,
script_p2wsh_v0.go:90-92. `none` is nil. -/
def witnessScriptCode (s : LockScript) (redeem : Option Bytes) : Option Bytes :=
  match s.kind with
  | .p2pkh | .p2sh => none
  | .p2wpkh => some (rawLocking ⟨.p2pkh, s.hash⟩)
  | .p2wsh => redeem

/-- GetScriptVersion: script_p2pkh.go:75-77, script_p2sh.go:77-79, script_p2wpkh_v0.go:76-78,
script_p2wsh_v0.go:95-97. -/
def scriptVersion (s : LockScript) : Version :=
  match s.kind with
  | .p2pkh | .p2sh => .base
  | .p2wpkh | .p2wsh => .witnessV0

/-- WitnessToUnlockingScriptBytes: script_p2pkh.go:81-83, script_p2sh.go:83-85, script_p2wpkh_v0.go:82-85,
script_p2wsh_v0.go:101-115. `none` is nil. A parse error of the redeem script gives nil instructions. -/
def witnessToUnlocking (s : LockScript) (witness : List Bytes) : Res (Option Bytes) :=
  match s.kind with
  | .p2pkh | .p2sh => .ok none
  | .p2wpkh => do
    let w0 ← Res.ofIdx witness[0]?
    let w1 ← Res.ofIdx witness[1]?
    return some (addData (addData Buffer.new w0) w1).data
  | .p2wsh =>
    match witness.getLast? with
    | none => .ok none
    | some redeem =>
      if witness.length > 1 then
        match allInstructions redeem with
        | .panic => .panic
        | .err _ => .ok none
        | .ok instrs =>
          if isMultiSig instrs then .ok (some (addData (witness.dropLast.foldl addData Buffer.new) redeem).data)
          else .ok none
      else .ok none

end Toku.Locking

namespace Toku.Tx
open Toku.Locking Toku.Script

/-- xcore/transaction.go:48-60. `SignatureHash` (used for display only) is not modelled. -/
structure TxIn where
  hash : Bytes
  index : UInt32
  value : UInt64
  sequence : UInt32
  redeemScript : Option Bytes
  witness : List Bytes
  witnessScriptCode : Option Bytes
  rawLockingScript : Bytes
  finalLockingScript : Bytes
  rawUnlockingScript : Bytes
  deriving DecidableEq, Repr

/-- A `TxIn{}` -/
def TxIn.empty : TxIn := ⟨[], 0, 0, 0, none, [], none, [], [], []⟩

/-- xcore/transaction.go:63-91 -/
def newTxIn [Hashes] (txHash : Bytes) (n : UInt32) (value : UInt64) (script : Bytes) (redeem : Option Bytes) :
    Res TxIn := do
  let s ← parse script
  return { hash := txHash, index := n, value := value, sequence := 0xffffffff, redeemScript := redeem,
           witness := [], witnessScriptCode := witnessScriptCode s redeem,
           rawLockingScript := rawLocking s, finalLockingScript := finalLocking s redeem, rawUnlockingScript := [] }

/-- xcore/transaction.go:94-96 -/
def TxIn.hasWitness (i : TxIn) : Bool := i.witnessScriptCode.isSome

/-- xcore/transaction.go:99-102 -/
structure TxOut where
  value : UInt64
  script : Bytes
  deriving DecidableEq, Repr

/-- xcore/transaction.go:113-121 -/
structure Transaction where
  version : UInt32
  lockTime : UInt32
  inputs : List TxIn
  outputs : List TxOut
  hashPrevouts : Option Bytes
  hashSequence : Option Bytes
  hashOutputs : Option Bytes
  deriving DecidableEq, Repr

/-- xcore/transaction.go:124-128 -/
def new : Transaction := ⟨1, 0, [], [], none, none, none⟩

/-- xcore/transaction.go:131-133 -/
def setVersion (tx : Transaction) (v : UInt32) : Transaction := { tx with version := v }

/-- xcore/transaction.go:136-138 -/
def setLockTime (tx : Transaction) (t : UInt32) : Transaction := { tx with lockTime := t }

/-- xcore/transaction.go:179-181: the digest caches are kept. -/
def addInput (tx : Transaction) (i : TxIn) : Transaction := { tx with inputs := tx.inputs ++ [i] }

/-- xcore/transaction.go:184-186: the digest caches are kept. -/
def addOutput (tx : Transaction) (o : TxOut) : Transaction := { tx with outputs := tx.outputs ++ [o] }

/-- Replace the input at `idx` (writing through the pointer `tx.inputs[idx]`). -/
def putInput (tx : Transaction) (idx : Nat) (i : TxIn) : Transaction := { tx with inputs := tx.inputs.set idx i }

/-- xcore/transaction.go:142-176 -/
def setTxIn [Hashes] (tx : Transaction) (idx : Nat) (amount : UInt64) (script : Bytes) (redeem : Option Bytes) :
    Res Transaction := do
  let txIn ← Res.ofIdx tx.inputs[idx]?
  let s ← parse script
  let un ← witnessToUnlocking s txIn.witness
  return putInput tx idx { txIn with
    rawUnlockingScript := un.getD txIn.rawUnlockingScript, value := amount, redeemScript := redeem,
    witnessScriptCode := witnessScriptCode s redeem, rawLockingScript := rawLocking s,
    finalLockingScript := finalLocking s redeem }

/-- xcore/transaction.go:435-442 -/
def hasWitness (tx : Transaction) : Bool := tx.inputs.any TxIn.hasWitness

/-- One input as written by Serialize and SerializeNoWitness, xcore/transaction.go:461-469, 600-607. -/
def writeInput (b : Buffer) (i : TxIn) : Buffer :=
  let b := (b.writeBytes i.hash).writeU32 i.index
  let b := if i.hasWitness then b.writeVarBytes [] else b.writeVarBytes i.rawUnlockingScript
  b.writeU32 i.sequence

/-- One output, xcore/transaction.go:475-476, 613-614, 307-308, 362-363. -/
def writeOutput (b : Buffer) (o : TxOut) : Buffer := (b.writeU64 o.value).writeVarBytes o.script

/-- xcore/transaction.go:459-477, 598-615 -/
def writeInsOuts (tx : Transaction) (b : Buffer) : Buffer :=
  let b := tx.inputs.foldl writeInput (b.writeVarInt (UInt64.ofNat tx.inputs.length))
  tx.outputs.foldl writeOutput (b.writeVarInt (UInt64.ofNat tx.outputs.length))

/-- The witness stack of one input, xcore/transaction.go:481-485. -/
def writeWitness (b : Buffer) (i : TxIn) : Buffer :=
  i.witness.foldl Buffer.writeVarBytes (b.writeVarInt (UInt64.ofNat i.witness.length))

/-- xcore/transaction.go:445-492 -/
def serialize (tx : Transaction) : Bytes :=
  let b := Buffer.new.writeU32 tx.version
  let b := if hasWitness tx then (b.writeU8 0x00).writeU8 0x01 else b
  let b := writeInsOuts tx b
  let b := if hasWitness tx then tx.inputs.foldl writeWitness b else b
  (b.writeU32 tx.lockTime).data

/-- xcore/transaction.go:591-620 -/
def serializeNoWitness (tx : Transaction) : Bytes :=
  let b := Buffer.new.writeU32 tx.version
  let b := writeInsOuts tx b
  (b.writeU32 tx.lockTime).data

def errMarker : Err := .other 202
def errFlag : Err := .other 203

/-- The number of elements of `size` bytes above which `make([]T, n)` panics ("len out of range") on amd64,
where one allocation is at most 2^48 bytes. Counts below that for which memory runs out are not modelled. -/
def makeLimit (size : Nat) : Nat := 2^48 / size

/-- One input as read, xcore/transaction.go:528-541, 640-653. -/
def readInput (b : Buffer) : Res (TxIn × Buffer) := do
  let (hash, b) ← b.readBytes 32
  let (index, b) ← b.readU32
  let (script, b) ← b.readVarBytes
  let (sequence, b) ← b.readU32
  return ({ TxIn.empty with hash := hash, index := index, rawUnlockingScript := script, sequence := sequence }, b)

/-- One output as read, xcore/transaction.go:553-560, 665-672. -/
def readOutput (b : Buffer) : Res (TxOut × Buffer) := do
  let (value, b) ← b.readU64
  let (script, b) ← b.readVarBytes
  return (⟨value, script⟩, b)

/-- `n` items read one after another. -/
def readMany {α : Type} (rd : Buffer → Res (α × Buffer)) : Nat → Buffer → Res (List α × Buffer)
  | 0, b => .ok ([], b)
  | n + 1, b => do
    let (x, b) ← rd b
    let (xs, b) ← readMany rd n b
    return (x :: xs, b)

/-- A counted list of elements that take `size` bytes in memory: xcore/transaction.go:520-543, 545-562, 567-579.
`old` is what the field held before (kept when the count is zero). -/
def readCounted {α : Type} (size : Nat) (rd : Buffer → Res (α × Buffer)) (old : List α) (b : Buffer) : Res (List α × Buffer) := do
  let (n, b) ← b.readVarInt
  if n.toNat = 0 then .ok (old, b)
  else if n.toNat > makeLimit size then .panic
  else readMany rd n.toNat b

/-- xcore/transaction.go:567-579: the witness stacks, one per input. -/
def readWitnesses : List TxIn → Buffer → Res (List TxIn × Buffer)
  | [], b => .ok ([], b)
  | i :: is, b => do
    let (w, b) ← readCounted 24 (fun b => b.readVarBytes) [] b
    let (is, b) ← readWitnesses is b
    return ({ i with witness := w } :: is, b)

/-- xcore/transaction.go:495-587 on a transaction `tx`; the value left in `tx` when an error is returned is in
Model/TxObj. Also returns the bytes left unread (which Go ignores). -/
def deserialize (tx : Transaction) (data : Bytes) : Res (Transaction × Bytes) := do
  let b := Buffer.reader data
  let (version, b) ← b.readU32
  let (marker, b) ← b.readU8
  if marker ≠ 0x00 then .err errMarker
  else do
    let (flag, b) ← b.readU8
    if flag ≠ 0x01 then .err errFlag
    else do
      let (ins, b) ← readCounted 8 readInput tx.inputs b
      let (outs, b) ← readCounted 8 readOutput tx.outputs b
      let (ins, b) ← readWitnesses ins b
      let (lockTime, b) ← b.readU32
      return ({ tx with version := version, inputs := ins, outputs := outs, lockTime := lockTime }, b.remaining)

/-- xcore/transaction.go:623-681, like `deserialize`. -/
def deserializeNoWitness (tx : Transaction) (data : Bytes) : Res (Transaction × Bytes) := do
  let b := Buffer.reader data
  let (version, b) ← b.readU32
  let (ins, b) ← readCounted 8 readInput tx.inputs b
  let (outs, b) ← readCounted 8 readOutput tx.outputs b
  let (lockTime, b) ← b.readU32
  return ({ tx with version := version, inputs := ins, outputs := outs, lockTime := lockTime }, b.remaining)

/-- xcore/transaction.go:189-191 -/
def txHash [Hashes] (tx : Transaction) : Bytes := sha256d (serializeNoWitness tx)

/-- xcore/transaction.go:199-201 -/
def witnessHash [Hashes] (tx : Transaction) : Bytes := sha256d (serialize tx)

/-- The input being signed as written by RawSignatureHash, xcore/transaction.go:290-302. -/
def writeSigInput (idx : Nat) (b : Buffer) (ip : TxIn × Nat) : Res Buffer := do
  let i := ip.1
  let b := (b.writeBytes i.hash).writeU32 i.index
  let b ← if ip.2 = idx then
      match i.redeemScript with
      | some r => .ok (b.writeVarBytes r)
      | none => removeOpcode i.finalLockingScript 0xab >>= fun s => .ok (b.writeVarBytes s)
    else .ok (b.writeVarBytes [])
  return b.writeU32 i.sequence

/-- Left fold with panics. -/
def foldRes {α β : Type} (f : β → α → Res β) : β → List α → Res β
  | b, [] => .ok b
  | b, a :: as => do
    let b ← f b a
    foldRes f b as

/-- The part of RawSignatureHash written for SigHashAll, xcore/transaction.go:287-310. -/
def writeSigAll (tx : Transaction) (idx : Nat) (b : Buffer) : Res Buffer := do
  let b ← foldRes (writeSigInput idx) (b.writeVarInt (UInt64.ofNat tx.inputs.length)) tx.inputs.zipIdx
  return tx.outputs.foldl writeOutput (b.writeVarInt (UInt64.ofNat tx.outputs.length))

/-- The preimage of RawSignatureHash, xcore/transaction.go:281-314. -/
def rawPreimage (tx : Transaction) (idx : Nat) (hashType : UInt32) : Res Bytes := do
  let b := Buffer.new.writeU32 tx.version
  let b ← if hashType = 1 then writeSigAll tx idx b else .ok b
  return ((b.writeU32 tx.lockTime).writeU32 hashType).data

/-- xcore/transaction.go:281-316 -/
def rawSignatureHash [Hashes] (tx : Transaction) (idx : Nat) (hashType : UInt32) : Res Bytes := do
  let p ← rawPreimage tx idx hashType
  return sha256d p

def zeroHash : Bytes := List.replicate 32 0

/-- xcore/transaction.go:326-337 -/
def cachePrevouts [Hashes] (tx : Transaction) (t : UInt32) : Bytes :=
  if t &&& 0x80 = 0 then
    tx.hashPrevouts.getD (sha256d (tx.inputs.foldl (fun b i => (b.writeBytes i.hash).writeU32 i.index) Buffer.new).data)
  else zeroHash

/-- xcore/transaction.go:342-352 -/
def cacheSequence [Hashes] (tx : Transaction) (t : UInt32) : Bytes :=
  if t &&& 0x80 = 0 ∧ t &&& 0x1f ≠ 3 ∧ t &&& 0x1f ≠ 2 then
    tx.hashSequence.getD (sha256d (tx.inputs.foldl (fun b i => b.writeU32 i.sequence) Buffer.new).data)
  else zeroHash

/-- xcore/transaction.go:358-369. The tests are on the bits 3 and 2 of the hash type as written:
`hashType&SigHashSingle != SigHashSingle && hashType&SigHashNone != SigHashNone`. -/
def cacheOutputs [Hashes] (tx : Transaction) (t : UInt32) : Bytes :=
  if t &&& 3 ≠ 3 ∧ t &&& 2 ≠ 2 then
    tx.hashOutputs.getD (sha256d (tx.outputs.foldl writeOutput Buffer.new).data)
  else zeroHash

/-- The transaction after the cache updates of xcore/transaction.go:323-369. -/
def updateCaches [Hashes] (tx : Transaction) (t : UInt32) : Transaction :=
  { tx with hashPrevouts := some (cachePrevouts tx t), hashSequence := some (cacheSequence tx t),
            hashOutputs := some (cacheOutputs tx t) }

/-- The preimage of WitnessV0SignatureHash, xcore/transaction.go:371-382, from the caches. -/
def witnessPreimage (tx : Transaction) (i : TxIn) (t : UInt32) : Bytes :=
  let b := Buffer.new.writeU32 tx.version
  let b := b.writeBytes (tx.hashPrevouts.getD [])
  let b := b.writeBytes (tx.hashSequence.getD [])
  let b := b.writeBytes i.hash
  let b := b.writeU32 i.index
  let b := b.writeVarBytes (i.witnessScriptCode.getD [])
  let b := b.writeU64 i.value
  let b := b.writeU32 i.sequence
  let b := b.writeBytes (tx.hashOutputs.getD [])
  let b := b.writeU32 tx.lockTime
  (b.writeU32 t).data

/-- xcore/transaction.go:319-384: the hash and the transaction with its new caches. -/
def witnessSignatureHash [Hashes] (tx : Transaction) (idx : Nat) (t : UInt32) : Res (Bytes × Transaction) := do
  let i ← Res.ofIdx tx.inputs[idx]?
  let tx := updateCaches tx t
  return (sha256d (witnessPreimage tx i t), tx)

/-- xcore/transaction.go:738-765. The size is a Go `int`; it does not overflow for data that fits in memory. -/
def baseSize (tx : Transaction) : Nat :=
  4 + Buffer.varIntSerializeSize (UInt64.ofNat tx.inputs.length) +
  (tx.inputs.map fun i => i.hash.length + 4 +
    Buffer.varIntSerializeSize (UInt64.ofNat i.rawUnlockingScript.length) + i.rawUnlockingScript.length + 4).sum +
  Buffer.varIntSerializeSize (UInt64.ofNat tx.outputs.length) +
  (tx.outputs.map fun o => 8 + Buffer.varIntSerializeSize (UInt64.ofNat o.script.length) + o.script.length).sum + 4

/-- xcore/transaction.go:768-782 -/
def witnessSize (tx : Transaction) : Nat :=
  if hasWitness tx then
    (tx.inputs.map fun i => Buffer.varIntSerializeSize (UInt64.ofNat i.witness.length) +
      (i.witness.map fun w => Buffer.varIntSerializeSize (UInt64.ofNat w.length) + w.length).sum).sum
  else 0

/-- xcore/transaction.go:785-789 -/
def weight (tx : Transaction) : Nat := baseSize tx * (4 - 1) + (baseSize tx + witnessSize tx)

/-- xcore/transaction.go:792-794 -/
def vsize (tx : Transaction) : Nat := weight tx / 4

/-- xcore/transaction.go:797-799 -/
def size (tx : Transaction) : Nat := baseSize tx + witnessSize tx

/-- xcore/transaction.go:802-814: `uint64` sums that wrap, converted to `int`. -/
def fees (tx : Transaction) : Int :=
  intOfU64 ((tx.inputs.foldl (fun a i => a + i.value) 0) - (tx.outputs.foldl (fun a o => a + o.value) 0))

end Toku.Tx
