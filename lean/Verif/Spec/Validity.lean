import Verif.Spec.Bitcoin
import Verif.Spec.Tx
import Verif.Spec.Ecdsa
import Verif.Spec.Keys
/-
When the scripts of a transaction are valid for Bitcoin: the transaction on the wire (BIP144), the signature hashes (the original
ones for all hash types, BIP143), what a signature is (BIP66, SEC 1), and the check of one input (BIP16, BIP141). Written down
without the model of the library; from it only the hash functions and the record of an output are taken. Not part of this: amounts, double
spending, lock times, sizes, taproot.
-/
namespace Toku.Spec.Bitcoin
open Toku Toku.Spec

/-- An input with its witness. -/
structure In where
  prev : Bytes
  index : UInt32
  scriptSig : Bytes
  sequence : UInt32
  witness : List Bytes

structure BTx where
  version : UInt32
  ins : List In
  outs : List Tx.TxOut
  lockTime : UInt32

/-- The transaction on the wire; the form of BIP144 if some input has a witness. -/
def BTx.bytes (tx : BTx) : Bytes :=
  if tx.ins.any (fun i => !i.witness.isEmpty) then
    le 4 tx.version.toNat ++ [0, 1] ++ counted (fun i => wireIn i.prev i.index i.scriptSig i.sequence) tx.ins ++
    counted wireOut tx.outs ++ tx.ins.flatMap (fun i => counted varStr i.witness) ++ le 4 tx.lockTime.toNat
  else
    le 4 tx.version.toNat ++ counted (fun i => wireIn i.prev i.index i.scriptSig i.sequence) tx.ins ++
    counted wireOut tx.outs ++ le 4 tx.lockTime.toNat

/-! ### Signature hashes -/

/-- The low five bits say which outputs are signed: 2 is NONE, 3 is SINGLE, all else is ALL. -/
def base (t : UInt32) : UInt32 := t &&& 0x1f

/-- ANYONECANPAY: only the own input is signed. -/
def onlyOwn (t : UInt32) : Bool := t &&& 0x80 ≠ 0

/-- The inputs of the original signature hash: the script code in the own one, no script in the others, and no sequence in the
others for NONE and SINGLE. -/
def legacyIns (tx : BTx) (idx : Nat) (code : Bytes) (t : UInt32) : List Bytes :=
  let all := tx.ins.zipIdx.map fun p => wireIn p.1.prev p.1.index (if p.2 = idx then code else [])
    (if p.2 ≠ idx ∧ (base t = 2 ∨ base t = 3) then 0 else p.1.sequence)
  if onlyOwn t then all[idx]?.toList else all

/-- The outputs: none for NONE; for SINGLE the one at the same place, after as many empty ones with value -1 as are before it. -/
def legacyOuts (tx : BTx) (idx : Nat) (t : UInt32) : List Tx.TxOut :=
  if base t = 2 then [] else if base t = 3 then List.replicate idx ⟨0xffffffffffffffff, []⟩ ++ tx.outs[idx]?.toList else tx.outs

/-- The original signature hash; the number one for SINGLE without an output at that place. -/
def legacyHash [Hashes] (tx : BTx) (idx : Nat) (code : Bytes) (t : UInt32) : Bytes :=
  if base t = 3 ∧ tx.outs.length ≤ idx then 1 :: List.replicate 31 0
  else sha256d (le 4 tx.version.toNat ++ counted id (legacyIns tx idx code t) ++ counted wireOut (legacyOuts tx idx t) ++
    le 4 tx.lockTime.toNat ++ le 4 t.toNat)

/-- The signature hash of BIP143, for the input `i` at place `idx` that spends a coin of value `value`. -/
def witnessHash [Hashes] (tx : BTx) (idx : Nat) (i : In) (value : UInt64) (code : Bytes) (t : UInt32) : Bytes :=
  let zero : Bytes := List.replicate 32 0
  sha256d (le 4 tx.version.toNat ++
    (if onlyOwn t then zero else sha256d (tx.ins.flatMap fun i => i.prev ++ le 4 i.index.toNat)) ++
    (if onlyOwn t ∨ base t = 3 ∨ base t = 2 then zero else sha256d (tx.ins.flatMap fun i => le 4 i.sequence.toNat)) ++
    i.prev ++ le 4 i.index.toNat ++ varStr code ++ le 8 value.toNat ++ le 4 i.sequence.toNat ++
    (if base t = 3 then (match tx.outs[idx]? with | some o => sha256d (wireOut o) | none => zero)
     else if base t = 2 then zero else sha256d (tx.outs.flatMap wireOut)) ++
    le 4 tx.lockTime.toNat ++ le 4 t.toNat)

/-! ### Signatures -/

/-- A positive number in as few bytes as possible, the first below 128. -/
def Positive (c : Bytes) : Prop :=
  c ≠ [] ∧ (∀ a t, c = a :: t → a.toNat < 128) ∧ ∀ a b t, c = a :: b :: t → a = 0 → 128 ≤ b.toNat

/-- IsValidSignatureEncoding of BIP66: 0x30, length, 2, length of R, R, 2, length of S, S, hash type, and at most 73 bytes. -/
def Bip66 (sig r s : Bytes) (t : UInt8) : Prop :=
  sig = [0x30, UInt8.ofNat (r.length + s.length + 4), 2, UInt8.ofNat r.length] ++ r ++ [2, UInt8.ofNat s.length] ++ s ++ [t] ∧
    sig.length ≤ 73 ∧ Positive r ∧ Positive s

open Classical in
/-- The check of a signature under a key; `hash` gives the hash for a hash type. An empty signature is not valid, and another one that is
not of the form of BIP66 fails the script. -/
noncomputable def checkSig (hash : UInt32 → Bytes) (sig key : Bytes) : Option Bool :=
  if sig = [] then some false
  else if ∃ r s t, Bip66 sig r s t then
    some (decide (∃ r s t q, Bip66 sig r s t ∧ q ≠ 0 ∧ (Compressed q key ∨ Uncompressed q key ∨ Hybrid q key) ∧
      Signature q (hash t.toUInt32) (beNat r) (beNat s)))
  else none

/-- The check of a signature in a legacy script `code`. A signature that is itself pushed in the script is deleted from it before
hashing (FindAndDelete); here it fails. The opcodes of Spec/Bitcoin.lean do not have OP_CODESEPARATOR. -/
noncomputable def legacyCheck [Hashes] (tx : BTx) (idx : Nat) (code : List Token) (sig key : Bytes) : Option Bool :=
  if ⟨UInt8.ofNat sig.length, sig⟩ ∈ code then none else checkSig (legacyHash tx idx (encTokens code)) sig key

/-! ### Inputs -/

/-- A witness program: a version and a push of 2 to 40 bytes. -/
def IsWitnessProgram (script : Bytes) : Prop :=
  ∃ v p : Bytes, script = v ++ [UInt8.ofNat p.length] ++ p ∧ 2 ≤ p.length ∧ p.length ≤ 40 ∧
    (v = [0] ∨ ∃ n : UInt8, v = [n] ∧ 0x51 ≤ n.toNat ∧ n.toNat ≤ 0x60)

/-- `VerifyScript` where the check of signatures depends on the script that is running; and the script of P2SH is not a witness
program. -/
def VerifyLegacy (R : Rules) (hash160 : Bytes → Bytes) (check : List Token → Bytes → Bytes → Option Bool) (u l : List Token) : Prop :=
  ∃ s1 x s2, EvalScript R hash160 (check u) u [] s1 ∧ EvalScript R hash160 (check l) l s1 (x :: s2) ∧ Truthy x ∧
    (IsP2SH l → (∀ t ∈ u, t.op.toNat ≤ 0x60) ∧ ∃ rts s3 y s4, (∀ t ∈ rts, t.Valid) ∧ s1 = encTokens rts :: s3 ∧
      ¬ IsWitnessProgram (encTokens rts) ∧ EvalScript R hash160 (check rts) rts s3 (y :: s4) ∧ Truthy y)

/-- The input at `idx` may spend the coin: by its unlocking script if the script of the coin is no witness program, and then there is no
witness; by its witness if it is a program of version 0, and then there is no unlocking script. -/
def ValidInput [Hashes] (tx : BTx) (idx : Nat) (coin : Tx.TxOut) : Prop :=
  ∃ i, tx.ins[idx]? = some i ∧
    ((¬ IsWitnessProgram coin.script ∧ i.witness = [] ∧ ∃ u l, (∀ t ∈ u ++ l, t.Valid) ∧ i.scriptSig = encTokens u ∧
        coin.script = encTokens l ∧ VerifyLegacy consensus hash160 (legacyCheck tx idx) u l) ∨
     (∃ p : Bytes, p.length = 20 ∧ coin.script = [0x00, 0x14] ++ p ∧ i.scriptSig = [] ∧
        VerifyP2WPKH consensus hash160
          (checkSig (witnessHash tx idx i coin.value ([0x76, 0xa9, 0x14] ++ p ++ [0x88, 0xac]))) p i.witness) ∨
     (∃ p code : Bytes, p.length = 32 ∧ coin.script = [0x00, 0x20] ++ p ∧ i.scriptSig = [] ∧ i.witness.getLast? = some code ∧
        VerifyP2WSH consensus hash160 Hashes.sha256 (checkSig (witnessHash tx idx i coin.value code)) p i.witness))

/-- Every input may spend its coin. -/
def ValidScripts [Hashes] (tx : BTx) (coins : List Tx.TxOut) : Prop :=
  coins.length = tx.ins.length ∧ ∀ idx coin, coins[idx]? = some coin → ValidInput tx idx coin

end Toku.Spec.Bitcoin
