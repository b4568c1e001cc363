import Verif.Model.TxSign
import Verif.Model.Ecdsa
/-
The signature scheme of transactions, with secp256k1 ECDSA in place of the parameter of Model/TxSign.lean.
-/
namespace Toku.Ecdsa
open Toku.Keys Toku.Curve

/-- Private key bytes (`PrvKeyFromBytes`, xcrypto/prvkey.go:25-37). Bytes that spell a multiple of N are left out: their
public key is the point at infinity, which has no serialisation. -/
def Key := { bs : Bytes // natOfBE bs % N ≠ 0 }

/-- `PubKey().SerializeCompressed()` or `SerializeUncompressed()`; a panic would give no bytes. -/
def pubBytes (k : Key) (compressed : Bool) : Bytes :=
  match (prvFromBytes k.val).bind (fun p => if compressed then serializeCompressed p.pub else serializeUncompressed p.pub) with
  | .ok b => b
  | _ => []

/-- `PubKeyFromBytes` followed by `EcdsaVerify`, xcore/transaction.go:711-722 -/
def verifyBytes (hash sig pub : Bytes) : Res Unit := do
  let p ← pubFromBytes pub
  ecdsaVerify p hash sig

/-- The scheme; `fuel` bounds the rounds of the nonce loop. -/
def scheme [Hashes] (fuel : ℕ) : Tx.Ecdsa Key where
  pub := pubBytes
  sign k h := (prvFromBytes k.val).bind (fun p => ecdsaSign fuel p h)
  verify := verifyBytes

end Toku.Ecdsa
