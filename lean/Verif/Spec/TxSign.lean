import Verif.Spec.Locking
import Verif.Model.TxSign
/-
What "the right keys" means for an input, and what is assumed of the signature scheme.
-/
namespace Toku.Spec
open Toku.Tx Toku.Locking

variable {κ : Type}

/-- The scheme: public keys of 33 and 65 bytes, signatures of 8 to 72 bytes that are accepted under both
serialisations of the key, and verification that returns on every input. -/
structure Lawful (E : Ecdsa κ) : Prop where
  pub_length : ∀ k, (E.pub k true).length = 33 ∧ (E.pub k false).length = 65
  sign_ok : ∀ k h sig, E.sign k h = .ok sig → 8 ≤ sig.length ∧ sig.length ≤ 72 ∧ ∀ c, E.verify h sig (E.pub k c) = .ok ()
  no_panic : ∀ h s p, E.verify h s p ≠ .panic

/-- `r` is the m-of-n multisig script of some public keys, of which the given m private keys match a
subsequence. -/
def MultisigOf (E : Ecdsa κ) (r : Bytes) (keys : List κ) : Prop :=
  ∃ pubs chosen : List Bytes, genMultiSig keys.length pubs = .ok r ∧ (∀ p ∈ pubs, p.length = 33 ∨ p.length = 65) ∧
    pubs.length < 2^31 ∧ r.length < 2^32 ∧ 1 ≤ keys.length ∧ chosen.Sublist pubs ∧
    List.Forall₂ (fun k p => ∃ c, p = E.pub k c) keys chosen

/-- The keys that can spend a standard output: the key whose hash is in the script, or keys of a multisig
script whose hash is in the script. -/
def RightKeys [Hashes] (E : Ecdsa κ) (s : LockScript) (redeem : Option Bytes) (compressed : Bool) (keys : List κ) : Prop :=
  match s.kind with
  | .p2pkh | .p2wpkh => ∃ k rest, keys = k :: rest ∧ hash160 (E.pub k compressed) = s.hash
  | .p2sh => ∃ r, redeem = some r ∧ hash160 r = s.hash ∧ MultisigOf E r keys
  | .p2wsh => ∃ r, redeem = some r ∧ Hashes.sha256 r = s.hash ∧ MultisigOf E r keys

end Toku.Spec
