import Verif.Model.Tx
import Verif.Model.VMS
/-
xcore/transaction.go: signing (209-278, 387-432) and verification (684-734).

ECDSA is a parameter here (`Ecdsa`); Model/Ecdsa.lean models the implementation.
-/
namespace Toku.Tx
open Toku.Locking Toku.Script

/-- The signature scheme used by transactions: the serialised public key of a private key (compressed or
not, xcrypto/pubkey.go), `EcdsaSign` (xcrypto/signature_ecdsa.go:44-52), and `PubKeyFromBytes` followed by
`EcdsaVerify` (xcrypto/signature_ecdsa.go:55-66) on a hash, a signature and key bytes. -/
structure Ecdsa (κ : Type) where
  pub : κ → Bool → Bytes
  sign : κ → Bytes → Res Bytes
  verify : Bytes → Bytes → Bytes → Res Unit

variable {κ : Type} [Hashes] (E : Ecdsa κ)

def errSignOutIndex : Err := .num 5000
def errSignRedeemEmpty : Err := .num 5001
def errVerifyFailed : Err := .num 5002
def errSignatureType : Err := .num 4107

/-- xcore/transaction.go:387-401 -/
def rawSignature (tx : Transaction) (idx : Nat) (t : UInt32) (key : κ) : Res Bytes :=
  if tx.inputs.length ≤ idx then .err errSignOutIndex
  else do
    let h ← rawSignatureHash tx idx t
    let sig ← E.sign key h
    return sig ++ [t.toUInt8]

/-- xcore/transaction.go:404-432; also returns the transaction with its new caches. -/
def witnessSignature (tx : Transaction) (idx : Nat) (t : UInt32) (key : κ) : Res (Bytes × Transaction) :=
  if tx.inputs.length ≤ idx then .err errSignOutIndex
  else do
    let i ← Res.ofIdx tx.inputs[idx]?
    let s ← parse i.rawLockingScript
    match scriptVersion s with
    | .witnessV0 => do
      let (h, tx) ← witnessSignatureHash tx idx t
      let sig ← E.sign key h
      return (sig ++ [t.toUInt8], tx)
    | .base => .err errSignatureType

/-- xcore/transaction.go:222-236: one signature, with the transaction afterwards. -/
def signOne (tx : Transaction) (idx : Nat) (t : UInt32) (witness : Bool) (key : κ) : Res (Bytes × Transaction) :=
  if witness then witnessSignature E tx idx t key
  else rawSignature E tx idx t key >>= fun s => .ok (s, tx)

/-- xcore/transaction.go:218-243: the loop over the keys. -/
def signKeys (idx : Nat) (compressed : Bool) (t : UInt32) (witness : Bool) :
    List κ → Transaction → Res (List PubKeySign × Transaction)
  | [], tx => .ok ([], tx)
  | key :: keys, tx => do
    let (sig, tx) ← signOne E tx idx t witness key
    let (rest, tx) ← signKeys idx compressed t witness keys tx
    return (⟨E.pub key compressed, sig⟩ :: rest, tx)

/-- xcore/transaction.go:248-269: an error of GetRawUnlockingScriptBytes is swallowed, leaving an empty
unlocking script. The transaction left behind when an error is returned is not modelled. -/
def embed (tx : Transaction) (idx : Nat) (signs : List PubKeySign) : Res Transaction := do
  let i ← Res.ofIdx tx.inputs[idx]?
  if signs.length > 1 ∧ i.redeemScript = none then .err errSignRedeemEmpty
  else do
    let s ← parse i.rawLockingScript
    match rawUnlocking s signs i.redeemScript with
    | .panic => .panic
    | .err _ => .ok (putInput tx idx { i with rawUnlockingScript := [] })
    | .ok u => do
      let w ← witnessUnlocking s signs i.redeemScript
      return putInput tx idx { i with rawUnlockingScript := u, witness := w }

/-- xcore/transaction.go:272-278 -/
def embedEcdsa (tx : Transaction) (idx : Nat) (key : κ) (sig : Bytes) (t : UInt32) : Res Transaction :=
  embed tx idx [⟨E.pub key true, sig ++ [t.toUInt8]⟩]

/-- xcore/transaction.go:209-245. The transaction left behind when an error is returned is not modelled. -/
def signIndex (tx : Transaction) (idx : Nat) (compressed : Bool) (t : UInt32) (keys : List κ) : Res Transaction := do
  let i ← Res.ofIdx tx.inputs[idx]?
  if keys.length > 1 ∧ i.redeemScript = none then .err errSignRedeemEmpty
  else do
    let (signs, tx) ← signKeys E idx compressed t i.hasWitness keys tx
    embed tx idx signs

/-- The signature hash callback installed by Verify, xcore/transaction.go:696-708. -/
def sigHashFn (idx : Nat) (version : Version) (t : UInt8) : VMS.M Transaction Bytes := fun tx =>
  match version with
  | .base => (rawSignatureHash tx idx t.toUInt32, tx)
  | .witnessV0 =>
    match witnessSignatureHash tx idx t.toUInt32 with
    | .ok (h, tx) => (.ok h, tx)
    | .err e => (.err e, tx)
    | .panic => (.panic, tx)

/-- The callbacks of one input, xcore/transaction.go:694-725. -/
def engineEnv (idx : Nat) (version : Version) : VMS.Env Transaction := ⟨hash160, sigHashFn idx version, E.verify⟩

/-- One round of the loop of Verify, xcore/transaction.go:685-732. -/
def verifyInput (idx : Nat) (i : TxIn) : VMS.M Transaction Unit := do
  let s ← VMS.lift (parse i.rawLockingScript)
  fun tx =>
    match VMS.verify (engineEnv E idx (scriptVersion s)) i.rawUnlockingScript i.finalLockingScript VM.fresh tx with
    | (.ok _, tx) => (.ok (), tx)
    | (.err _, tx) => (.err errVerifyFailed, tx)
    | (.panic, tx) => (.panic, tx)

/-- The loop of Verify over the inputs and their positions. -/
def verifyInputs : List (TxIn × Nat) → VMS.M Transaction Unit
  | [] => VMS.lift (.ok ())
  | (i, idx) :: rest => do
    verifyInput E idx i
    verifyInputs rest

/-- xcore/transaction.go:684-734: the result, and the transaction with its caches afterwards. -/
def verify (tx : Transaction) : Res Unit × Transaction := verifyInputs E tx.inputs.zipIdx tx

end Toku.Tx
