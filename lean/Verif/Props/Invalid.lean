import Verif.Props.Validity
import Verif.Proof.Invalid
import Verif.Model.Sha
/-
Property C126: where what the library signs is not valid for Bitcoin; and a case where it is.
-/
namespace Toku.Props
open Toku Toku.Spec Toku.Script Toku.Locking Toku.Tx Toku.Curve Toku.Keys
open Toku.Spec.Bitcoin (ValidScripts)

/-! ### Where it is not valid -/

section
attribute [local instance] Sha.realHashes

/-- A private key, its public key and the hash of that. -/
def spendKey : Ecdsa.Key := ⟨List.replicate 32 7, by decide +kernel⟩
def spendPub : Bytes := [2, 152, 156, 11, 118, 203, 86, 57, 113, 253, 201, 190, 243, 30, 192, 108, 53, 96, 243, 36, 157, 110, 233, 229, 216, 60, 87, 98, 85, 150, 224, 95, 111]
def spendHash : Bytes := [163, 198, 177, 238, 74, 73, 217, 242, 175, 59, 56, 2, 151, 71, 68, 251, 169, 36, 22, 74]

/-- A transaction that spends an input to another P2PKH script. -/
def spendOf (i : TxIn) : Transaction :=
  { Tx.new with inputs := [i], outputs := [⟨4000, standardScript .p2pkh (List.replicate 20 3)⟩] }

/-- An input made by NewTxIn. -/
private def made (kind : Locking.Kind) (code redeem : Option Bytes) : TxIn :=
  ⟨List.replicate 32 9, 0, 5000, 0xffffffff, redeem, [], code, standardScript kind spendHash, standardScript .p2pkh spendHash, []⟩

private def noneSig : Bytes := [48, 69, 2, 33, 0, 245, 4, 158, 77, 155, 80, 234, 231, 79, 144, 72, 96, 112, 236, 245, 187, 198, 95, 142, 67, 130, 185, 229, 243, 249, 207, 197, 60, 254, 29, 201, 191, 2, 32, 56, 0, 151, 243, 83, 58, 19, 57, 205, 211, 106, 153, 93, 112, 123, 84, 91, 94, 175, 210, 5, 11, 217, 194, 149, 32, 246, 246, 107, 138, 77, 29]
private def singleSig : Bytes := [48, 69, 2, 33, 0, 138, 220, 27, 241, 36, 218, 66, 224, 238, 165, 236, 144, 67, 45, 136, 74, 163, 156, 42, 146, 61, 71, 142, 220, 212, 76, 167, 160, 88, 80, 218, 32, 2, 32, 18, 25, 71, 145, 108, 72, 209, 37, 1, 23, 47, 9, 60, 39, 38, 174, 15, 189, 252, 6, 88, 178, 50, 187, 230, 13, 255, 85, 247, 192, 121, 125]
private def redeemSig : Bytes := [48, 68, 2, 32, 0, 233, 215, 97, 43, 124, 150, 116, 33, 205, 237, 173, 188, 196, 220, 131, 149, 58, 76, 241, 181, 71, 15, 209, 79, 218, 185, 50, 203, 180, 46, 163, 2, 32, 35, 202, 47, 174, 8, 39, 33, 133, 54, 62, 63, 144, 244, 239, 203, 4, 161, 31, 55, 165, 173, 225, 4, 108, 80, 1, 0, 230, 66, 174, 3, 110]

private def noneTx : Transaction := spendOf { made .p2pkh none none with
  rawUnlockingScript := [72] ++ (noneSig ++ [2]) ++ [33] ++ spendPub }
private def singleTx : Transaction := { spendOf { made .p2wpkh (some (standardScript .p2pkh spendHash)) none with
  witness := [singleSig ++ [3], spendPub], rawUnlockingScript := [72] ++ (singleSig ++ [3]) ++ [33] ++ spendPub } with
  hashPrevouts := some [132, 26, 249, 171, 150, 12, 59, 16, 107, 253, 14, 197, 157, 171, 174, 69, 73, 150, 15, 245, 226, 10, 65, 216, 87, 70, 211, 8, 50, 130, 95, 109]
  hashSequence := some (List.replicate 32 0), hashOutputs := some (List.replicate 32 0) }
private def redeemTx : Transaction := spendOf { made .p2pkh none (some [0x51]) with
  rawUnlockingScript := [71] ++ (redeemSig ++ [1]) ++ [33] ++ spendPub }

/-- **C126, negation: legacy hash types.** A P2PKH coin signed with the hash type NONE: the library signs and verifies, and
Bitcoin does not take it. (SHA-256, RIPEMD-160 and the curve are the real ones here and in the next two.) -/
theorem C126_negation_legacy : ∃ i tx', newTxIn (List.replicate 32 9) 0 5000
      (standardScript .p2pkh (hash160 (Ecdsa.pubBytes spendKey true))) none = .ok i ∧
    signIndex (Ecdsa.scheme 4) (spendOf i) 0 true 2 [spendKey] = .ok tx' ∧ (verify (Ecdsa.scheme 4) tx').1 = .ok () ∧
    ¬ ValidScripts (wire tx') [coinOf i] := by
  refine ⟨made .p2pkh none none, noneTx, by decide +kernel, by decide +kernel, by decide +kernel, ?_⟩
  rintro ⟨_, h⟩
  obtain ⟨_, h⟩ := p2pkh_needs (sig := noneSig ++ [2]) (key := spendPub) (p := spendHash) (v := 5000) (by decide) rfl (by decide) (by decide)
    rfl (h 0 _ rfl)
  exact absurd (verify_of_check h) (by decide +kernel)

/-- **C126, negation: SINGLE.** A P2WPKH coin signed with the hash type SINGLE: the library signs and verifies, and Bitcoin does not
take it. -/
theorem C126_negation_single : ∃ i tx', newTxIn (List.replicate 32 9) 0 5000
      (standardScript .p2wpkh (hash160 (Ecdsa.pubBytes spendKey true))) none = .ok i ∧
    signIndex (Ecdsa.scheme 4) (spendOf i) 0 true 3 [spendKey] = .ok tx' ∧ (verify (Ecdsa.scheme 4) tx').1 = .ok () ∧
    ¬ ValidScripts (wire tx') [coinOf i] := by
  refine ⟨made .p2wpkh (some (standardScript .p2pkh spendHash)) none, singleTx, by decide +kernel, by decide +kernel, by decide +kernel, ?_⟩
  rintro ⟨_, h⟩
  obtain ⟨_, sig, key, hw, _, h⟩ := p2wpkh_needs (p := spendHash) (v := 5000) (by decide) rfl (h 0 _ rfl)
  have hw : [singleSig ++ [3], spendPub] = [sig, key] := hw
  cases hw
  exact absurd (verify_of_check h) (by decide +kernel)

/-- **C126, negation: a redeem script with a P2PKH coin.** The builder and NewTxIn take a redeem script for any coin. For P2PKH it is hashed
in place of the script of the coin: the library signs and verifies, and Bitcoin does not take it. -/
theorem C126_negation_redeem : ∃ i tx', newTxIn (List.replicate 32 9) 0 5000
      (standardScript .p2pkh (hash160 (Ecdsa.pubBytes spendKey true))) (some [0x51]) = .ok i ∧
    signIndex (Ecdsa.scheme 4) (spendOf i) 0 true 1 [spendKey] = .ok tx' ∧ (verify (Ecdsa.scheme 4) tx').1 = .ok () ∧
    ¬ ValidScripts (wire tx') [coinOf i] := by
  refine ⟨made .p2pkh none (some [0x51]), redeemTx, by decide +kernel, by decide +kernel, by decide +kernel, ?_⟩
  rintro ⟨_, h⟩
  obtain ⟨_, h⟩ := p2pkh_needs (sig := redeemSig ++ [1]) (key := spendPub) (p := spendHash) (v := 5000) (by decide) rfl (by decide) (by decide)
    rfl (h 0 _ rfl)
  exact absurd (verify_of_check h) (by decide +kernel)

/-! ### Where it is -/

private def allSig : Bytes := [48, 69, 2, 33, 0, 234, 41, 16, 190, 229, 15, 24, 105, 156, 18, 195, 50, 82, 65, 38, 81, 229, 194, 170, 176, 195, 19, 172, 44, 95, 91, 6, 251, 71, 117, 181, 147, 2, 32, 7, 17, 148, 179, 34, 82, 18, 209, 105, 195, 201, 225, 128, 134, 150, 224, 12, 201, 16, 32, 141, 90, 190, 192, 8, 26, 73, 115, 204, 153, 215, 134, 1]
private def witSig : Bytes := [48, 68, 2, 32, 42, 196, 191, 22, 30, 219, 167, 234, 41, 167, 216, 0, 34, 21, 209, 25, 192, 75, 42, 45, 172, 137, 154, 45, 20, 98, 68, 191, 136, 242, 85, 208, 2, 32, 62, 52, 37, 75, 143, 7, 158, 242, 223, 42, 28, 136, 141, 154, 24, 213, 9, 44, 4, 171, 45, 64, 114, 236, 206, 75, 136, 163, 0, 109, 44, 249, 2]

/-- A P2PKH and a P2WPKH coin of the key. -/
private def twoCoins : Transaction := { Tx.new with
  inputs := [made .p2pkh none none, { made .p2wpkh (some (standardScript .p2pkh spendHash)) none with hash := List.replicate 32 8, index := 1, value := 6000 }]
  outputs := [⟨4000, standardScript .p2pkh (List.replicate 20 3)⟩] }

/-- The first signed with ALL and the second with NONE. -/
private def twoSigned : Transaction := { twoCoins with
  inputs := [{ made .p2pkh none none with rawUnlockingScript := [72] ++ allSig ++ [33] ++ spendPub },
    { made .p2wpkh (some (standardScript .p2pkh spendHash)) none with
      hash := List.replicate 32 8, index := 1, value := 6000, witness := [witSig, spendPub],
      rawUnlockingScript := [71] ++ witSig ++ [33] ++ spendPub }]
  hashPrevouts := some [15, 151, 181, 192, 127, 90, 213, 138, 185, 42, 49, 8, 5, 218, 196, 59, 90, 200, 152, 166, 222, 122, 132, 187, 53, 176, 64, 198, 203, 89, 175, 101]
  hashSequence := some (List.replicate 32 0), hashOutputs := some (List.replicate 32 0) }

/-- The hypotheses of `C126_signed_partial`, and its conclusion, for these. -/
example : ValidScripts (wire twoSigned) [⟨5000, standardScript .p2pkh spendHash⟩, ⟨6000, standardScript .p2wpkh spendHash⟩] ∧
    serialize twoSigned = (wire twoSigned).bytes := by
  have hpub : hash160 ((Ecdsa.scheme 4).pub spendKey true) = spendHash := by decide +kernel
  have hp : ∀ k : Locking.Kind, k = .p2pkh ∨ k = .p2wpkh → parse (standardScript k spendHash) = .ok ⟨k, spendHash⟩ := by
    rintro k (rfl | rfl) <;> decide +kernel
  refine C126_signed_partial 4 twoCoins twoSigned [⟨0, true, 1, [spendKey]⟩, ⟨1, true, 2, [spendKey]⟩] rfl rfl rfl ?_ ?_ ?_ ?_ ?_
    (by decide +kernel) ⟨by decide, by decide, by decide, by decide, by decide, by decide⟩ ?_
  · intro i hi
    rcases List.mem_cons.mp hi with rfl | hi
    · exact ⟨List.replicate 32 9, 0, 5000, standardScript .p2pkh spendHash, by decide, by decide +kernel⟩
    · rw [List.mem_singleton.mp hi]
      exact ⟨List.replicate 32 8, 1, 6000, standardScript .p2wpkh spendHash, by decide, by decide +kernel⟩
  · intro idx h
    have h : idx < 2 := h
    interval_cases idx <;> simp
  · intro c hc i s hi hs
    rcases List.mem_cons.mp hc with rfl | hc
    · cases hi
      rw [show (made .p2pkh none none).rawLockingScript = standardScript .p2pkh spendHash from rfl, hp _ (Or.inl rfl)] at hs
      cases hs
      exact ⟨rfl, _, _, rfl, hpub⟩
    · cases List.mem_singleton.mp hc
      cases hi
      have hs : parse (standardScript .p2wpkh spendHash) = .ok s := hs
      rw [hp _ (Or.inr rfl)] at hs
      cases hs
      exact ⟨_, _, rfl, hpub⟩
  · intro c hc i hi
    rcases List.mem_cons.mp hc with rfl | hc
    · cases hi; rfl
    · cases List.mem_singleton.mp hc
      cases hi
      exact ⟨by decide, by decide⟩
  · refine List.pairwise_cons.mpr ⟨fun b hb => ?_, List.pairwise_singleton _ _⟩
    rw [List.mem_singleton.mp hb]
    intro i j hi hj hwi _
    cases hi
    cases hwi
  · intro i hi h hph
    rcases List.mem_cons.mp hi with rfl | hi
    · have hph : parse (standardScript .p2pkh spendHash) = .ok ⟨.p2pkh, h⟩ := hph
      rw [hp _ (Or.inl rfl)] at hph
      cases hph
      decide
    · rw [List.mem_singleton.mp hi] at hph
      have hph : parse (standardScript .p2wpkh spendHash) = .ok ⟨.p2pkh, h⟩ := hph
      rw [hp _ (Or.inr rfl)] at hph
      cases hph

/-- A policy of `SpendableWith`: one of two keys. -/
example (k : Ecdsa.Key) : ∃ r, PolicyOf 4 r [k] ∧ r.length ≤ 520 := by
  obtain ⟨hc, hu⟩ := C86_pub k
  have l1 : (Ecdsa.pubBytes k true).length = 33 := by
    obtain ⟨x, hx, e⟩ := hc
    simp [e, hx.1]
  have l2 : (Ecdsa.pubBytes k false).length = 65 := by
    obtain ⟨x, y, hx, hy, e⟩ := hu
    simp [e, hx.1, hy.1]
  obtain ⟨r, _, _, _, hr, _, _, _, _, _, _, _, _, hlen⟩ := policy (m := 1) (keys := [Ecdsa.pubBytes k true, Ecdsa.pubBytes k false])
    (by simp) (by simp) (by simp [l1, l2])
  refine ⟨r, ⟨_, [Ecdsa.pubBytes k true], hr, by simp, by simp, ?_, by simp, .cons ⟨true, rfl⟩ .nil⟩, ?_⟩
  · intro p hp
    rcases List.mem_cons.mp hp with rfl | hp
    · exact ⟨_, Or.inl hc⟩
    · rw [List.mem_singleton.mp hp]
      exact ⟨_, Or.inr hu⟩
  · simp only [List.length_cons, List.length_nil] at hlen
    omega

/-- A coin of the builder for `C126_built_partial`. -/
example : SpendableCoin 4 (⟨List.replicate 64 0x31, 0, 5000, Id.hexEncode (standardScript .p2wpkh spendHash)⟩, ⟨none, some [spendKey], none, true, none, 1⟩) := by
  have hpub : hash160 ((Ecdsa.scheme 4).pub spendKey true) = spendHash := by decide +kernel
  have hd : Id.hexDecode (Id.hexEncode (standardScript .p2wpkh spendHash)) = .ok (standardScript .p2wpkh spendHash) := by decide +kernel
  have hp : parse (standardScript .p2wpkh spendHash) = .ok ⟨.p2wpkh, spendHash⟩ := by decide +kernel
  refine ⟨by decide +kernel, fun script s keys h1 h2 h3 => ?_, fun script s h1 h2 => ?_⟩
  · have h1 := hd.symm.trans h1
    cases h1
    rw [hp] at h2
    cases h2
    cases h3
    exact ⟨_, _, rfl, hpub⟩
  · have h1 := hd.symm.trans h1
    cases h1
    rw [hp] at h2
    cases h2
    exact ⟨by decide, by decide⟩

end

end Toku.Props
