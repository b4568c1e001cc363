import Verif.Model.TxEcdsa
import Verif.Props.Ecdsa
import Verif.Props.TxWire
/-
Property C86: signed transactions verify, with secp256k1 ECDSA as it is implemented and no assumption on signatures.
-/
namespace Toku.Props
open Toku Toku.Spec Toku.Curve Toku.Keys Toku.Tx Toku.Locking

variable [Hashes]

omit [Hashes] in
/-- The public key of a key is a finite point. -/
theorem pub_finite (k : Ecdsa.Key) : natOfBE k.val • G ≠ 0 := by
  have h := k.property
  have e : natOfBE k.val • G = (natOfBE k.val % N) • G := by
    conv_lhs => rw [← Nat.div_add_mod (natOfBE k.val) N, add_smul, mul_comm, mul_smul, N_smul_G]
    simp
  rw [e]
  exact Ecdsa.smul_ne (by omega) (Nat.mod_lt _ (by decide +kernel))

omit [Hashes] in
/-- **C86.** The key bytes are a serialisation of the point `kG`. -/
theorem C86_pub (k : Ecdsa.Key) :
    Compressed (natOfBE k.val • G) (Ecdsa.pubBytes k true) ∧ Uncompressed (natOfBE k.val • G) (Ecdsa.pubBytes k false) := by
  obtain ⟨⟨a, ea, ha⟩, ⟨b, eb, hb⟩, _⟩ := C59_serialize _ (pub_finite k)
  have e1 : Ecdsa.pubBytes k true = a := by
    unfold Ecdsa.pubBytes
    rw [C61_prvFromBytes]
    change (match serializeCompressed (keyOf (natOfBE k.val • G)) with | .ok b => b | _ => []) = a
    rw [ea]
  have e2 : Ecdsa.pubBytes k false = b := by
    unfold Ecdsa.pubBytes
    rw [C61_prvFromBytes]
    change (match serializeUncompressed (keyOf (natOfBE k.val • G)) with | .ok b => b | _ => []) = b
    rw [eb]
  rw [e1, e2]
  exact ⟨ha, hb⟩

omit [Hashes] in
/-- **C86.** What verification in transactions accepts: a standard serialisation of a point (or the one with prefix 5),
and a signature under it. -/
theorem C86_verify (hash sig pub : Bytes) : Ecdsa.verifyBytes hash sig pub = .ok () ↔
    ∃ q r s, pubFromBytes pub = .ok (keyOf q) ∧ q ≠ 0 ∧ Der.unmarshal sig = .ok (r, s) ∧ Signature q hash r s := by
  unfold Ecdsa.verifyBytes
  constructor
  · intro h
    obtain ⟨p, hp, h⟩ := Res.bind_eq_ok.mp h
    obtain ⟨q, hq, rfl, _⟩ := parse_inv hp
    obtain ⟨r, s, h1, h2⟩ := (C62_ecdsaVerify q hash sig).mp h
    exact ⟨q, r, s, hp, hq, h1, h2⟩
  · rintro ⟨q, r, s, hp, hq, h1, h2⟩
    rw [hp, Res.ok_bind]
    exact (C62_ecdsaVerify q hash sig).mpr ⟨r, s, h1, h2⟩

omit [Hashes] in
theorem verifyBytes_no_panic (hash sig pub : Bytes) : Ecdsa.verifyBytes hash sig pub ≠ .panic := by
  intro h
  unfold Ecdsa.verifyBytes at h
  rcases Res.bind_eq_panic.mp h with h | ⟨p, hp, h⟩
  · exact C60_no_panic _ h
  obtain ⟨q, hq, rfl, _⟩ := parse_inv hp
  unfold Ecdsa.ecdsaVerify at h
  rcases Res.bind_eq_panic.mp h with h | ⟨⟨r, s⟩, hrs, h⟩
  · exact C65_no_panic _ h
  dsimp only at h
  rcases Res.bind_eq_panic.mp h with h | ⟨b, hb, h⟩
  · rcases C62_verify q hash r s with ⟨hv, _⟩ | ⟨hv, _⟩ <;>
    · unfold keyOf at hv
      rw [hv] at h
      cases h
  · split at h <;> cases h

/-- **C86.** The scheme has the properties assumed in C43 and C84. -/
theorem C86_lawful (fuel : ℕ) : Lawful (Ecdsa.scheme fuel) where
  pub_length k := by
    obtain ⟨⟨a, ha, e⟩, ⟨b, c, hb, hc, e'⟩⟩ := C86_pub k
    change (Ecdsa.pubBytes k true).length = 33 ∧ (Ecdsa.pubBytes k false).length = 65
    rw [e, e']
    simp [ha.1, hb.1, hc.1]
  sign_ok k h sig hs := by
    obtain ⟨p, hp, hs⟩ := Res.bind_eq_ok.mp hs
    obtain ⟨h1, h2, h3, _⟩ := C62_ecdsa fuel k.val h sig p hp hs
    rw [C61_prvFromBytes] at hp
    cases hp
    refine ⟨h2, by omega, fun c => ?_⟩
    change Ecdsa.verifyBytes h sig (Ecdsa.pubBytes k c) = .ok ()
    obtain ⟨hc, hu⟩ := C86_pub k
    unfold Ecdsa.verifyBytes
    cases c with
    | true => rw [C59_parse _ (pub_finite k) _ (Or.inl hc)]; exact h1
    | false => rw [C59_parse _ (pub_finite k) _ (Or.inr (Or.inl hu))]; exact h1
  no_panic := verifyBytes_no_panic

/-- **C86.** C43 for secp256k1: a transaction whose inputs were all signed with the right keys verifies. -/
theorem C86_signed_verifies (fuel : ℕ) (tx tx' : Transaction) (calls : List (SignCall Ecdsa.Key)) (t0 : UInt32)
    (h1 : tx.hashPrevouts = none) (h2 : tx.hashSequence = none) (h3 : tx.hashOutputs = none)
    (hcoin : ∀ i ∈ tx.inputs, FromCoin i)
    (hall : ∀ idx < tx.inputs.length, ∃ c ∈ calls, c.idx = idx)
    (hkeys : ∀ c ∈ calls, ∀ i s, tx.inputs[c.idx]? = some i → parse i.rawLockingScript = .ok s →
      RightKeys (Ecdsa.scheme fuel) s i.redeemScript c.compressed c.keys)
    (htype : ∀ c ∈ calls, c.hashType < 256)
    (hclass : ∀ c ∈ calls, ∀ i, tx.inputs[c.idx]? = some i → i.hasWitness = true → SameClass t0 c.hashType)
    (hsign : signAll (Ecdsa.scheme fuel) tx calls = .ok tx') : (verify (Ecdsa.scheme fuel) tx').1 = .ok () :=
  C43_signed_verifies_partial _ (C86_lawful fuel) tx tx' calls t0 h1 h2 h3 hcoin hall hkeys htype hclass hsign

/-- **C86.** C84 for secp256k1: it also verifies after transmission. -/
theorem C86_signed_wire_verifies (fuel : ℕ) (tx tx' : Transaction) (calls : List (SignCall Ecdsa.Key)) (t0 : UInt32)
    (h1 : tx.hashPrevouts = none) (h2 : tx.hashSequence = none) (h3 : tx.hashOutputs = none)
    (hcoin : ∀ i ∈ tx.inputs, FromCoin i)
    (hall : ∀ idx < tx.inputs.length, ∃ c ∈ calls, c.idx = idx)
    (hkeys : ∀ c ∈ calls, ∀ i s, tx.inputs[c.idx]? = some i → parse i.rawLockingScript = .ok s →
      RightKeys (Ecdsa.scheme fuel) s i.redeemScript c.compressed c.keys)
    (htype : ∀ c ∈ calls, c.hashType < 256)
    (hclass : ∀ c ∈ calls, ∀ i, tx.inputs[c.idx]? = some i → i.hasWitness = true → SameClass t0 c.hashType)
    (hsign : signAll (Ecdsa.scheme fuel) tx calls = .ok tx')
    (hsmall : ∀ i ∈ tx.inputs, ∀ h, parse i.rawLockingScript = .ok ⟨.p2wsh, h⟩ → ∃ (m : Nat) (pubs : List Bytes) (r : Bytes),
      i.redeemScript = some r ∧ genMultiSig m pubs = .ok r ∧ m ≤ pubs.length ∧ 1 ≤ pubs.length ∧ pubs.length ≤ 16 ∧ r.length < 2^62 ∧
      ∀ p ∈ pubs, p.length = 33 ∨ p.length = 65)
    (henc : Encodable tx') (hsize : (serialize tx').length < 2^43) :
    ∃ txd tx2, (if hasWitness tx' then deserialize Tx.new (serialize tx') else deserializeNoWitness Tx.new (serialize tx')) =
        .ok (txd, []) ∧ supplyCoins tx'.inputs 0 txd = .ok tx2 ∧ (verify (Ecdsa.scheme fuel) tx2).1 = .ok () :=
  C84_signed_wire_verifies _ (C86_lawful fuel) tx tx' calls t0 h1 h2 h3 hcoin hall hkeys htype hclass hsign hsmall henc hsize

end Toku.Props
