import Verif.Props.Built
import Verif.Props.HDKey
import Verif.Props.Address
import Verif.Props.Joint
/-
Property C109: a watch-only wallet. Addresses are derived from the text of an extended public key; the coins received there are spent
with the private keys derived along the same paths (xcore/bip32/hdkey.go, xcore/address.go, xcore/transactionbuilder.go).
-/
namespace Toku.Props
open Toku Toku.Spec Toku.Curve Toku.Keys Toku.HDKey Toku.Locking
open Toku.Tx (Transaction verify)
open Toku.Builder (Coin Settings build)

variable [Hashes]

omit [Hashes] in
theorem keyOf_ne_zero {p q : Pt} (hp : p ≠ 0) (h : keyOf p = keyOf q) : q ≠ 0 := by
  rintro rfl
  have h3 := (coords_on hp).2.2
  have e1 : (coords p).1 = (coords (0 : Pt)).1 := congrArg PubKey.x h
  have e2 : (coords p).2 = (coords (0 : Pt)).2 := congrArg PubKey.y h
  rw [e1, e2] at h3
  exact absurd h3 (by decide +kernel)

omit [Hashes] in
theorem hexEncode_length (b : Bytes) : (Id.hexEncode b).length = 2 * b.length := by
  induction b with
  | nil => rfl
  | cons a b ih => simp only [Id.hexEncode, List.length_cons, ih]; omega

/-- **C109.** The text of the public part of a private extended key can be parsed, and whatever the result derives along a path
without hardened steps is the public part of what the private key derives along it. -/
theorem C109_watch (prvID pubID : Bytes) (h1 : prvID.length = 4) (h2 : pubID.length = 4) (A : HDKey) (hA : WF A) (p : PrvKey)
    (hp : A.key = .prv p) (hd : ¬ N ∣ p.d) : ∃ x W, HDKey.toString prvID pubID (hdPublicKey A) = .ok x ∧ fromString x = .ok W ∧
      ∀ path is, PathIs path is → (∀ i ∈ is, i.toNat < 2^31) → ∀ w, deriveByPath W path = .ok w →
        ∃ k, deriveByPath A path = .ok k ∧ w = hdPublicKey k := by
  have hk := hA.key
  rw [hp] at hk
  have hpub : (hdPublicKey A).key = .pub (keyOf (p.d • G)) := by
    change Material.pub (publicKey A) = _
    unfold publicKey
    rw [hp]
    exact congrArg _ hk.2
  obtain ⟨x, hx, hf⟩ := C50_round_trip_partial prvID pubID h1 h2 (hdPublicKey A) (hdPublicKey_wf hA) (by
    intro q hq
    rw [hpub] at hq
    exact keyOf_ne_zero (fun hz => hd ((smul_zero_iff G_ne p.d).mp hz)) (Material.pub.inj hq))
  refine ⟨x, _, hx, hf, fun path is hpath hi w hw => ?_⟩
  rw [C51_path path is hpath] at hw ⊢
  exact C49_agree_path is hi A hA ⟨p, hp⟩ w hw

/-- A coin received at an address of the wallet: the watcher derives a key from `W` along a path without hardened steps and gives out
the text of its P2PKH or P2WPKH address, the payer decodes the text and pays to the script, and the owner puts into the group of the
coin the key derived from `A` along the same path. -/
def ReceivedBy (net : Network) (A W : HDKey) (p : Coin × Builder.Group Ecdsa.Key) : Prop :=
  ∃ path is w pb kind a0 a k prv key, PathIs path is ∧ (∀ i ∈ is, i.toNat < 2^31) ∧ deriveByPath W path = .ok w ∧
    serializeCompressed (publicKey w) = .ok pb ∧ (kind = .p2pkh ∨ kind = .p2wpkh) ∧
    Address.make kind (hash160 pb) = some a0 ∧ Address.decode (Address.text a0 net) net = .ok a ∧
    p.1.script = Id.hexEncode (Address.lockingScript a) ∧
    deriveByPath A path = .ok k ∧ k.key = .prv prv ∧ p.2.keys = some [key] ∧ natOfBE key.val = prv.d ∧
    p.2.compressed = true ∧ p.2.sigHashType = 1

/-- **C109.** The coins received at the addresses of a watch-only wallet can be spent by the owner of the private key: a transaction
that spends such coins, built and signed, verifies. -/
theorem C109_wallet (fuel : ℕ) (net : Network) (hn : net = mainNet ∨ net = testNet) (A : HDKey) (hA : WF A) (prv : PrvKey)
    (hp : A.key = .prv prv) (hd : ¬ N ∣ prv.d) (x : Bytes) (W : HDKey)
    (hx : HDKey.toString net.hdPrivateKeyID net.hdPublicKeyID (hdPublicKey A) = .ok x) (hW : fromString x = .ok W)
    (b : Settings Ecdsa.Key) (hs : b.sign = true) (hr : ∀ p ∈ Spec.spends b, ReceivedBy net A W p)
    (tx : Transaction) (h : build (Ecdsa.scheme fuel) b = .ok tx) : (verify (Ecdsa.scheme fuel) tx).1 = .ok () := by
  refine C108_built_verifies _ (C86_lawful fuel) b 1 hs (fun p hpm => ?_) tx h
  obtain ⟨path, is, w, pb, kind, a0, a, k, kp, key, e1, e2, e3, e4, e5, e6, e7, e8, e9, e10, e11, e12, e13, e14⟩ := hr p hpm
  obtain ⟨x', W', hx', hW', hall⟩ := C109_watch net.hdPrivateKeyID net.hdPublicKeyID (by rcases hn with rfl | rfl <;> rfl)
    (by rcases hn with rfl | rfl <;> rfl) A hA prv hp hd
  rw [hx] at hx'
  cases hx'
  rw [hW] at hW'
  cases hW'
  obtain ⟨k', hk', hwk⟩ := hall path is e1 e2 w e3
  rw [e9] at hk'
  cases hk'
  have hwf : WF k := by
    rw [C51_path path is e1] at e9
    obtain ⟨k2, g1, g2, _⟩ := C49_private_total is A hA ⟨prv, hp⟩
    rw [e9] at g1
    cases g1
    exact g2
  have hkk := hwf.key
  rw [e10] at hkk
  have hpub : publicKey w = keyOf (natOfBE key.val • G) := by
    rw [hwk]
    change publicKey k = _
    unfold publicKey
    rw [e10, e12]
    exact hkk.2
  rw [hpub] at e4
  obtain ⟨⟨pb', f1, f2⟩, _⟩ := C59_serialize _ (pub_finite key)
  rw [e4] at f1
  cases f1
  have hpb : Ecdsa.pubBytes key true = pb := compressed_unique (C86_pub key).1 f2
  have hlen : (hash160 pb).length = hashSize kind := by
    rw [hash160_length]
    rcases e5 with rfl | rfl <;> rfl
  unfold Address.make at e6
  split at e6
  case isFalse => cases e6
  cases e6
  rw [C31_roundtrip net hn kind (hash160 pb) hlen] at e7
  cases e7
  have hscript : Id.hexDecode p.1.script = .ok (rawLocking ⟨kind, hash160 pb⟩) := by
    rw [e8]
    exact Id.hexDecode_encode _
  refine ⟨?_, ?_, by rw [e14]; decide, fun _ _ _ _ _ => by rw [e14]; exact SameClass.rfl' 1⟩
  · rw [e8, hexEncode_length, Address.lockingScript, C29_build kind _ hlen]
    rcases e5 with rfl | rfl <;> simp [standardScript, hash160_length]
  · intro script s keys g1 g2 g3
    rw [hscript] at g1
    cases g1
    rw [C29_parse_build kind _ hlen] at g2
    cases g2
    rw [e11] at g3
    cases g3
    rw [e13]
    rcases e5 with rfl | rfl <;> exact ⟨key, [], rfl, by change hash160 (Ecdsa.pubBytes key true) = _; rw [hpb]⟩

/-- one coin paid to the address, spent back to it with the key of the given number -/
def spendTo (a : Address.Addr) (d : ℕ) : Res Unit :=
  if h : natOfBE (natToBE d) % N ≠ 0 then do
    let tx ← build (Ecdsa.scheme 4) (Builder.run
      [.addCoin (some ⟨List.replicate 64 0x31, 0, 5000, Id.hexEncode (Address.lockingScript a)⟩), .addKeys (some [⟨natToBE d, h⟩]),
       .to (some a) 4000, .sendFees 1000, .sign])
    (verify (Ecdsa.scheme 4) tx).1
  else .panic

omit [Hashes] in
/-- A run: the text of the public master key of a seed, the address of child 5 derived from the text, a coin paid to the decoded
address, and a transaction spending it with the private child 5. -/
example : (do
    let A ← @HDKey.new modHashes [1, 2, 3]
    let x ← @HDKey.toString modHashes mainNet.hdPrivateKeyID mainNet.hdPublicKeyID (hdPublicKey A)
    let W ← @fromString modHashes x
    let w ← @deriveByPath modHashes W (ascii "m/5".toList)
    let pb ← serializeCompressed (publicKey w)
    let a ← @Address.decode modHashes (@Address.text modHashes ⟨.p2wpkh, @hash160 modHashes pb⟩ mainNet) mainNet
    let k ← @deriveByPath modHashes A (ascii "m/5".toList)
    match k.key with
    | .prv prv => @spendTo modHashes a prv.d
    | .pub _ => .panic) = .ok () := by decide +kernel

end Toku.Props
