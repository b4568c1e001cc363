import Verif.Props.Mpc
import Verif.Props.TxEcdsa
/-
Property C97: a transaction signed by two parties who share a key, from building to verification, as in
examples/two_party_ecdsa_transaction_p2wpkh.go and examples/two_party_ecdsa_transaction_p2pkh.go.
-/
namespace Toku.Props
open Toku Toku.Spec Toku.Curve Toku.Keys Toku.Tx Toku.Locking Toku.Mpc

/-- Two honest parties: private key bytes, and what each draws at random in this run. -/
structure Pair where
  key1 : Bytes
  key2 : Bytes
  w1 : Draw
  w2 : Draw
  len1 : key1.length ≤ 32
  len2 : key2.length ≤ 32
  /-- The shared key is not the point at infinity. -/
  finite : ¬ N ∣ beNat key1 * beNat key2
  good1 : w1.Good
  good2 : w2.Good

/-- There are such parties. -/
theorem exists_pair : ∃ p : Pair, p.key1 = [3] ∧ p.key2 = [5] := by
  obtain ⟨w, g⟩ := exists_draw
  exact ⟨⟨[3], [5], w, w, by decide, by decide, by decide +kernel, g, g⟩, rfl, rfl⟩

/-- The shared point. -/
def Pair.point (p : Pair) : Pt := (beNat p.key1 * beNat p.key2) • G

/-- One input to be signed jointly. -/
structure JointCall where
  idx : Nat
  hashType : UInt32
  pair : Pair

variable [Hashes]

/-- The hash to sign: `RawSignatureHash` (two_party_ecdsa_transaction_p2pkh.go:99) or, for a witness input,
`WitnessV0SignatureHash` (two_party_ecdsa_transaction_p2wpkh.go:100). -/
def jointHash (tx : Transaction) (idx : Nat) (t : UInt32) : Res (Bytes × Transaction) := do
  let i ← Res.ofIdx tx.inputs[idx]?
  if i.hasWitness then witnessSignatureHash tx idx t else rawSignatureHash tx idx t >>= fun h => .ok (h, tx)

/-- Phases 1 to 5 for the hash of one input, then `EmbedIdxEcdsaSignature` with the shared public key and the first party's
signature: two_party_ecdsa_transaction_p2wpkh.go:27-35, 99-123. In the example phase 1 is run once, before the funding; it has no state.
-/
def jointSign (fuel : ℕ) (tx : Transaction) (c : JointCall) : Res (Outcome × Transaction) := do
  let (h, tx) ← jointHash tx c.idx c.hashType
  let prv1 ← prvFromBytes c.pair.key1
  let prv2 ← prvFromBytes c.pair.key2
  let o ← exchangeRfc fuel prv1 prv2 h c.pair.w1 c.pair.w2
  let pub ← serializeCompressed o.pub1
  let tx ← embed tx c.idx [⟨pub, o.sig1 ++ [c.hashType.toUInt8]⟩]
  return (o, tx)

/-- Several inputs one after another, all with success. -/
def jointAll (fuel : ℕ) : Transaction → List JointCall → Res (List Outcome × Transaction)
  | tx, [] => .ok ([], tx)
  | tx, c :: cs => do
    let (o, tx) ← jointSign fuel tx c
    let (os, tx) ← jointAll fuel tx cs
    return (o :: os, tx)

/-- The exchange with the code's nonces is one with some nonces in range. -/
theorem rfc_with {fuel : ℕ} {p : Pair} {prv1 prv2 : PrvKey} (hp1 : prvFromBytes p.key1 = .ok prv1)
    (hp2 : prvFromBytes p.key2 = .ok prv2) {hash : Bytes} {o : Outcome} (h : exchangeRfc fuel prv1 prv2 hash p.w1 p.w2 = .ok o) :
    ∃ k1 k2 : ℕ, (1 ≤ k1 ∧ k1 < N) ∧ (1 ≤ k2 ∧ k2 < N) ∧
      exchangeWith (prvOf (beNat p.key1)) (prvOf (beNat p.key2)) hash p.w1 p.w2 k1 k2 = .ok o := by
  rw [prvOf_bytes _ _ hp1, prvOf_bytes _ _ hp2] at h
  have e1 : (newEcdsaParty (prvOf (beNat p.key1))).prv.d = beNat p.key1 := rfl
  have e2 : (newEcdsaParty (prvOf (beNat p.key2))).prv.d = beNat p.key2 := rfl
  unfold exchangeRfc EcdsaParty.phase2 at h
  rw [e1, e2] at h
  cases n1 : Ecdsa.nonce N fuel (beNat p.key1) hash with
  | none =>
    rw [n1] at h
    unfold exchange at h
    obtain ⟨_, _, h⟩ := Res.bind_eq_ok.mp h
    obtain ⟨_, _, h⟩ := Res.bind_eq_ok.mp h
    cases h
  | some k1 =>
    cases n2 : Ecdsa.nonce N fuel (beNat p.key2) hash with
    | none =>
      rw [n1, n2] at h
      unfold exchange at h
      obtain ⟨_, _, h⟩ := Res.bind_eq_ok.mp h
      obtain ⟨_, _, h⟩ := Res.bind_eq_ok.mp h
      obtain ⟨_, _, h⟩ := Res.bind_eq_ok.mp h
      cases h
    | some k2 =>
      rw [n1, n2] at h
      exact ⟨k1, k2, Ecdsa.nonce_range n1, Ecdsa.nonce_range n2, h⟩

omit [Hashes] in
theorem key_lt {k : Bytes} (hk : k.length ≤ 32) : beNat k < 2 ^ 256 := by
  have h1 := natOfBE_lt k
  have h2 : 256 ^ k.length ≤ 256 ^ 32 := Nat.pow_le_pow_right (by norm_num) hk
  have h3 : (256 : ℕ) ^ 32 = 2 ^ 256 := by norm_num
  have : beNat k = natOfBE k := rfl
  omega

omit [Hashes] in
theorem Pair.point_ne (p : Pair) : p.point ≠ 0 := fun h => p.finite ((smul_zero_iff G_ne _).mp h)

/-- What the exchange gives to a transaction. -/
theorem joint_ok {fuel : ℕ} {p : Pair} {prv1 prv2 : PrvKey} (hp1 : prvFromBytes p.key1 = .ok prv1)
    (hp2 : prvFromBytes p.key2 = .ok prv2) {hash : Bytes} {o : Outcome} (h : exchangeRfc fuel prv1 prv2 hash p.w1 p.w2 = .ok o) :
    o.pub1 = keyOf p.point ∧ (o.R1.x < N → 8 ≤ o.sig1.length ∧ o.sig1.length ≤ 71 ∧
      Ecdsa.ecdsaVerify (keyOf p.point) hash o.sig1 = .ok ()) := by
  obtain ⟨k1, k2, hk1, hk2, h'⟩ := rfc_with hp1 hp2 h
  have l1 := key_lt p.len1
  have l2 := key_lt p.len2
  obtain ⟨a1, a2, a3, a4, a5⟩ := C70_agree _ _ l1 l2 hash p.w1 p.w2 p.good1 p.good2 k1 k2 hk1 hk2 o h'
  refine ⟨a1, fun hx => ?_⟩
  rw [a3] at hx
  have hv := (C70_verifies_partial _ _ l1 l2 hash p.w1 p.w2 p.good1 p.good2 k1 k2 hk1 hk2 hx o h').1
  rw [C70_single_partial _ _ l1 l2 hash p.w1 p.w2 p.good1 p.good2 k1 k2 hk1 hk2 hx] at h'
  obtain ⟨⟨r, s⟩, hs, h'⟩ := Res.bind_eq_ok.mp h'
  obtain ⟨_, hr, hss, _⟩ := Ecdsa.signWith_ok (prod_range hk1 hk2).1 (prod_range hk1 hk2).2 hs
  cases h'
  have hN1 : (N : ℤ) < 128 * 256 ^ 32 := by decide +kernel
  have hN2 : ((N / 2 : ℕ) : ℤ) < 128 * 256 ^ 31 := by decide +kernel
  have hlen := Der.marshal_length (Der.intContent_length (k := 32) (by omega : 0 ≤ r) (by omega))
    (Der.intContent_length (k := 31) (by omega : 0 ≤ s) (by omega)) (by omega)
  exact ⟨hlen.1, hlen.2, hv⟩

/-- Joint signing seen as a signature scheme: the key is the pair, a signature whose r is N or more counts as none. -/
def jointScheme (fuel : ℕ) : Tx.Ecdsa Pair where
  pub p c := match if c then serializeCompressed (keyOf p.point) else serializeUncompressed (keyOf p.point) with
    | .ok b => b
    | _ => []
  sign p h := do
    let prv1 ← prvFromBytes p.key1
    let prv2 ← prvFromBytes p.key2
    let o ← exchangeRfc fuel prv1 prv2 h p.w1 p.w2
    if o.R1.x < N then .ok o.sig1 else .err Ecdsa.errVerify
  verify := Ecdsa.verifyBytes

theorem joint_pub (fuel : ℕ) (p : Pair) : Compressed p.point ((jointScheme fuel).pub p true) ∧
    Uncompressed p.point ((jointScheme fuel).pub p false) ∧
    serializeCompressed (keyOf p.point) = .ok ((jointScheme fuel).pub p true) := by
  obtain ⟨⟨a, ea, ha⟩, ⟨b, eb, hb⟩, _⟩ := C59_serialize _ p.point_ne
  have e1 : (jointScheme fuel).pub p true = a := by
    change (match serializeCompressed (keyOf p.point) with | .ok b => b | _ => []) = a
    rw [ea]
  have e2 : (jointScheme fuel).pub p false = b := by
    change (match serializeUncompressed (keyOf p.point) with | .ok b => b | _ => []) = b
    rw [eb]
  rw [e1, e2]
  exact ⟨ha, hb, ea⟩

theorem joint_lawful (fuel : ℕ) : Lawful (jointScheme fuel) where
  pub_length p := by
    obtain ⟨⟨a, ha, e⟩, ⟨b, c, hb, hc, e'⟩, _⟩ := joint_pub fuel p
    rw [e, e']
    simp [ha.1, hb.1, hc.1]
  sign_ok p h sig hs := by
    obtain ⟨prv1, h1, hs⟩ := Res.bind_eq_ok.mp hs
    obtain ⟨prv2, h2, hs⟩ := Res.bind_eq_ok.mp hs
    obtain ⟨o, ho, hs⟩ := Res.bind_eq_ok.mp hs
    split at hs
    · rename_i hx
      cases hs
      obtain ⟨_, hj⟩ := joint_ok h1 h2 ho
      obtain ⟨a, b, hv⟩ := hj hx
      refine ⟨a, by omega, fun c => ?_⟩
      obtain ⟨hc, hu, _⟩ := joint_pub fuel p
      change Ecdsa.verifyBytes h o.sig1 _ = .ok ()
      unfold Ecdsa.verifyBytes
      cases c with
      | true => rw [C59_parse _ p.point_ne _ (Or.inl hc)]; exact hv
      | false => rw [C59_parse _ p.point_ne _ (Or.inr (Or.inl hu))]; exact hv
    · cases hs
  no_panic := verifyBytes_no_panic

/-- Verification depends on the scheme through its verification only. -/
theorem verify_congr {κ κ' : Type} (E : Tx.Ecdsa κ) (E' : Tx.Ecdsa κ') (h : E.verify = E'.verify) (tx : Transaction) :
    verify E tx = verify E' tx := by
  have one : ∀ idx i, verifyInput E idx i = verifyInput E' idx i := by
    intro idx i
    have : ∀ v, engineEnv E idx v = engineEnv E' idx v := fun v => by unfold engineEnv; rw [h]
    unfold verifyInput
    simp only [this]
  have all : ∀ l, verifyInputs E l = verifyInputs E' l := by
    intro l
    induction l with
    | nil => rfl
    | cons x l ih =>
      obtain ⟨i, idx⟩ := x
      unfold verifyInputs
      rw [one, ih]
  unfold verify
  rw [all]

/-- Inputs with a witness script code are witness inputs. -/
def Witnessed (tx : Transaction) : Prop :=
  ∀ i ∈ tx.inputs, i.hasWitness = true → ∃ s, parse i.rawLockingScript = .ok s ∧ scriptVersion s = .witnessV0

theorem witnessed_coin {i : TxIn} (h : FromCoin i) (hw : i.hasWitness = true) :
    ∃ s, parse i.rawLockingScript = .ok s ∧ scriptVersion s = .witnessV0 := by
  obtain ⟨s, _, hp, _, hwc, _⟩ := fromCoin_fields h
  refine ⟨s, hp, ?_⟩
  unfold TxIn.hasWitness at hw
  rw [hwc] at hw
  unfold witnessScriptCode at hw
  unfold scriptVersion
  cases hk : s.kind <;> rw [hk] at hw <;> first | rfl | cases hw

omit [Hashes] in
theorem embed_witnessed [Hashes] {tx tx' : Transaction} {idx : Nat} {signs : List PubKeySign} (hw : Witnessed tx)
    (h : embed tx idx signs = .ok tx') : Witnessed tx' := by
  have put : ∀ i u w, tx.inputs[idx]? = some i → Witnessed (putInput tx idx { i with rawUnlockingScript := u, witness := w }) := by
    intro i u w hi j hj hjw
    rcases List.mem_or_eq_of_mem_set hj with hj | rfl
    · exact hw j hj hjw
    · exact hw i (List.mem_of_getElem? hi) hjw
  unfold embed at h
  cases hi : tx.inputs[idx]? with
  | none => rw [hi] at h; cases h
  | some i =>
    rw [hi] at h
    change (if signs.length > 1 ∧ i.redeemScript = none then _ else _) = _ at h
    split at h
    · cases h
    obtain ⟨s, _, h⟩ := Res.bind_eq_ok.mp h
    cases hr : rawUnlocking s signs i.redeemScript with
    | panic => rw [hr] at h; cases h
    | err e =>
      rw [hr] at h
      cases h
      exact put i [] i.witness hi
    | ok u =>
      rw [hr] at h
      obtain ⟨w, _, h⟩ := Res.bind_eq_ok.mp h
      cases h
      exact put i u w hi

/-- Joint signing of one input is signing with the joint scheme. -/
theorem jointSign_signIndex {fuel : ℕ} {tx tx' : Transaction} {c : JointCall} {o : Outcome} (hw : Witnessed tx)
    (h : jointSign fuel tx c = .ok (o, tx')) (hx : o.R1.x < N) :
    signIndex (jointScheme fuel) tx c.idx true c.hashType [c.pair] = .ok tx' ∧ Witnessed tx' ∧ o.pub1 = keyOf c.pair.point := by
  unfold jointSign at h
  obtain ⟨⟨hash, tx1⟩, hh, h⟩ := Res.bind_eq_ok.mp h
  obtain ⟨prv1, h1, h⟩ := Res.bind_eq_ok.mp h
  obtain ⟨prv2, h2, h⟩ := Res.bind_eq_ok.mp h
  obtain ⟨o', ho, h⟩ := Res.bind_eq_ok.mp h
  obtain ⟨pub, hpub, h⟩ := Res.bind_eq_ok.mp h
  obtain ⟨tx2, he, h⟩ := Res.bind_eq_ok.mp h
  cases h
  obtain ⟨hpt, _⟩ := joint_ok h1 h2 ho
  rw [hpt, (joint_pub fuel c.pair).2.2] at hpub
  cases hpub
  have hs : (jointScheme fuel).sign c.pair hash = .ok o.sig1 := by
    change (prvFromBytes c.pair.key1 >>= fun prv1 => _) = _
    rw [h1, Res.ok_bind, h2, Res.ok_bind, ho, Res.ok_bind, if_pos hx]
  unfold jointHash at hh
  unfold signIndex
  cases hi : tx.inputs[c.idx]? with
  | none => rw [hi] at hh; cases hh
  | some i =>
    have hlen : ¬ tx.inputs.length ≤ c.idx := by
      intro hcc
      rw [List.getElem?_eq_none (by omega)] at hi
      cases hi
    rw [hi] at hh
    change (if i.hasWitness = true then _ else _) = _ at hh
    rw [show Res.ofIdx (some i) = .ok i from rfl, Res.ok_bind, if_neg (by simp)]
    have one : signOne (jointScheme fuel) tx c.idx c.hashType i.hasWitness c.pair = .ok (o.sig1 ++ [c.hashType.toUInt8], tx1) ∧
        Witnessed tx1 := by
      unfold signOne
      split at hh
      · rename_i hwi
        rw [if_pos hwi]
        obtain ⟨s, hp, hv⟩ := hw i (List.mem_of_getElem? hi) hwi
        unfold witnessSignature
        rw [if_neg hlen, hi]
        change (parse i.rawLockingScript >>= fun s => _) = _ ∧ _
        rw [hp, Res.ok_bind, hv]
        dsimp only
        rw [hh, Res.ok_bind]
        dsimp only
        rw [hs]
        refine ⟨rfl, ?_⟩
        unfold witnessSignatureHash at hh
        rw [hi] at hh
        cases hh
        exact hw
      · rename_i hwi
        rw [if_neg hwi]
        obtain ⟨hash', hr, hh⟩ := Res.bind_eq_ok.mp hh
        cases hh
        unfold rawSignature
        rw [if_neg hlen, hr, Res.ok_bind, hs]
        exact ⟨rfl, hw⟩
    unfold signKeys signKeys
    rw [one.1]
    simp only [Res.ok_bind]
    exact ⟨he, embed_witnessed one.2 he, hpt⟩

theorem jointAll_signAll {fuel : ℕ} : ∀ (cs : List JointCall) (tx tx' : Transaction) (os : List Outcome), Witnessed tx →
    jointAll fuel tx cs = .ok (os, tx') → (∀ o ∈ os, o.R1.x < N) →
    signAll (jointScheme fuel) tx (cs.map fun c => ⟨c.idx, true, c.hashType, [c.pair]⟩) = .ok tx' := by
  intro cs
  induction cs with
  | nil => intro tx tx' os _ h _; cases h; rfl
  | cons c cs ih =>
    intro tx tx' os hw h hx
    unfold jointAll at h
    obtain ⟨⟨o, tx1⟩, h1, h⟩ := Res.bind_eq_ok.mp h
    obtain ⟨⟨os1, tx2⟩, h2, h⟩ := Res.bind_eq_ok.mp h
    cases h
    obtain ⟨e, hw1, _⟩ := jointSign_signIndex hw h1 (hx o (by simp))
    rw [List.map_cons]
    unfold signAll
    rw [e, Res.ok_bind]
    exact ih _ _ _ hw1 h2 fun o' ho' => hx o' (by simp [ho'])

/-- The output of the input belongs to the shared key of the pair: P2PKH or P2WPKH of its compressed serialisation. -/
def Shared (c : JointCall) (i : TxIn) : Prop :=
  ∃ pub k, Compressed c.pair.point pub ∧ (k = .p2pkh ∨ k = .p2wpkh) ∧ parse i.rawLockingScript = .ok ⟨k, hash160 pub⟩

omit [Hashes] in
theorem compressed_unique {q : Pt} {a b : Bytes} (ha : Compressed q a) (hb : Compressed q b) : a = b := by
  obtain ⟨x, hx, rfl⟩ := ha
  obtain ⟨y, hy, rfl⟩ := hb
  rw [is32_unique hx hy]

theorem shared_right {fuel : ℕ} {c : JointCall} {i : TxIn} (h : Shared c i) (s : LockScript) (hs : parse i.rawLockingScript = .ok s) :
    RightKeys (jointScheme fuel) s i.redeemScript true [c.pair] := by
  obtain ⟨pub, k, hc, hk, hp⟩ := h
  rw [hp] at hs
  cases hs
  have e := compressed_unique hc (joint_pub fuel c.pair).1
  unfold RightKeys
  rcases hk with rfl | rfl <;> exact ⟨c.pair, [], rfl, by rw [e]⟩

/-- **C97 (partial).** Full statement: without the hypothesis that the x coordinates of the shared points are below N
(false, `C70_negation`). Proved: when two parties have signed every input of a transaction in the exchange, each input paying to
their shared key, the transaction verifies. Different inputs may belong to different pairs, and inputs may be signed in any order and
more than once. -/
theorem C97_verifies_partial (fuel : ℕ) (tx tx' : Transaction) (calls : List JointCall) (os : List Outcome) (t0 : UInt32)
    (h1 : tx.hashPrevouts = none) (h2 : tx.hashSequence = none) (h3 : tx.hashOutputs = none)
    (hcoin : ∀ i ∈ tx.inputs, FromCoin i)
    (hall : ∀ idx < tx.inputs.length, ∃ c ∈ calls, c.idx = idx)
    (hshared : ∀ c ∈ calls, ∀ i, tx.inputs[c.idx]? = some i → Shared c i)
    (htype : ∀ c ∈ calls, c.hashType < 256)
    (hclass : ∀ c ∈ calls, ∀ i, tx.inputs[c.idx]? = some i → i.hasWitness = true → SameClass t0 c.hashType)
    (hsign : jointAll fuel tx calls = .ok (os, tx')) (hx : ∀ o ∈ os, o.R1.x < N) :
    (verify (Ecdsa.scheme fuel) tx').1 = .ok () := by
  rw [verify_congr (Ecdsa.scheme fuel) (jointScheme fuel) rfl]
  refine C43_signed_verifies_partial _ (joint_lawful fuel) tx tx' _ t0 h1 h2 h3 hcoin ?_ ?_ ?_ ?_
    (jointAll_signAll calls tx tx' os (fun i hi hw => witnessed_coin (hcoin i hi) hw) hsign hx)
  · intro idx hi
    obtain ⟨c, hc, e⟩ := hall idx hi
    exact ⟨_, List.mem_map.mpr ⟨c, hc, rfl⟩, e⟩
  · intro d hd i s hi hs
    obtain ⟨c, hc, rfl⟩ := List.mem_map.mp hd
    exact shared_right (hshared c hc i hi) s hs
  · intro d hd
    obtain ⟨c, hc, rfl⟩ := List.mem_map.mp hd
    exact htype c hc
  · intro d hd i hi hw
    obtain ⟨c, hc, rfl⟩ := List.mem_map.mp hd
    exact hclass c hc i hi hw

/-- **C97 (partial).** As above, for the transaction received by somebody else. -/
theorem C97_wire_partial (fuel : ℕ) (tx tx' : Transaction) (calls : List JointCall) (os : List Outcome) (t0 : UInt32)
    (h1 : tx.hashPrevouts = none) (h2 : tx.hashSequence = none) (h3 : tx.hashOutputs = none)
    (hcoin : ∀ i ∈ tx.inputs, FromCoin i)
    (hall : ∀ idx < tx.inputs.length, ∃ c ∈ calls, c.idx = idx)
    (hshared : ∀ c ∈ calls, ∀ i, tx.inputs[c.idx]? = some i → Shared c i)
    (htype : ∀ c ∈ calls, c.hashType < 256)
    (hclass : ∀ c ∈ calls, ∀ i, tx.inputs[c.idx]? = some i → i.hasWitness = true → SameClass t0 c.hashType)
    (hsign : jointAll fuel tx calls = .ok (os, tx')) (hx : ∀ o ∈ os, o.R1.x < N)
    (henc : Encodable tx') (hsize : (serialize tx').length < 2^43) :
    ∃ txd tx2, (if hasWitness tx' then deserialize Tx.new (serialize tx') else deserializeNoWitness Tx.new (serialize tx')) =
        .ok (txd, []) ∧ supplyCoins tx'.inputs 0 txd = .ok tx2 ∧ (verify (Ecdsa.scheme fuel) tx2).1 = .ok () := by
  have := C84_signed_wire_verifies _ (joint_lawful fuel) tx tx' (calls.map fun c => ⟨c.idx, true, c.hashType, [c.pair]⟩) t0 h1 h2 h3
    hcoin ?_ ?_ ?_ ?_ (jointAll_signAll calls tx tx' os (fun i hi hw => witnessed_coin (hcoin i hi) hw) hsign hx) ?_ henc hsize
  · obtain ⟨txd, tx2, a, b, c⟩ := this
    exact ⟨txd, tx2, a, b, by rw [verify_congr (Ecdsa.scheme fuel) (jointScheme fuel) rfl]; exact c⟩
  · intro idx hi
    obtain ⟨c, hc, e⟩ := hall idx hi
    exact ⟨_, List.mem_map.mpr ⟨c, hc, rfl⟩, e⟩
  · intro d hd i s hi hs
    obtain ⟨c, hc, rfl⟩ := List.mem_map.mp hd
    exact shared_right (hshared c hc i hi) s hs
  · intro d hd
    obtain ⟨c, hc, rfl⟩ := List.mem_map.mp hd
    exact htype c hc
  · intro d hd i hi hw
    obtain ⟨c, hc, rfl⟩ := List.mem_map.mp hd
    exact hclass c hc i hi hw
  · intro i hi h hp
    obtain ⟨idx, hidx⟩ := List.mem_iff_getElem?.mp hi
    have hlt : idx < tx.inputs.length := by
      by_contra hcc
      rw [List.getElem?_eq_none (by omega)] at hidx
      cases hidx
    obtain ⟨c, hc, rfl⟩ := hall idx hlt
    obtain ⟨_, k, _, hk, hp'⟩ := hshared c hc i hidx
    rw [hp'] at hp
    cases hp
    rcases hk with h | h <;> cases h

/-- **C97.** Joint signing of an input paying to the shared key does not get stuck: once the hash and the nonces are
there, it ends with a signed transaction, unless the number s is 0. The shared point is that of the product of the nonces. -/
theorem C97_completes (fuel : ℕ) (tx tx1 : Transaction) (c : JointCall) (i : TxIn) (h : Bytes) (k1 k2 : ℕ)
    (hi : tx.inputs[c.idx]? = some i) (hs : Shared c i) (hh : jointHash tx c.idx c.hashType = .ok (h, tx1))
    (n1 : Ecdsa.nonce N fuel (beNat c.pair.key1) h = some k1) (n2 : Ecdsa.nonce N fuel (beNat c.pair.key2) h = some k2) :
    (∃ o tx', jointSign fuel tx c = .ok (o, tx') ∧ o.R1.x = (coords ((k1 * k2) • G)).1) ∨
    jointSign fuel tx c = .err Ecdsa.errSZero ∧
      (hashNum h + (beNat c.pair.key1 * beNat c.pair.key2) * (coords ((k1 * k2) • G)).1) % N = 0 := by
  have hin : tx1.inputs = tx.inputs := by
    unfold jointHash at hh
    rw [hi, show Res.ofIdx (some i) = .ok i from rfl, Res.ok_bind] at hh
    split at hh
    · unfold witnessSignatureHash at hh
      rw [hi] at hh
      cases hh
      rfl
    · obtain ⟨_, _, hh⟩ := Res.bind_eq_ok.mp hh
      cases hh
      rfl
  have hk1 := Ecdsa.nonce_range n1
  have hk2 := Ecdsa.nonce_range n2
  have l1 := key_lt c.pair.len1
  have l2 := key_lt c.pair.len2
  have e : ∀ prv1 prv2, prvFromBytes c.pair.key1 = .ok prv1 → prvFromBytes c.pair.key2 = .ok prv2 →
      exchangeRfc fuel prv1 prv2 h c.pair.w1 c.pair.w2 =
      exchangeWith (prvOf (beNat c.pair.key1)) (prvOf (beNat c.pair.key2)) h c.pair.w1 c.pair.w2 k1 k2 := by
    intro prv1 prv2 hp1 hp2
    rw [prvOf_bytes _ _ hp1, prvOf_bytes _ _ hp2]
    have e1 : (newEcdsaParty (prvOf (beNat c.pair.key1))).prv.d = beNat c.pair.key1 := rfl
    have e2 : (newEcdsaParty (prvOf (beNat c.pair.key2))).prv.d = beNat c.pair.key2 := rfl
    unfold exchangeRfc EcdsaParty.phase2
    rw [e1, e2, n1, n2]
    rfl
  obtain ⟨prv1, hp1⟩ : ∃ prv, prvFromBytes c.pair.key1 = .ok prv := ⟨_, C61_prvFromBytes _⟩
  obtain ⟨prv2, hp2⟩ : ∃ prv, prvFromBytes c.pair.key2 = .ok prv := ⟨_, C61_prvFromBytes _⟩
  unfold jointSign
  rw [hh, Res.ok_bind]
  dsimp only
  rw [hp1, Res.ok_bind, hp2, Res.ok_bind, e prv1 prv2 hp1 hp2]
  rcases C70_completes _ _ l1 l2 h c.pair.w1 c.pair.w2 c.pair.good1 c.pair.good2 k1 k2 hk1 hk2 with ⟨⟨o, ho⟩, _⟩ | ⟨ho, h0⟩
  · left
    obtain ⟨a1, _, a3, _⟩ := C70_agree _ _ l1 l2 h c.pair.w1 c.pair.w2 c.pair.good1 c.pair.good2 k1 k2 hk1 hk2 o ho
    have a1 : o.pub1 = keyOf c.pair.point := a1
    rw [ho, Res.ok_bind, a1, (joint_pub fuel c.pair).2.2, Res.ok_bind]
    obtain ⟨pub, k, hc, hk, hp⟩ := hs
    unfold embed
    rw [hin, hi, show Res.ofIdx (some i) = .ok i from rfl, Res.ok_bind, if_neg (by simp), hp, Res.ok_bind]
    rcases hk with rfl | rfl <;> exact ⟨_, _, rfl, by rw [a3]; rfl⟩
  · right
    rw [ho]
    exact ⟨rfl, h0⟩

/-! A transaction for the example: it spends one P2WPKH output of the shared key of the private keys 3 and 5. -/

/-- The compressed serialisation of 15 times the generator. -/
def jointPub : Bytes := [2, 215, 146, 77, 79, 125, 67, 234, 150, 90, 70, 90, 227, 9, 95, 244, 17, 49, 229, 148, 111, 60, 133, 247, 158,
  68, 173, 188, 248, 226, 126, 8, 14]

def jointCoin : TxIn :=
  match @newTxIn modHashes (List.replicate 32 5) 0 1000 (standardScript .p2wpkh (@hash160 modHashes jointPub)) none with
  | .ok i => i
  | _ => ⟨[], 0, 0, 0, none, [], none, [], [], []⟩

def jointTx : Transaction := { Tx.new with inputs := [jointCoin], outputs := [⟨900, [0x51]⟩] }

/-- Its hash. -/
def jointDigest : Bytes := [71, 83, 37, 107, 209, 109, 218, 99, 199, 29, 169, 121, 65, 172, 30, 173, 171, 58, 76, 34, 98, 96, 59, 215, 140,
  241, 224, 227, 184, 37, 124, 108]

omit [Hashes] in
theorem joint_point {p : Pair} (h1 : p.key1 = [3]) (h2 : p.key2 = [5]) :
    p.point = 15 • G ∧ Compressed p.point jointPub := by
  have e : p.point = 15 • G := by
    unfold Pair.point
    rw [h1, h2]
    rfl
  refine ⟨e, ?_⟩
  have h := baseMult_coords [15]
  rw [show natOfBE [15] = 15 by decide, ← e] at h
  have h2 : baseMult [15] = .ok (0xd7924d4f7d43ea965a465ae3095ff41131e5946f3c85f79e44adbcf8e27e080e,
      0x581e2872a86c72a683842ec228cc6defea40af2bd896d3a5c504dc9ff6a26b58) := by decide +kernel
  rw [h2] at h
  have hc := Res.ok.inj h
  refine ⟨jointPub.tail, ⟨by decide, ?_⟩, ?_⟩
  · rw [← hc]; decide +kernel
  · rw [← hc]; decide +kernel

/-- The hypotheses of C97 can be met. -/
example : ∃ (c : JointCall) (o : Outcome) (tx' : Transaction), @jointAll modHashes 4 jointTx [c] = .ok ([o], tx') ∧
    (@verify _ modHashes (@Ecdsa.scheme modHashes 4) tx').1 = .ok () := by
  letI := modHashes
  obtain ⟨p, h1, h2⟩ := exists_pair
  obtain ⟨hpt, hc⟩ := joint_point h1 h2
  have hshared : Shared ⟨0, 1, p⟩ jointCoin := ⟨jointPub, .p2wpkh, hc, Or.inr rfl, by decide +kernel⟩
  have hkeys : beNat p.key1 = 3 ∧ beNat p.key2 = 5 := by rw [h1, h2]; decide
  have n1 : Ecdsa.nonce N 4 3 jointDigest = some 0xe8192b137d957a2d1b8c11079ea8e810ef1bdec7bf40abf8abe496be6241f576 := by decide +kernel
  have n2 : Ecdsa.nonce N 4 5 jointDigest = some 0xc708cba0fc0792d1b8c11079ea8e810ef1bdec7bf40abf8abe2ed6a9642b64a := by decide +kernel
  rw [← hkeys.1] at n1
  rw [← hkeys.2] at n2
  have hh : jointHash jointTx 0 1 = .ok (jointDigest, updateCaches jointTx 1) := by decide +kernel
  have hx : (coords ((0xe8192b137d957a2d1b8c11079ea8e810ef1bdec7bf40abf8abe496be6241f576 *
      0xc708cba0fc0792d1b8c11079ea8e810ef1bdec7bf40abf8abe2ed6a9642b64a : ℕ) • G)).1 =
      0x25010afcfbdf419e558cd80237eaf1a1924ad9094c89de82247dd223f2e8d63f := by
    have hk : natOfBE [0xdb, 0x66, 0xab, 0xf0, 0xe3, 0xa0, 0x32, 0x24, 0x05, 0x27, 0x67, 0x3a, 0xc0, 0x79, 0x9f, 0x95, 0x7a, 0xbe, 0xa9, 0xe2, 0x5d, 0x01, 0xd0, 0x77, 0x66, 0xbe, 0x60, 0x3d, 0x99, 0x01, 0x34, 0x4c] =
        (0xe8192b137d957a2d1b8c11079ea8e810ef1bdec7bf40abf8abe496be6241f576 *
          0xc708cba0fc0792d1b8c11079ea8e810ef1bdec7bf40abf8abe2ed6a9642b64a) % N := by decide +kernel
    have h := baseMult_coords [0xdb, 0x66, 0xab, 0xf0, 0xe3, 0xa0, 0x32, 0x24, 0x05, 0x27, 0x67, 0x3a, 0xc0, 0x79, 0x9f, 0x95, 0x7a, 0xbe, 0xa9, 0xe2, 0x5d, 0x01, 0xd0, 0x77, 0x66, 0xbe, 0x60, 0x3d, 0x99, 0x01, 0x34, 0x4c]
    rw [hk, Ecdsa.smul_eq (ZMod.natCast_mod _ _)] at h
    have h2 : baseMult [0xdb, 0x66, 0xab, 0xf0, 0xe3, 0xa0, 0x32, 0x24, 0x05, 0x27, 0x67, 0x3a, 0xc0, 0x79, 0x9f, 0x95, 0x7a, 0xbe, 0xa9, 0xe2, 0x5d, 0x01, 0xd0, 0x77, 0x66, 0xbe, 0x60, 0x3d, 0x99, 0x01, 0x34, 0x4c] =
      .ok (0x25010afcfbdf419e558cd80237eaf1a1924ad9094c89de82247dd223f2e8d63f,
        0xb9634fff567e3d28cdebcda6eafcf9aa2d5576663b143876dedbaf16834a2de4) := by decide +kernel
    rw [h2] at h
    rw [← Res.ok.inj h]
  rcases C97_completes 4 jointTx _ ⟨0, 1, p⟩ jointCoin jointDigest _ _ rfl hshared hh n1 n2 with ⟨o, tx', ho, hR⟩ | ⟨_, h0⟩
  · have hall : jointAll 4 jointTx [⟨0, 1, p⟩] = .ok ([o], tx') := by
      unfold jointAll jointAll
      rw [ho]
      rfl
    refine ⟨⟨0, 1, p⟩, o, tx', hall, C97_verifies_partial 4 jointTx tx' [⟨0, 1, p⟩] [o] 1 rfl rfl rfl ?_ ?_ ?_ ?_ ?_ hall ?_⟩
    · intro i hi
      rcases List.mem_singleton.mp hi with rfl
      exact ⟨List.replicate 32 5, 0, 1000, standardScript .p2wpkh (hash160 jointPub), by decide +kernel, by decide +kernel⟩
    · intro idx hi
      have : idx < 1 := hi
      exact ⟨_, List.mem_singleton.mpr rfl, by dsimp only; omega⟩
    · intro c hc i hi
      rcases List.mem_singleton.mp hc with rfl
      cases hi
      exact hshared
    · intro c hc
      rcases List.mem_singleton.mp hc with rfl
      change (1 : UInt32) < 256
      decide
    · intro c hc i _ _
      rcases List.mem_singleton.mp hc with rfl
      exact ⟨Iff.rfl, Iff.rfl, Iff.rfl⟩
    · intro o' ho'
      rcases List.mem_singleton.mp ho' with rfl
      rw [hR, hx]
      decide +kernel
  · exfalso
    rw [hx] at h0
    dsimp only at h0
    rw [hkeys.1, hkeys.2] at h0
    exact absurd h0 (by decide +kernel)

/-- examples/two_party_ecdsa_transaction_p2pkh.go:101-118: the second party runs phase 4 with its own ciphertext and its own
Paillier key, and the first party decrypts the result with its key. -/
def p2pkhExample (party1 party2 : EcdsaParty) (phase2a phase2b : Phase2) : Res (Keys.PubKey × Bytes) := do
  let pub ← party1.phase1 party2.prv.pub
  let (party1, _, _, r1) ← phase2a
  let (party2, encpk2, encpub2, r2) ← phase2b
  let R1 ← party1.phase3 r2
  let R2 ← party2.phase3 r1
  let ct2 ← party2.phase4 (some encpk2) encpub2 R2
  let sig ← party1.phase5 R1 ct2
  return (pub, sig)

def p2pkhExampleWith (prv1 prv2 : Keys.PrvKey) (hash : Bytes) (w1 w2 : Draw) (k1 k2 : ℕ) : Res (Keys.PubKey × Bytes) :=
  p2pkhExample (newEcdsaParty prv1) (newEcdsaParty prv2)
    ((newEcdsaParty prv1).phase2With k1 w1.p w1.q w1.rnd hash) ((newEcdsaParty prv2).phase2With k2 w2.p w2.q w2.rnd hash)

omit [Hashes] in
/-- **C97.** What the P2PKH example computes even if both parties happen to have the same Paillier key, so that the first
one can decrypt: the signature of the square of the second private key, beside the public key of the product. -/
theorem C97_p2pkh_example (d1 d2 : ℕ) (h2 : d2 < 2 ^ 256) (hash : Bytes) (w : Draw) (g : w.Good)
    (k1 k2 : ℕ) (hk1 : 1 ≤ k1 ∧ k1 < N) (hk2 : 1 ≤ k2 ∧ k2 < N) (h1 : d1 < 2 ^ 256) (hx : (coords ((k1 * k2) • G)).1 < N) :
    p2pkhExampleWith (prvOf d1) (prvOf d2) hash w w k1 k2 =
      (Ecdsa.signWith (k1 * k2 % N) (d2 * d2 % N) hash >>= fun rs => .ok (keyOf ((d1 * d2) • G), Der.marshal rs.1 rs.2)) := by
  obtain ⟨kinv1, i1, a0, a1, e1⟩ := inv_ok hk1
  obtain ⟨kinv2, i2, b0, b1, e2⟩ := inv_ok hk2
  have big : (2 : ℕ) ^ 256 ≤ 2 ^ 1025 := by decide +kernel
  have l1 : d1 < w.p * w.q := by have := g.2.1; omega
  have l2 : d2 < w.p * w.q := by have := g.2.1; omega
  obtain ⟨c1, hc1, ec1⟩ := encryptKey_ok (d := d1) g.1 g.2.2 l1
  obtain ⟨c2, hc2, ec2⟩ := encryptKey_ok (d := d2) g.1 g.2.2 l2
  have p1 := phase2_ok i1 (prvOf d1) hash hc1
  have p2 := phase2_ok i2 (prvOf d2) hash hc2
  obtain ⟨ct2, hct2, ect2⟩ := phase4_ok (prv := prvOf d2) (k := k2) (kinv := kinv2) (hash := hash) (p := w.p) (q := w.q)
    g.1 ec2 (scalarOf (k2 • (k1 • G)))
  have hkk := prod_not_dvd hk1 hk2
  have hR : (k1 * k2) • G ≠ 0 := fun h => hkk ((smul_zero_iff G_ne _).mp h)
  have hX := (coords_on hR).1
  have hz := hashToInt_lt hash
  have s12 : k1 • (k2 • G) = (k1 * k2) • G := smul_smul _ _ _
  have s21 : k2 • (k1 • G) = (k1 * k2) • G := by rw [smul_smul, Nat.mul_comm]
  rw [s21] at hct2 ect2
  have hxe : (scalarOf ((k1 * k2) • G)).x = (coords ((k1 * k2) • G)).1 := rfl
  rw [hxe] at ect2
  have w21 := no_wrap (n := w.p * w.q) g.2.1 h2 h2 hz hX ⟨b0, b1⟩
  have ps1 := partialS_ok (prv := prvOf d1) (k := k1) (kinv := kinv1) (hash := hash) g.1 ect2 w21.1 w21.2
  have j1 : (((d2 : ℤ) * (prvOf d2).d * (coords ((k1 * k2) • G)).1 + Ecdsa.hashToInt hash) * kinv2 * kinv1) % N =
      jointS d2 d2 (coords ((k1 * k2) • G)).1 hash kinv1 kinv2 := by
    unfold jointS prvOf; congr 1; ring
  rw [j1] at ps1
  have hkG : (k1 * k2 % N) • G = (k1 * k2) • G := Ecdsa.smul_eq (ZMod.natCast_mod _ _)
  have fin := finish_single (d := d2 * d2) (prod_range hk1 hk2) hash
    (jointS_range d2 d2 (coords ((k1 * k2) • G)).1 hash kinv1 kinv2) (by rw [hkG]; exact hx) (by
      rw [hkG, jointS_cast, ZMod.natCast_mod]
      push_cast
      linear_combination ((d2 : ZMod N) * d2 * ((coords ((k1 * k2) • G)).1 : ZMod N) + Ecdsa.hashToInt hash) *
        (kinv2 * k2 * e1 + e2))
  rw [hkG] at fin
  unfold p2pkhExampleWith p2pkhExample
  have q1 : (newEcdsaParty (prvOf d1)).phase1 (newEcdsaParty (prvOf d2)).prv.pub = .ok (keyOf ((d1 * d2) • G)) := phase1_ok d1 d2
  rw [q1, Res.ok_bind, p1, Res.ok_bind]
  dsimp only
  rw [p2, Res.ok_bind]
  dsimp only
  rw [phase3_ok, Res.ok_bind, phase3_ok, Res.ok_bind, s12, s21, hct2, Res.ok_bind]
  unfold EcdsaParty.phase5
  rw [ps1]
  simp only [Res.ok_bind]
  rw [fin]
  cases Ecdsa.signWith (k1 * k2 % N) (d2 * d2 % N) hash <;> rfl

omit [Hashes] in
/-- **C97, negation for the P2PKH example.** Private keys 3 and 5, nonces 2 and 1: the example ends with a signature that is
refused under the shared key. -/
theorem C97_p2pkh_example_refused (w : Draw) (g : w.Good) : ∃ pub sig, p2pkhExampleWith (prvOf 3) (prvOf 5) [0xab] w w 2 1 = .ok (pub, sig) ∧
    pub = keyOf (15 • G) ∧ Ecdsa.ecdsaVerify pub [0xab] sig = .err Ecdsa.errVerify := by
  have hc : (coords ((2 * 1) • G)).1 = 0xc6047f9441ed7d6d3045406e95c07cd85c778e4b8cef3ca7abac09b95c709ee5 := by
    have h := baseMult_coords [2]
    have e : natOfBE [2] = 2 * 1 := by decide
    have h2 : baseMult [2] = .ok (0xc6047f9441ed7d6d3045406e95c07cd85c778e4b8cef3ca7abac09b95c709ee5,
      0x1ae168fea63dc339a3c58419466ceaeef7f632653266d0e1236431a950cfe52a) := by decide +kernel
    rw [h2, e] at h
    rw [← Res.ok.inj h]
  have e := C97_p2pkh_example 3 5 (by norm_num) [0xab] w g 2 1 (by decide +kernel) (by decide +kernel) (by norm_num)
    (by rw [hc]; decide +kernel)
  have hk : keyOf (15 • G) = (match baseMult [15] with | .ok (x, y) => ⟨x, y⟩ | _ => ⟨0, 0⟩) := by
    have h := baseMult_coords [15]
    have e : natOfBE [15] = 15 := by decide
    rw [e] at h
    rw [h]
    rfl
  have hrun : ∃ rs, Ecdsa.signWith (2 * 1 % N) (5 * 5 % N) [0xab] = .ok rs ∧
      Ecdsa.ecdsaVerify (match baseMult [15] with | .ok (x, y) => ⟨x, y⟩ | _ => ⟨0, 0⟩) [0xab] (Der.marshal rs.1 rs.2) =
        .err Ecdsa.errVerify := by
    have : (match Ecdsa.signWith (2 * 1 % N) (5 * 5 % N) [0xab] with
      | .ok rs => decide (Ecdsa.ecdsaVerify (match baseMult [15] with | .ok (x, y) => ⟨x, y⟩ | _ => ⟨0, 0⟩) [0xab]
          (Der.marshal rs.1 rs.2) = .err Ecdsa.errVerify)
      | _ => false) = true := by decide +kernel
    cases h : Ecdsa.signWith (2 * 1 % N) (5 * 5 % N) [0xab] with
    | ok rs => rw [h] at this; exact ⟨rs, rfl, of_decide_eq_true this⟩
    | err e => rw [h] at this; cases this
    | panic => rw [h] at this; cases this
  obtain ⟨rs, h1, h2⟩ := hrun
  rw [h1, Res.ok_bind] at e
  refine ⟨_, _, e, rfl, ?_⟩
  rw [show (3 * 5 : ℕ) = 15 from rfl, hk]
  exact h2

end Toku.Props
