import Verif.Props.Receives
import Verif.Proof.Policies
/-
Property C128: the verdict of Verify on a received transaction is that of Bitcoin's script rules, for all four kinds of coins; those of
script hashes are spent by the signatures of an m-of-n script.
-/
namespace Toku.Props
open Toku Toku.Spec Toku.Script Toku.Locking Toku.Tx Toku.Curve Toku.Keys Toku.VM
open Toku.Spec.Bitcoin (In BTx Bip66 checkSig legacyHash ValidInput ValidScripts)

section
variable [Hashes]

/-- The input spends a coin of a script hash `p` by the signatures `sigs` for the script of `m` of the keys `keys`: a P2SH coin by a script
of pushes, with the hash type ALL; or a P2WSH coin, of the hash of this script, with hash types that the library hashes as Bitcoin does. -/
def PolicySpend (t0 : UInt32) (i : In) (coin : TxOut) (p : Bytes) (m : ℕ) (keys sigs : List Bytes) : Prop :=
  PolicySizes m keys ∧ sigs.length = m ∧ (∀ s ∈ sigs, 2 ≤ s.length ∧ s.length ≤ 75) ∧
  ((coin.script = standardScript .p2sh p ∧ p.length = 20 ∧ (policyScript m keys).length ≤ 520 ∧ i.witness = [] ∧
      i.scriptSig = 0 :: sigs.flatMap pushOf ++ pushOf (policyScript m keys) ∧ ∀ s ∈ sigs, s.getLast? = some 1) ∨
   (coin.script = standardScript .p2wsh p ∧ p.length = 32 ∧ Hashes.sha256 (policyScript m keys) = p ∧ i.scriptSig = [] ∧
      i.witness = [] :: sigs ++ [policyScript m keys] ∧ ∀ s ∈ sigs, ∀ t, s.getLast? = some t → TypeOk t0 true t.toUInt32))

omit [Hashes] in
/-- What the library does not ask for: the form of BIP66; that no key has the prefix 5; and that no signature is a key of the script, from
which Bitcoin would delete it. -/
def StrictSigs (keys sigs : List Bytes) : Prop :=
  (∀ s ∈ sigs, (∃ r x t, Bip66 s r x t) ∧ s ∉ keys) ∧ ∀ k ∈ keys, ∀ rest, k ≠ 5 :: rest

/-- The input spends the coin; the redeem script given to the library with the coin is the one of the input, and there is none
for a coin of a key hash. -/
def SpendsWith (t0 : UInt32) (i : In) (coin : TxOut) (redeem : Option Bytes) : Prop :=
  (redeem = none ∧ ∃ p sig key, KeySpend t0 i coin p sig key) ∨
  ∃ p m keys sigs, redeem = some (policyScript m keys) ∧ PolicySpend t0 i coin p m keys sigs

/-- The same, with signatures and keys in the form that the library does not ask for. -/
def StrictlySpends (t0 : UInt32) (i : In) (coin : TxOut) (redeem : Option Bytes) : Prop :=
  (redeem = none ∧ ∃ p sig key, KeySpend t0 i coin p sig key ∧ StrictForm p sig key) ∨
  ∃ p m keys sigs, redeem = some (policyScript m keys) ∧ PolicySpend t0 i coin p m keys sigs ∧ StrictSigs keys sigs

omit [Hashes] in
/-- What SetTxIn is called with. -/
def coinWith (c : TxOut × Option Bytes) : TxIn := { coinIn c.1 with redeemScript := c.2 }

/-- The verdict of the library on a transaction that is received: parse the bytes, give it its coins and their redeem scripts with
SetTxIn, verify. -/
def verdictWith (fuel : ℕ) (b : BTx) (coins : List (TxOut × Option Bytes)) : Res Unit := do
  let p ← parseBytes b
  let tx ← supplyCoins (coins.map coinWith) 0 p.1
  (verify (Ecdsa.scheme fuel) tx).1

/-! ### One input -/

/-- what an input is after SetTxIn -/
def setWith (i : In) (coin : TxOut) (redeem : Option Bytes) (k : Locking.Kind) (p un : Bytes) : TxIn := { inOf i with
  rawUnlockingScript := un, value := coin.value, redeemScript := redeem, witnessScriptCode := witnessScriptCode ⟨k, p⟩ redeem,
  rawLockingScript := rawLocking ⟨k, p⟩, finalLockingScript := finalLocking ⟨k, p⟩ redeem }

omit [Hashes] in
/-- What is known of an input and its coin before it is verified. -/
structure Shape (i : In) (coin : TxOut) (redeem : Option Bytes) (k : Locking.Kind) (p un : Bytes) : Prop where
  size : p.length = hashSize k
  script : coin.script = standardScript k p
  wit : ∃ o, witnessToUnlocking ⟨k, p⟩ i.witness = .ok o ∧ o.getD i.scriptSig = un
  sig : i.scriptSig = if witnessScriptCode ⟨k, p⟩ redeem = none then un else []
  short : un.length < 2^62

omit [Hashes] in
private theorem matching_congr {A B : Bytes → Bytes → Prop} {S K : List Bytes} (h : ∀ s ∈ S, ∀ k, A s k ↔ B s k) :
    Matching A S K ↔ Matching B S K := by
  have : ∀ {A B : Bytes → Bytes → Prop}, (∀ s ∈ S, ∀ k, A s k → B s k) → Matching A S K → Matching B S K := by
    clear h A B
    rintro A B h ⟨c, hc, hf⟩
    refine ⟨c, hc, ?_⟩
    clear hc
    induction hf with
    | nil => exact .nil
    | cons a _ ih => exact .cons (h _ List.mem_cons_self _ a) (ih fun s hs => h s (List.mem_cons_of_mem _ hs))
  exact ⟨this fun s hs k => (h s hs k).mp, this fun s hs k => (h s hs k).mpr⟩

/-- The hash that the signatures are for. -/
private def policyHash (b : BTx) (idx : ℕ) (i : In) (coin : TxOut) (k : Locking.Kind) (r : Bytes) : UInt32 → Bytes :=
  if k = .p2sh then legacyHash b idx r else Bitcoin.witnessHash b idx i coin.value r

/-- The signature is good for the key. -/
private def Good (hash : UInt32 → Bytes) (sig key : Bytes) : Prop :=
  ∃ der t, sig = der ++ [t] ∧ Ecdsa.verifyBytes (hash t.toUInt32) der key = .ok ()

omit [Hashes] in
private theorem snoc {s : Bytes} (h : 2 ≤ s.length) : ∃ der t, s = der ++ [t] := by
  rcases ScriptNum.nil_or_snoc s with e | h'
  · rw [e] at h; simp at h
  · exact h'

/-- The library on an input with the signatures of a policy, in any state of the digest caches that the inputs before can leave. -/
private theorem policy_library {fuel : ℕ} {t0 : UInt32} {b : BTx} {tx s : Transaction} {idx : ℕ} {i : In} {j : TxIn} {coin : TxOut}
    {p : Bytes} {m : ℕ} {keys sigs : List Bytes} {k : Locking.Kind} (hwire : wire tx = b) (henc : Encodable tx) (hi : b.ins[idx]? = some i)
    (hk : PolicySpend t0 i coin p m keys sigs) (hj : tx.inputs[idx]? = some j) (hcs : coin.script = standardScript k p)
    (hkind : k = .p2sh ∨ k = .p2wsh) (hsize : p.length = hashSize k)
    (hej : j = setWith i coin (some (policyScript m keys)) k p (encTokens (([] :: sigs).map pushToken ++ [pushToken (policyScript m keys)])))
    (hinv : Up t0 tx s) (hin : s.inputs = tx.inputs) :
    ((verifyInput (Ecdsa.scheme fuel) idx j s).1 = .ok () ↔
      (k = .p2sh → hash160 (policyScript m keys) = p) ∧ Matching (Good (policyHash b idx i coin k (policyScript m keys))) sigs keys) ∧
    Up t0 tx (verifyInput (Ecdsa.scheme fuel) idx j s).2 ∧ (verifyInput (Ecdsa.scheme fuel) idx j s).2.inputs = tx.inputs := by
  obtain ⟨hs, hsl, hsig, hk⟩ := hk
  obtain ⟨_, _, _, _, _, _, _, _, _, hr1, hr2⟩ := policy_tokens hs
  have hparse : parse j.rawLockingScript = .ok ⟨k, p⟩ := by
    rw [hej]; exact C29_parse_build k p hsize
  rcases hkind with rfl | rfl
  · -- P2SH
    have hp : p.length = 20 := hsize
    have h1 : ∀ s ∈ sigs, s.getLast? = some 1 := by
      rcases hk with ⟨_, _, _, _, _, h⟩ | ⟨h, _⟩
      · exact h
      · rw [hcs] at h; simp [standardScript] at h
    have hcode : signedScript j = .ok (policyScript m keys) := by
      rw [hej]
      rfl
    have hhash : rawSignatureHash s idx 1 = .ok (policyHash b idx i coin .p2sh (policyScript m keys) 1) := by
      unfold policyHash
      rw [rawHash_frozen hinv.frozen, if_pos rfl]
      unfold rawSignatureHash
      rw [C39_format tx henc idx j _ hj hcode (by omega), ← hwire, legacyHash_all]
      rfl
    obtain ⟨⟨r, hr⟩, hiff, _⟩ := C111_legacy_input (Ecdsa.scheme fuel) s idx j ⟨.p2sh, p⟩ hparse (Or.inr rfl)
    refine ⟨?_, by rw [hr]; exact hinv, by rw [hr]; exact hin⟩
    have ho : Oracles (legacyEnv (Ecdsa.scheme fuel) s idx) sigs keys := by
      refine ⟨_, _, rfl, rfl, fun der t hm => ⟨?_, fun h k _ => verifyBytes_no_panic _ _ _⟩⟩
      have := h1 _ hm
      rw [List.getLast?_concat] at this
      cases this
      exact ⟨_, hhash⟩
    have hv := (policy_verify (legacyEnv (Ecdsa.scheme fuel) s idx) hs hsl hsig ho hp).1
    rw [hiff, show j.rawUnlockingScript = encTokens (([] :: sigs).map pushToken ++ [pushToken (policyScript m keys)]) by rw [hej]; rfl,
      show j.finalLockingScript = lockP2SH p by rw [hej]; exact C29_build .p2sh p hp, hv]
    refine and_congr ⟨fun h _ => h, fun h => h rfl⟩ (matching_congr fun g hg key => ?_)
    obtain ⟨der, t, rfl⟩ := snoc (hsig g hg).1
    have := h1 _ hg
    rw [List.getLast?_concat] at this
    cases this
    constructor
    · rintro ⟨hasher, verifier, der', t', hash, q1, q2, q3, q4, q5⟩
      cases q1
      cases q2
      obtain ⟨e1, e2⟩ := List.append_inj' q3 rfl
      cases e1
      cases e2
      cases hhash.symm.trans q4
      exact ⟨der, 1, rfl, q5⟩
    · rintro ⟨der', t', q3, q5⟩
      obtain ⟨e1, e2⟩ := List.append_inj' q3 rfl
      cases e1
      cases e2
      exact ⟨_, _, der, 1, _, rfl, rfl, rfl, hhash, q5⟩
  · -- P2WSH
    have hp : p.length = 32 := hsize
    have htype : ∀ s ∈ sigs, ∀ t, s.getLast? = some t → TypeOk t0 true t.toUInt32 := by
      rcases hk with ⟨h, _⟩ | ⟨_, _, _, _, _, h⟩
      · rw [hcs] at h; simp [standardScript] at h
      · exact h
    have htype' : ∀ der t, der ++ [t] ∈ sigs → (t.toUInt32 &&& 0x1f = 0 ∨ t.toUInt32 &&& 0x1f = 1 ∨ t.toUInt32 &&& 0x1f = 2) ∧
        SameClass t0 t.toUInt32 := fun der t hm => (htype _ hm t (List.getLast?_concat ..) : _ ∧ _).2
    have hcode : j.witnessScriptCode = some (policyScript m keys) := by
      rw [hej]
      rfl
    have hhash : ∀ der t, der ++ [t] ∈ sigs → refWitness tx j t.toUInt32 = policyHash b idx i coin .p2wsh (policyScript m keys) t.toUInt32 := by
      intro der t hm
      unfold policyHash
      rw [if_neg (by simp), refWitness_bip143 (Frozen.refl tx) henc hj hj (htype' der t hm).1 (fun c e => by
        rw [hcode] at e; cases e; omega), ← witnessHash_eq tx idx j _ _ hcode, hwire]
      have hji : (wire tx).ins[idx]? = some ⟨j.hash, j.index, scriptSig j, j.sequence, j.witness⟩ := by
        unfold wire
        rw [List.getElem?_map, hj]
        rfl
      rw [hwire, hi] at hji
      cases hji
      rw [show j.value = coin.value by rw [hej]; rfl]
    classical
    let hasher : UInt8 → Res Bytes := fun t => if SameClass t0 t.toUInt32 then .ok (refWitness tx j t.toUInt32) else .panic
    let env : VM.Env := ⟨hash160, some hasher, some (Ecdsa.scheme fuel).verify⟩
    have ag : VMS.Agree (fun x => Up t0 tx x ∧ x.inputs = tx.inputs) env (engineEnv (Ecdsa.scheme fuel) idx .witnessV0) hasher := by
      refine ⟨rfl, rfl, rfl, fun t hpx x hx => ?_⟩
      by_cases hc : SameClass t0 t.toUInt32
      · obtain ⟨x', w1, w2, w3⟩ := witnessHash_up hx.1 hc hj
        refine ⟨x', ?_, w2, w3.trans hx.2⟩
        change sigHashFn idx .witnessV0 t x = _
        unfold sigHashFn
        dsimp only
        rw [w1]
        simp only [hasher, if_pos hc]
      · exact absurd (if_neg hc) hpx
    have ho : Oracles env sigs keys :=
      ⟨_, _, rfl, rfl, fun der t hm => ⟨⟨_, if_pos (htype' der t hm).2⟩, fun h k _ => verifyBytes_no_panic _ _ _⟩⟩
    obtain ⟨hv1, hv2⟩ := policy_verify env hs hsl hsig ho (p := hash160 (policyScript m keys)) (hash160_length _)
    obtain ⟨s', e, i1, i2⟩ := VMS.verify_sim ag _ _ _ (fun h => absurd h hv2) s ⟨hinv, hin⟩
    obtain ⟨g1, g2⟩ := input_of_run (E := Ecdsa.scheme fuel) (idx := idx) (i := j) hparse (tx := s) (tx' := s') (r := VM.verify env
      (encTokens (([] :: sigs).map pushToken ++ [pushToken (policyScript m keys)])) (lockP2SH (hash160 (policyScript m keys))) fresh) (by
      rw [show j.rawUnlockingScript = encTokens (([] :: sigs).map pushToken ++ [pushToken (policyScript m keys)]) by rw [hej]; rfl,
        show j.finalLockingScript = lockP2SH (hash160 (policyScript m keys)) by rw [hej]; exact C29_build .p2sh _ (hash160_length _)]
      exact e)
    refine ⟨?_, by rw [g2]; exact i1, by rw [g2]; exact i2⟩
    rw [g1, hv1]
    refine and_congr ⟨(fun _ h => by cases h), fun _ => rfl⟩ (matching_congr fun g hg key => ?_)
    obtain ⟨der, t, rfl⟩ := snoc (hsig g hg).1
    have ht : hasher t = .ok (policyHash b idx i coin .p2wsh (policyScript m keys) t.toUInt32) := by
      rw [← hhash der t hg]
      exact if_pos (htype' der t hg).2
    constructor
    · rintro ⟨hasher', verifier, der', t', hash, q1, q2, q3, q4, q5⟩
      cases q1
      cases q2
      obtain ⟨e1, e2⟩ := List.append_inj' q3 rfl
      cases e1
      cases e2
      rw [ht] at q4
      cases q4
      exact ⟨der, t, rfl, q5⟩
    · rintro ⟨der', t', q3, q5⟩
      obtain ⟨e1, e2⟩ := List.append_inj' q3 rfl
      cases e1
      cases e2
      exact ⟨_, _, der, t, _, rfl, rfl, rfl, ht, q5⟩

/-- What is compared for an input: `L` is that the library accepts it. -/
structure Compared (fuel : ℕ) (t0 : UInt32) (b : BTx) (tx : Transaction) (idx : ℕ) (coin : TxOut) (strict : Prop) (j : TxIn) (L : Prop) : Prop where
  library : ∀ s, Up t0 tx s ∧ s.inputs = tx.inputs →
    ((verifyInput (Ecdsa.scheme fuel) idx j s).1 = .ok () ↔ L) ∧
    (Up t0 tx (verifyInput (Ecdsa.scheme fuel) idx j s).2 ∧ (verifyInput (Ecdsa.scheme fuel) idx j s).2.inputs = tx.inputs)
  complete : ValidInput b idx coin → L
  sound : strict → L → ValidInput b idx coin

theorem key_compared {fuel : ℕ} {t0 : UInt32} {b : BTx} {i : In} {coin : TxOut} {p sig key : Bytes} (hk : KeySpend t0 i coin p sig key) :
    ∃ k un, Shape i coin none k p un ∧ ∀ tx idx, wire tx = b → Encodable tx → b.ins[idx]? = some i →
      tx.inputs[idx]? = some (setWith i coin none k p un) →
      ∃ L, Compared fuel t0 b tx idx coin (StrictForm p sig key) (setWith i coin none k p un) L := by
  have hk' := hk
  obtain ⟨hp, hs, hkl, hc⟩ := hk
  have hun : (addData (addData Buffer.new sig) key).data = [UInt8.ofNat sig.length] ++ sig ++ [UInt8.ofNat key.length] ++ key := by
    rw [VM.addData_data _ _ (by omega), VM.addData_data _ _ (by omega), (pushToken_direct hs.1 hs.2).1, (pushToken_direct hkl.1 hkl.2).1]
    simp [Buffer.new]
  have hshort : (addData (addData Buffer.new sig) key).data.length < 2^62 := by
    rw [hun]
    simp only [List.length_append, List.length_cons, List.length_nil]
    omega
  obtain ⟨k, hkind, hsh⟩ : ∃ k, (k = .p2pkh ∨ k = .p2wpkh) ∧ Shape i coin none k p (addData (addData Buffer.new sig) key).data := by
    rcases hc with ⟨hc, hw, he, _⟩ | ⟨hc, he, hw, _⟩
    · exact ⟨.p2pkh, Or.inl rfl, hp, hc, ⟨none, rfl, by rw [hun, ← he]; rfl⟩, by rw [hun, ← he]; rfl, hshort⟩
    · exact ⟨.p2wpkh, Or.inr rfl, hp, hc, ⟨some _, by rw [hw]; rfl, rfl⟩, he, hshort⟩
  refine ⟨k, _, hsh, fun tx idx hwire henc hi hj => ?_⟩
  refine ⟨hash160 key = p ∧ ∃ der t, sig = der ++ [t] ∧ Ecdsa.verifyBytes (hashFor b idx i coin p t.toUInt32) der key = .ok (), ?_, ?_, ?_⟩
  · rintro s ⟨h1, h2⟩
    exact library_iff hwire henc hi hk' hj hsh.script hkind rfl h1 h2
  · intro hv
    obtain ⟨c1, c2⟩ := bitcoin_needs hi hk' hv
    obtain ⟨der, t, rfl⟩ := snoc hs.1
    exact ⟨c1, der, t, rfl, verify_of_check c2⟩
  · rintro ⟨⟨r, x, t', hb66⟩, h5', hne⟩ ⟨h4, der, t, rfl, h5⟩
    obtain ⟨rfl, _⟩ := der_of_bip66 hb66
    exact bitcoin_takes hi hk' hne h4 (check_of_verify hb66 h5' h5)

theorem policy_compared {fuel : ℕ} {t0 : UInt32} {b : BTx} {i : In} {coin : TxOut} {p : Bytes} {m : ℕ} {keys sigs : List Bytes}
    (hk : PolicySpend t0 i coin p m keys sigs) :
    ∃ k un, Shape i coin (some (policyScript m keys)) k p un ∧ ∀ tx idx, wire tx = b → Encodable tx → b.ins[idx]? = some i →
      tx.inputs[idx]? = some (setWith i coin (some (policyScript m keys)) k p un) →
      ∃ L, Compared fuel t0 b tx idx coin (StrictSigs keys sigs) (setWith i coin (some (policyScript m keys)) k p un) L := by
  have hk' := hk
  obtain ⟨hsz, hsl, hsig, hc⟩ := hk
  obtain ⟨_, _, _, g4⟩ := policy_pushes hsz hsig
  have hlen := policy_pushes_length hsz hsl hsig
  obtain ⟨_, _, _, _, _, _, _, _, _, hr1, hr2⟩ := policy_tokens hsz
  obtain ⟨k, hkind, hsh⟩ : ∃ k, (k = .p2sh ∨ k = .p2wsh) ∧ Shape i coin (some (policyScript m keys)) k p
      (encTokens (([] :: sigs).map pushToken ++ [pushToken (policyScript m keys)])) := by
    rcases hc with ⟨hc, hp, h520, hw, he, _⟩ | ⟨hc, hp, _, he, hw, _⟩
    · refine ⟨.p2sh, Or.inl rfl, hp, hc, ⟨none, rfl, ?_⟩, ?_, by omega⟩
      · rw [policy_wire hsz hsig h520, ← he]; rfl
      · rw [policy_wire hsz hsig h520, ← he]; rfl
    · refine ⟨.p2wsh, Or.inr rfl, hp, hc, ⟨some _, ?_, rfl⟩, he, by omega⟩
      obtain ⟨is, his, hms⟩ := C30_recognised m keys hsz.le (by have := hsz.pos; have := hsz.le; omega) hsz.max hsz.key _
        (genMultiSig_policy hsz) (by omega)
      unfold witnessToUnlocking
      dsimp only
      rw [hw, List.getLast?_concat]
      dsimp only
      rw [if_pos (by simp only [List.length_append, List.length_cons]; omega), his]
      dsimp only
      rw [if_pos hms, List.dropLast_concat]
      exact congrArg (fun x => Res.ok (some x)) g4
  refine ⟨k, _, hsh, fun tx idx hwire henc hi hj => ?_⟩
  refine ⟨(k = .p2sh → hash160 (policyScript m keys) = p) ∧ Matching (Good (policyHash b idx i coin k (policyScript m keys))) sigs keys, ?_, ?_, ?_⟩
  · rintro s ⟨h1, h2⟩
    exact policy_library hwire henc hi hk' hj hsh.script hkind hsh.size rfl h1 h2
  · intro hv
    have hgood : ∀ hash : UInt32 → Bytes, Matching (fun s k => checkSig hash s k = some true) sigs keys → Matching (Good hash) sigs keys := by
      rintro hash hm
      have hf : Matching (fun s k => (∃ der t, s = der ++ [t]) ∧ checkSig hash s k = some true) sigs keys :=
        (matching_congr fun s hs k => ⟨fun h => ⟨snoc (hsig s hs).1, h⟩, fun h => h.2⟩).mp hm
      obtain ⟨c, h1, h2⟩ := hf
      refine ⟨c, h1, h2.imp ?_⟩
      rintro s k ⟨⟨der, t, rfl⟩, h⟩
      exact ⟨der, t, rfl, verify_of_check h⟩
    obtain ⟨v, script⟩ := coin
    have hcs := hsh.script
    dsimp only at hcs
    subst hcs
    rcases hkind with rfl | rfl
    · rcases hc with ⟨_, hp, h520, hw, he, _⟩ | ⟨hc, _⟩
      · obtain ⟨c1, c2⟩ := p2sh_needs hsz hsl hsig h520 hp hi he hv
        exact ⟨fun _ => c1, hgood _ c2⟩
      · simp [standardScript] at hc
    · rcases hc with ⟨hc, _⟩ | ⟨_, hp, _, he, hw, _⟩
      · simp [standardScript] at hc
      · obtain ⟨c1, _, c2⟩ := p2wsh_needs hsz hsl hp hi hw hv
        exact ⟨(fun h => by cases h), hgood _ c2⟩
  · rintro ⟨hb66, h5⟩ ⟨hh, hm⟩
    have hcheck : ∀ hash : UInt32 → Bytes, Matching (Good hash) sigs keys → Matching (fun s k => checkSig hash s k = some true) sigs keys := by
      rintro hash ⟨c, hc, hf⟩
      refine ⟨c, hc, ?_⟩
      have : ∀ (l c : List Bytes), (∀ s ∈ l, s ∈ sigs) → (∀ k ∈ c, k ∈ keys) → List.Forall₂ (Good hash) l c →
          List.Forall₂ (fun s k => checkSig hash s k = some true) l c := by
        intro l c hl hc hf
        induction hf with
        | nil => exact .nil
        | cons a _ ih =>
          refine .cons ?_ (ih (fun s hs => hl s (List.mem_cons_of_mem _ hs)) fun k hk => hc k (List.mem_cons_of_mem _ hk))
          obtain ⟨der, t, rfl, ha⟩ := a
          obtain ⟨⟨r, x, t', hb⟩, _⟩ := hb66 _ (hl _ List.mem_cons_self)
          obtain ⟨rfl, _⟩ := der_of_bip66 hb
          exact check_of_verify hb (h5 _ (hc _ List.mem_cons_self)) ha
      exact this _ _ (fun _ h => h) (fun k hk => hc.subset hk) hf
    have hm' := hcheck _ hm
    obtain ⟨v, script⟩ := coin
    have hcs := hsh.script
    dsimp only at hcs
    subst hcs
    rcases hkind with rfl | rfl
    · rcases hc with ⟨_, hp, h520, hw, he, _⟩ | ⟨hc, _⟩
      · exact p2sh_spent hsz hsl hsig h520 hp hi hw he hb66 (hh rfl) hm'
      · simp [standardScript] at hc
    · rcases hc with ⟨hc, _⟩ | ⟨_, hp, hsha, he, hw, _⟩
      · simp [standardScript] at hc
      · exact p2wsh_spent hsz hsl hsig hp hi hw he (fun s hs => (hb66 s hs).1) hsha hm'

/-! ### All inputs -/

omit [Hashes] in
private theorem get_of_lt {α : Type} {l : List α} {n : ℕ} {a : α} (h : l[n]? = some a) : n < l.length := by
  by_contra hc
  rw [List.getElem?_eq_none (by omega)] at h
  cases h

/-- What SetTxIn makes of the transaction. -/
private theorem suppliedWith {b : BTx} {coins : List (TxOut × Option Bytes)} (h : Sizes b) (hn : coins.length = b.ins.length)
    (hk : ∀ (idx : ℕ) i c, b.ins[idx]? = some i → coins[idx]? = some c → ∃ k p un, Shape i c.1 c.2 k p un) :
    ∃ tx, supplyCoins (coins.map coinWith) 0 (txOf b) = .ok tx ∧ wire tx = b ∧ Encodable tx ∧ (∀ t0, Inv t0 tx tx) ∧ tx.inputs.length = b.ins.length ∧
      ∀ (idx : ℕ) i c k p un, b.ins[idx]? = some i → coins[idx]? = some c → Shape i c.1 c.2 k p un →
        tx.inputs[idx]? = some (setWith i c.1 c.2 k p un) := by
  have hparse : ∀ i (c : TxOut × Option Bytes) k p un, Shape i c.1 c.2 k p un → parse (coinWith c).rawLockingScript = .ok ⟨k, p⟩ := by
    intro i c k p un hs
    have := C29_parse_build k p hs.size
    rw [C29_build k p hs.size] at this
    change parse c.1.script = _
    rw [hs.script]
    exact this
  have hget : ∀ (idx : ℕ) i, b.ins[idx]? = some i → (txOf b).inputs[idx]? = some (inOf i) := by
    intro idx i hi
    simp only [txOf, List.getElem?_map, hi, Option.map_some]
  obtain ⟨tx, hs, e1, e2, e3, e4, e5, e6, e7⟩ := supplyCoins_ok (coins.map coinWith) 0 (txOf b) (by
    intro idx c' hc'
    rw [List.getElem?_map] at hc'
    cases hc : coins[idx]? with
    | none => rw [hc] at hc'; cases hc'
    | some c =>
      rw [hc] at hc'
      cases hc'
      have hb := List.getElem?_eq_getElem (l := b.ins) (i := idx) (by have := get_of_lt hc; omega)
      obtain ⟨k, p, un, hsh⟩ := hk idx _ c hb hc
      obtain ⟨o, ho, _⟩ := hsh.wit
      exact ⟨_, _, o, by rw [Nat.zero_add]; exact hget idx _ hb, hparse _ c k p un hsh, ho⟩)
  have hlen : tx.inputs.length = b.ins.length := by rw [e7]; simp [txOf]
  have hafter : ∀ (idx : ℕ) i c k p un, b.ins[idx]? = some i → coins[idx]? = some c → Shape i c.1 c.2 k p un →
      tx.inputs[idx]? = some (setWith i c.1 c.2 k p un) := by
    intro idx i c k p un hi hc hsh
    obtain ⟨i', s', un', h1, h2, h3, h4⟩ := (supplyCoins_get _ 0 _ tx hs).2 idx (coinWith c) (by rw [List.getElem?_map, hc]; rfl)
    rw [Nat.zero_add] at h1 h4
    rw [hget idx i hi] at h1
    cases h1
    rw [hparse i c k p un hsh] at h2
    cases h2
    obtain ⟨o, ho, hun⟩ := hsh.wit
    rw [show witnessToUnlocking ⟨k, p⟩ (inOf i).witness = witnessToUnlocking ⟨k, p⟩ i.witness from rfl, ho] at h3
    cases h3
    rw [h4]
    unfold setWith
    rw [← hun]
    rfl
  have hshape : ∀ idx < b.ins.length, ∃ i c k p un, b.ins[idx]? = some i ∧ coins[idx]? = some c ∧ Shape i c.1 c.2 k p un ∧
      tx.inputs[idx]? = some (setWith i c.1 c.2 k p un) := by
    intro idx hlt
    have hb := List.getElem?_eq_getElem hlt
    have hc := List.getElem?_eq_getElem (l := coins) (i := idx) (by omega)
    obtain ⟨k, p, un, hsh⟩ := hk idx _ _ hb hc
    exact ⟨_, _, k, p, un, hb, hc, hsh, hafter idx _ _ k p un hb hc hsh⟩
  have hwire : wire tx = b := by
    unfold wire
    rw [e1, e2, e3]
    have : tx.inputs.map (fun i => (⟨i.hash, i.index, scriptSig i, i.sequence, i.witness⟩ : In)) = b.ins := by
      apply List.ext_getElem?
      intro idx
      rw [List.getElem?_map]
      by_cases hlt : idx < b.ins.length
      · obtain ⟨i, c, k, p, un, hb, _, hsh, h4⟩ := hshape idx hlt
        rw [hb, h4]
        have : scriptSig (setWith i c.1 c.2 k p un) = i.scriptSig := hsh.sig.symm
        simp only [Option.map_some, this]
        rfl
      · rw [List.getElem?_eq_none (by omega), List.getElem?_eq_none (by omega)]
        rfl
    rw [this]
    rfl
  have henc := encodable_txOf h
  have hmem : ∀ j ∈ tx.inputs, ∃ i, ∃ c : TxOut × Option Bytes, ∃ k p un, i ∈ b.ins ∧ Shape i c.1 c.2 k p un ∧ j = setWith i c.1 c.2 k p un := by
    intro j hj
    obtain ⟨idx, hj⟩ := List.mem_iff_getElem?.mp hj
    obtain ⟨i, c, k, p, un, hb, _, hsh, h4⟩ := hshape idx (by have := get_of_lt hj; omega)
    rw [hj] at h4
    exact ⟨i, c, k, p, un, List.mem_of_getElem? hb, hsh, Option.some.inj h4⟩
  refine ⟨tx, hs, hwire, ⟨?_, ?_, ?_, ?_, ?_, ?_⟩, fun t0 => ⟨Frozen.refl tx, ?_, ?_, ?_⟩, hlen, hafter⟩
  · rw [e7]; exact henc.ins
  · rw [e3]; exact henc.outs
  · intro j hj
    obtain ⟨i, c, k, p, un, hm, _, rfl⟩ := hmem j hj
    exact henc.hash (inOf i) (List.mem_map_of_mem hm)
  · intro j hj
    obtain ⟨i, c, k, p, un, _, hsh, rfl⟩ := hmem j hj
    exact hsh.short
  · rw [e3]; exact henc.out
  · intro j hj
    obtain ⟨i, c, k, p, un, hm, _, rfl⟩ := hmem j hj
    exact henc.wit (inOf i) (List.mem_map_of_mem hm)
  all_goals (intro c hc; first | (rw [e4] at hc; cases hc) | (rw [e5] at hc; cases hc) | (rw [e6] at hc; cases hc))

theorem compared_all {fuel : ℕ} {T : ℕ → UInt32} (hT : ∀ n, Covers (T n) (T (n + 1))) {b : BTx} {coins : List (TxOut × Option Bytes)} (h : Sizes b)
    (hn : coins.length = b.ins.length) (strict : Prop)
    (hk : ∀ (idx : ℕ) i c, b.ins[idx]? = some i → coins[idx]? = some c → ∃ k p un, Shape i c.1 c.2 k p un ∧
      ∀ tx, wire tx = b → Encodable tx → tx.inputs[idx]? = some (setWith i c.1 c.2 k p un) →
        ∃ L, Compared fuel (T idx) b tx idx c.1 strict (setWith i c.1 c.2 k p un) L) :
    (ValidScripts b (coins.map (·.1)) → verdictWith fuel b coins = .ok ()) ∧
    (strict → (verdictWith fuel b coins = .ok () ↔ ValidScripts b (coins.map (·.1)))) := by
  obtain ⟨tx, hs, hwire, henc, hinv, hlen, hafter⟩ := suppliedWith h hn (fun idx i c hi hc => by
    obtain ⟨k, p, un, hsh, _⟩ := hk idx i c hi hc
    exact ⟨k, p, un, hsh⟩)
  have hver : verdictWith fuel b coins = (verify (Ecdsa.scheme fuel) tx).1 := by
    unfold verdictWith
    rw [parseBytes_ok h, Res.ok_bind]
    dsimp only
    rw [hs, Res.ok_bind]
  rw [hver]
  have hall : ∀ (idx : ℕ) j, tx.inputs[idx]? = some j → ∃ c L, coins[idx]? = some c ∧ Compared fuel (T idx) b tx idx c.1 strict j L := by
    intro idx j hj
    have hlt := get_of_lt hj
    have hb := List.getElem?_eq_getElem (l := b.ins) (i := idx) (by omega)
    have hc := List.getElem?_eq_getElem (l := coins) (i := idx) (by omega)
    obtain ⟨k, p, un, hsh, hcmp⟩ := hk idx _ _ hb hc
    have h4 := hafter idx _ _ k p un hb hc hsh
    obtain ⟨L, hL⟩ := hcmp tx hwire henc h4
    rw [hj] at h4
    cases h4
    exact ⟨_, L, hc, hL⟩
  let Q : TxIn × ℕ → Prop := fun q => ∃ c L, coins[q.2]? = some c ∧ Compared fuel (T q.2) b tx q.2 c.1 strict q.1 L ∧ L
  have hv : (verify (Ecdsa.scheme fuel) tx).1 = .ok () ↔ ∀ q ∈ tx.inputs.zipIdx, Q q := by
    refine inputs_iff (Ecdsa.scheme fuel) (fun n s => Up (T n) tx s ∧ s.inputs = tx.inputs) Q _ 0 tx ⟨(hinv _).up, rfl⟩ ?_
    rintro ⟨j, idx⟩ hm s hs'
    rw [List.mem_zipIdx_iff_getElem?] at hm
    obtain ⟨c, L, hc, hL⟩ := hall idx j hm
    obtain ⟨l1, l2⟩ := hL.library s hs'
    refine ⟨⟨fun hh => ⟨c, L, hc, hL, l1.mp hh⟩, ?_⟩, l2.1.mono (hT idx), l2.2⟩
    rintro ⟨c', L', _, hL', hl⟩
    exact (hL'.library s hs').1.mpr hl
  have hvalid : ValidScripts b (coins.map (·.1)) → (verify (Ecdsa.scheme fuel) tx).1 = .ok () := by
    rintro ⟨_, hv'⟩
    rw [hv]
    rintro ⟨j, idx⟩ hm
    rw [List.mem_zipIdx_iff_getElem?] at hm
    obtain ⟨c, L, hc, hL⟩ := hall idx j hm
    exact ⟨c, L, hc, hL, hL.complete (hv' idx c.1 (by rw [List.getElem?_map, hc]; rfl))⟩
  refine ⟨hvalid, fun hstrict => ⟨fun hok => ⟨by rw [List.length_map, hn], ?_⟩, hvalid⟩⟩
  intro idx coin hc'
  rw [List.getElem?_map] at hc'
  cases hc : coins[idx]? with
  | none => rw [hc] at hc'; cases hc'
  | some c =>
    rw [hc] at hc'
    cases hc'
    have hlt : idx < tx.inputs.length := by have := get_of_lt hc; omega
    obtain ⟨c', L, hc2, hL, hl⟩ := hv.mp hok (tx.inputs[idx], idx) (by
      rw [List.mem_zipIdx_iff_getElem?]; exact List.getElem?_eq_getElem hlt)
    dsimp only at hc2
    rw [hc] at hc2
    cases hc2
    exact hL.sound hstrict hl

omit [Hashes] in
theorem compared_mono [Hashes] {fuel : ℕ} {t0 : UInt32} {b : BTx} {tx : Transaction} {idx : ℕ} {coin : TxOut} {P Q : Prop} {j : TxIn} {L : Prop}
    (h : Compared fuel t0 b tx idx coin P j L) (hpq : Q → P) : Compared fuel t0 b tx idx coin Q j L :=
  ⟨h.library, h.complete, fun hq => h.sound (hpq hq)⟩

/-- **C128 (partial).** Full statement: for a transaction on the wire and the coins that it spends, the library accepts it if and only if it is
valid for Bitcoin. Proved for coins of all four kinds, in one transaction in any combination: coins of a key hash, spent by a signature and
a key (C127), and coins of a script hash, spent by `m` signatures for an m-of-n script of at most 16 keys. What Bitcoin takes the library
takes. The redeem script is given to the library with the coin and is the one of the input; for P2WSH it has the hash of the coin, which the
library does not check (C44). The hash types of witness signatures may differ between inputs, but an input may not cover more than the
inputs before it. Missing: other forms of spending. -/
theorem C128_complete_partial (fuel : ℕ) (T : ℕ → UInt32) (hT : ∀ n, Covers (T n) (T (n + 1))) (b : BTx) (coins : List (TxOut × Option Bytes)) (h : Sizes b)
    (hn : coins.length = b.ins.length)
    (hk : ∀ (idx : ℕ) i c, b.ins[idx]? = some i → coins[idx]? = some c → SpendsWith (T idx) i c.1 c.2)
    (hv : ValidScripts b (coins.map (·.1))) : verdictWith fuel b coins = .ok () := by
  refine (compared_all (fuel := fuel) hT h hn False ?_).1 hv
  rintro idx i ⟨coin, redeem⟩ hi hc
  rcases hk idx i _ hi hc with ⟨hr, p, sig, key, hks⟩ | ⟨p, m, keys, sigs, hr, hps⟩
  · dsimp only at hr hks
    subst hr
    obtain ⟨k, un, hsh, hcmp⟩ := key_compared (fuel := fuel) (b := b) hks
    refine ⟨k, p, un, hsh, fun tx hw he hj => ?_⟩
    obtain ⟨L, hL⟩ := hcmp tx idx hw he hi hj
    exact ⟨L, compared_mono hL False.elim⟩
  · dsimp only at hr hps
    subst hr
    obtain ⟨k, un, hsh, hcmp⟩ := policy_compared (fuel := fuel) (b := b) hps
    refine ⟨k, p, un, hsh, fun tx hw he hj => ?_⟩
    obtain ⟨L, hL⟩ := hcmp tx idx hw he hi hj
    exact ⟨L, compared_mono hL False.elim⟩

/-- **C128 (partial).** And where the signatures are in the form of BIP66, no key has the prefix 5, and no signature occurs in the script, the
library and Bitcoin say the same. -/
theorem C128_exact_partial (fuel : ℕ) (T : ℕ → UInt32) (hT : ∀ n, Covers (T n) (T (n + 1))) (b : BTx) (coins : List (TxOut × Option Bytes)) (h : Sizes b)
    (hn : coins.length = b.ins.length)
    (hk : ∀ (idx : ℕ) i c, b.ins[idx]? = some i → coins[idx]? = some c → StrictlySpends (T idx) i c.1 c.2) :
    verdictWith fuel b coins = .ok () ↔ ValidScripts b (coins.map (·.1)) := by
  refine (compared_all (fuel := fuel) hT h hn True ?_).2 trivial
  rintro idx i ⟨coin, redeem⟩ hi hc
  rcases hk idx i _ hi hc with ⟨hr, p, sig, key, hks, hst⟩ | ⟨p, m, keys, sigs, hr, hps, hst⟩
  · dsimp only at hr hks
    subst hr
    obtain ⟨k, un, hsh, hcmp⟩ := key_compared (fuel := fuel) (b := b) hks
    refine ⟨k, p, un, hsh, fun tx hw he hj => ?_⟩
    obtain ⟨L, hL⟩ := hcmp tx idx hw he hi hj
    exact ⟨L, compared_mono hL fun _ => hst⟩
  · dsimp only at hr hps
    subst hr
    obtain ⟨k, un, hsh, hcmp⟩ := policy_compared (fuel := fuel) (b := b) hps
    refine ⟨k, p, un, hsh, fun tx hw he hj => ?_⟩
    obtain ⟨L, hL⟩ := hcmp tx idx hw he hi hj
    exact ⟨L, compared_mono hL fun _ => hst⟩

end

end Toku.Props
