import Verif.Proof.Receives
import Verif.Proof.Classes
/-
Property C127: the verdict of Verify on a received transaction is that of Bitcoin's script rules (Spec/Validity.lean), for P2PKH and
P2WPKH coins, within the stated forms.
-/
namespace Toku.Props
open Toku Toku.Spec Toku.Script Toku.Locking Toku.Tx Toku.Curve Toku.Keys Toku.VM
open Toku.Spec.Bitcoin (In BTx Bip66 checkSig legacyHash ValidInput ValidScripts)

/-- The input spends a coin of a key hash `p` by the signature `sig` and the key `key`: a P2PKH coin by a script of two pushes, with the
hash type ALL; or a P2WPKH coin, with a hash type that the library hashes as Bitcoin does. -/
def KeySpend (t0 : UInt32) (i : In) (coin : TxOut) (p sig key : Bytes) : Prop :=
  p.length = 20 ∧ (2 ≤ sig.length ∧ sig.length ≤ 75) ∧ (2 ≤ key.length ∧ key.length ≤ 75) ∧
  ((coin.script = standardScript .p2pkh p ∧ i.witness = [] ∧
      i.scriptSig = [UInt8.ofNat sig.length] ++ sig ++ [UInt8.ofNat key.length] ++ key ∧ sig.getLast? = some 1) ∨
   (coin.script = standardScript .p2wpkh p ∧ i.scriptSig = [] ∧ i.witness = [sig, key] ∧
      ∀ t, sig.getLast? = some t → TypeOk t0 true t.toUInt32))

/-- What the library does not ask for: the form of BIP66; that the key does not have the prefix 5; and that the signature is not the hash
in the script of the coin, from which Bitcoin would delete it. -/
def StrictForm (p sig key : Bytes) : Prop :=
  (∃ r s t, Bip66 sig r s t) ∧ (∀ rest, key ≠ 5 :: rest) ∧ sig ≠ p

/-- Sizes of a transaction in a Go process. -/
structure Sizes (b : BTx) : Prop where
  prev : ∀ i ∈ b.ins, i.prev.length = 32
  bytes : b.bytes.length < 2^43

/-- Parse the bytes; Deserialize is for a transaction with witnesses, DeserializeNoWitness for one without. -/
def parseBytes (b : BTx) : Res (Transaction × Bytes) :=
  if b.ins.any (fun i => !i.witness.isEmpty) then deserialize Tx.new b.bytes else deserializeNoWitness Tx.new b.bytes

section
variable [Hashes]

/-- The hash that the signature of the input is for. -/
def hashFor (b : BTx) (idx : ℕ) (i : In) (coin : TxOut) (p : Bytes) : UInt32 → Bytes :=
  if coin.script = standardScript .p2pkh p then legacyHash b idx (standardScript .p2pkh p)
  else Bitcoin.witnessHash b idx i coin.value (standardScript .p2pkh p)

omit [Hashes] in
theorem kinds_ne (p q : Bytes) : standardScript .p2wpkh p ≠ standardScript .p2pkh q := by
  intro h
  simp [standardScript] at h

/-- Bitcoin on such an input. -/
theorem bitcoin_needs {t0 : UInt32} {b : BTx} {idx : ℕ} {i : In} {coin : TxOut} {p sig key : Bytes} (hi : b.ins[idx]? = some i)
    (hk : KeySpend t0 i coin p sig key) (h : ValidInput b idx coin) :
    hash160 key = p ∧ checkSig (hashFor b idx i coin p) sig key = some true := by
  obtain ⟨hp, hs, hkl, hk⟩ := hk
  obtain ⟨v, script⟩ := coin
  unfold hashFor
  rcases hk with ⟨hc, hw, he, _⟩ | ⟨hc, he, hw, _⟩
  · dsimp only at hc
    subst hc
    rw [if_pos rfl]
    exact p2pkh_needs hp hi hs hkl he h
  · dsimp only at hc
    subst hc
    rw [if_neg (kinds_ne p p)]
    obtain ⟨_, sig', key', hw', h1, h2⟩ := p2wpkh_needs hp hi h
    rw [hw] at hw'
    cases hw'
    exact ⟨h1, h2⟩

theorem bitcoin_takes {t0 : UInt32} {b : BTx} {idx : ℕ} {i : In} {coin : TxOut} {p sig key : Bytes} (hi : b.ins[idx]? = some i)
    (hk : KeySpend t0 i coin p sig key) (hne : sig ≠ p) (h1 : hash160 key = p)
    (h2 : checkSig (hashFor b idx i coin p) sig key = some true) : ValidInput b idx coin := by
  obtain ⟨hp, hs, hkl, hk⟩ := hk
  have hkl' : 33 ≤ key.length ∧ key.length ≤ 65 := by have := check_key h2; omega
  obtain ⟨v, script⟩ := coin
  unfold hashFor at h2
  rcases hk with ⟨hc, hw, he, _⟩ | ⟨hc, he, hw, _⟩
  · dsimp only at hc
    subst hc
    rw [if_pos rfl] at h2
    exact p2pkh_spent hp hi hw hs hkl' he hne h1 h2
  · dsimp only at hc
    subst hc
    rw [if_neg (kinds_ne p p)] at h2
    exact p2wpkh_spent hp hi hw hs hkl' he h1 h2

/-- what an input is after SetTxIn -/
def setInput (i : In) (coin : TxOut) (k : Locking.Kind) (p : Bytes) (un : Bytes) : TxIn := { inOf i with
  rawUnlockingScript := un, value := coin.value, redeemScript := none, witnessScriptCode := witnessScriptCode ⟨k, p⟩ none,
  rawLockingScript := rawLocking ⟨k, p⟩, finalLockingScript := finalLocking ⟨k, p⟩ none }

/-- The library on such an input, in any state of the digest caches that the inputs before can leave. -/
theorem library_iff {fuel : ℕ} {t0 : UInt32} {b : BTx} {tx s : Transaction} {idx : ℕ} {i : In} {j : TxIn} {coin : TxOut} {p sig key : Bytes}
    {k : Locking.Kind} (hwire : wire tx = b) (henc : Encodable tx) (hi : b.ins[idx]? = some i) (hk : KeySpend t0 i coin p sig key)
    (hj : tx.inputs[idx]? = some j) (hcs : coin.script = standardScript k p) (hkind : k = .p2pkh ∨ k = .p2wpkh)
    (hej : j = setInput i coin k p (addData (addData Buffer.new sig) key).data) (hinv : Up t0 tx s) (hin : s.inputs = tx.inputs) :
    ((verifyInput (Ecdsa.scheme fuel) idx j s).1 = .ok () ↔
      hash160 key = p ∧ ∃ der t, sig = der ++ [t] ∧ Ecdsa.verifyBytes (hashFor b idx i coin p t.toUInt32) der key = .ok ()) ∧
    Up t0 tx (verifyInput (Ecdsa.scheme fuel) idx j s).2 ∧ (verifyInput (Ecdsa.scheme fuel) idx j s).2.inputs = tx.inputs := by
  obtain ⟨hp, hs, hkl, hk⟩ := hk
  obtain ⟨_, hps⟩ := pushToken_direct hs.1 hs.2
  obtain ⟨_, hpk⟩ := pushToken_direct hkl.1 hkl.2
  have ne : ∀ (x : UInt8) (d : Bytes), 2 ≤ d.length → d ≠ [x] := fun x d h e => by rw [e] at h; simp at h
  rcases hkind with rfl | rfl
  · -- P2PKH
    have hsz : p.length = hashSize .p2pkh := hp
    have hparse : parse j.rawLockingScript = .ok ⟨.p2pkh, p⟩ := by
      rw [hej]; exact C29_parse_build .p2pkh p hsz
    have h1 : sig.getLast? = some 1 := by
      rcases hk with ⟨_, _, _, h⟩ | ⟨h, _⟩
      · exact h
      · rw [hcs] at h; exact absurd h.symm (kinds_ne p p)
    obtain ⟨der, t, rfl⟩ : ∃ der t, sig = der ++ [t] := by
      rcases ScriptNum.nil_or_snoc sig with e | h
      · rw [e] at hs; simp at hs
      · exact h
    rw [List.getLast?_concat] at h1
    cases h1
    have hcode : signedScript j = .ok (standardScript .p2pkh p) := by
      rw [hej]
      unfold signedScript setInput
      dsimp only
      change Script.removeOpcode (rawLocking ⟨.p2pkh, p⟩) 0xab = _
      rw [C29_build .p2pkh p hp]
      exact C20_codeseparator_kept _ (standard_short .p2pkh p hp)
    have hhash : rawSignatureHash s idx 1 = .ok (hashFor b idx i coin p 1) := by
      unfold hashFor
      rw [rawHash_frozen hinv.frozen, if_pos hcs]
      unfold rawSignatureHash
      rw [C39_format tx henc idx j _ hj hcode (standard_short .p2pkh p hp), ← hwire, legacyHash_all]
      rfl
    obtain ⟨⟨r, hr⟩, hiff, _⟩ := C111_legacy_input (Ecdsa.scheme fuel) s idx j ⟨.p2pkh, p⟩ hparse (Or.inl rfl)
    refine ⟨?_, by rw [hr]; exact hinv, by rw [hr]; exact hin⟩
    rw [hiff, show j.rawUnlockingScript = (addData (addData Buffer.new (der ++ [1])) key).data by rw [hej]; rfl,
      show j.finalLockingScript = lockP2PKH p by rw [hej]; exact C29_build .p2pkh p hp]
    rcases two_pushes (legacyEnv (Ecdsa.scheme fuel) s idx) _ _ rfl rfl p hp (der ++ [1]) key (by omega) (by omega) with ⟨q, _⟩ | ⟨_, _, he⟩
    · rcases q with q | q
      · exact absurd q (ne _ _ hs.1)
      · exact absurd q (ne _ _ hkl.1)
    rw [he, hps, hpk]
    have hsv : sigValue (fun t => rawSignatureHash s idx t.toUInt32) (Ecdsa.scheme fuel).verify (der ++ [1]) key =
        VM.verified (Ecdsa.verifyBytes (hashFor b idx i coin p 1) der key) := by
      unfold sigValue
      rw [List.getLast?_concat]
      dsimp only
      rw [show (1 : UInt8).toUInt32 = 1 from rfl, hhash, Res.ok_bind, List.dropLast_concat]
      rfl
    rw [hsv]
    change (∃ vm, (if hash160 key = p then _ else _) = _) ↔ _
    by_cases hh : hash160 key = p
    · rw [if_pos hh]
      constructor
      · rintro ⟨vm, h⟩
        refine ⟨hh, der, 1, rfl, ?_⟩
        rw [show (1 : UInt8).toUInt32 = 1 from rfl]
        cases hv : Ecdsa.verifyBytes (hashFor b idx i coin p 1) der key with
        | ok u => rfl
        | err e => rw [hv] at h; simp [VM.verified, Res.ok_bind] at h
        | panic => exact absurd hv (verifyBytes_no_panic _ _ _)
      · rintro ⟨_, der', t', e, hv⟩
        obtain ⟨e1, e2⟩ := List.append_inj' e rfl
        cases e1
        cases e2
        rw [show (1 : UInt8).toUInt32 = 1 from rfl] at hv
        rw [hv]
        exact ⟨_, rfl⟩
    · rw [if_neg hh]
      constructor
      · rintro ⟨_, h⟩; cases h
      · rintro ⟨h, _⟩; exact absurd h hh
  · -- P2WPKH
    have hsz : p.length = hashSize .p2wpkh := hp
    have hparse : parse j.rawLockingScript = .ok ⟨.p2wpkh, p⟩ := by
      rw [hej]; exact C29_parse_build .p2wpkh p hsz
    have htype : ∀ t, sig.getLast? = some t → TypeOk t0 true t.toUInt32 := by
      rcases hk with ⟨h, _⟩ | ⟨_, _, _, h⟩
      · rw [hcs] at h; exact absurd h (kinds_ne p p)
      · exact h
    obtain ⟨der, t, rfl⟩ : ∃ der t, sig = der ++ [t] := by
      rcases ScriptNum.nil_or_snoc sig with e | h
      · rw [e] at hs; simp at hs
      · exact h
    obtain ⟨_, ht', hclass⟩ : t.toUInt32 < 256 ∧ (t.toUInt32 &&& 0x1f = 0 ∨ t.toUInt32 &&& 0x1f = 1 ∨ t.toUInt32 &&& 0x1f = 2) ∧
        SameClass t0 t.toUInt32 := htype t (List.getLast?_concat ..)
    have hjs : s.inputs[idx]? = some j := by rw [hin]; exact hj
    obtain ⟨s', hw1, hw2, hw3⟩ := witnessHash_up hinv hclass hj
    have hcode : j.witnessScriptCode = some (standardScript .p2pkh p) := by
      rw [hej]
      exact congrArg some (C29_build .p2pkh p hp)
    have hhash : refWitness tx j t.toUInt32 = hashFor b idx i coin p t.toUInt32 := by
      unfold hashFor
      rw [if_neg (by rw [hcs]; exact kinds_ne p p), refWitness_bip143 (Frozen.refl tx) henc hj hj ht' (fun c e => by
        rw [hcode] at e; cases e; exact standard_short .p2pkh p hp), ← witnessHash_eq tx idx j _ _ hcode, hwire]
      have hji : (wire tx).ins[idx]? = some ⟨j.hash, j.index, scriptSig j, j.sequence, j.witness⟩ := by
        unfold wire
        rw [List.getElem?_map, hj]
        rfl
      rw [hwire, hi] at hji
      cases hji
      rw [show j.value = coin.value by rw [hej]; rfl]
    rw [hhash] at hw1
    obtain ⟨hiff, hst⟩ := p2wpkh_run (Ecdsa.scheme fuel) verifyBytes_no_panic s idx j hjs p hparse hp
      (by rw [hej]; exact C29_build .p2pkh p hp) (der ++ [t]) key (by omega) (by omega) (by rw [hej]; rfl)
    rw [hps, hpk] at hiff
    rw [hps, List.getLast?_concat] at hst
    have hs' : s' = updateCaches s t.toUInt32 := by
      unfold witnessSignatureHash at hw1
      rw [hjs] at hw1
      have := congrArg (fun r => match r with | Res.ok q => q.2 | _ => s') hw1
      exact this.symm
    refine ⟨?_, ?_, ?_⟩
    · rw [hiff]
      constructor
      · rintro ⟨_, _, h1, der', t', hash, tx2, e, h2, h3⟩
        obtain ⟨e1, e2⟩ := List.append_inj' e rfl
        cases e1
        cases e2
        rw [hw1] at h2
        cases h2
        exact ⟨h1, der, t, rfl, h3⟩
      · rintro ⟨h1, der', t', e, h3⟩
        obtain ⟨e1, e2⟩ := List.append_inj' e rfl
        cases e1
        cases e2
        exact ⟨ne _ _ hs.1, ne _ _ hkl.1, h1, der, t, _, s', rfl, hw1, h3⟩
    · rcases hst with h | h
      · rw [h]; exact hinv
      · rw [h]
        change Up t0 tx (updateCaches s t.toUInt32)
        rw [← hs']
        exact hw2
    · rcases hst with h | h
      · rw [h]; exact hin
      · rw [h]
        exact hin

/-- All inputs; the state before the input `n` is one of `I n`. -/
theorem inputs_iff {κ : Type} (E : Ecdsa κ) (I : ℕ → Transaction → Prop) (Q : TxIn × ℕ → Prop) : ∀ (l : List TxIn) (n : ℕ) (s : Transaction), I n s →
    (∀ q ∈ l.zipIdx n, ∀ s, I q.2 s → ((verifyInput E q.2 q.1 s).1 = .ok () ↔ Q q) ∧ I (q.2 + 1) (verifyInput E q.2 q.1 s).2) →
    ((verifyInputs E (l.zipIdx n) s).1 = .ok () ↔ ∀ q ∈ l.zipIdx n, Q q)
  | [], n, s, _, _ => by simp [verifyInputs, VMS.lift]
  | i :: l, n, s, hs, h => by
    rw [List.zipIdx_cons] at h ⊢
    obtain ⟨h1, h2⟩ := h (i, n) List.mem_cons_self s hs
    have ih := inputs_iff E I Q l (n + 1) (verifyInput E n i s).2 h2 fun r hr => h r (List.mem_cons_of_mem _ hr)
    rw [List.forall_mem_cons, ← ih, ← h1]
    have e : verifyInputs E ((i, n) :: l.zipIdx (n + 1)) = VMS.bind (verifyInput E n i) fun _ => verifyInputs E (l.zipIdx (n + 1)) := rfl
    rw [e]
    unfold VMS.bind
    dsimp only
    cases hr : verifyInput E n i s with
    | mk r s' => cases r <;> simp

omit [Hashes] in
theorem encodable_txOf {b : BTx} (h : Sizes b) : Encodable (txOf b) := by
  have hb := h.bytes
  have hcs : ∀ n, 1 ≤ (compactSize n).length := by
    intro n; unfold compactSize; repeat' split
    all_goals simp
  have body : (counted (fun i => wireIn i.prev i.index i.scriptSig i.sequence) b.ins).length ≤ b.bytes.length ∧
      (counted wireOut b.outs).length ≤ b.bytes.length ∧
      (b.ins.any (fun i => !i.witness.isEmpty) = true → (b.ins.flatMap fun i => counted varStr i.witness).length ≤ b.bytes.length) := by
    unfold BTx.bytes
    split
    · simp only [List.length_append]
      refine ⟨by omega, by omega, fun _ => by omega⟩
    · rename_i hn
      simp only [List.length_append]
      refine ⟨by omega, by omega, fun h => absurd h hn⟩
  obtain ⟨b1, b2, b3⟩ := body
  have c1 : (b.ins.flatMap fun i => wireIn i.prev i.index i.scriptSig i.sequence).length < 2^43 := by
    unfold counted at b1
    rw [List.length_append] at b1
    omega
  have c2 : (b.outs.flatMap wireOut).length < 2^43 := by
    unfold counted at b2
    rw [List.length_append] at b2
    omega
  refine ⟨?_, ?_, ?_, ?_, ?_, ?_⟩
  · have := length_flatMap_ge (fun i : In => wireIn i.prev i.index i.scriptSig i.sequence) 4 b.ins (fun i _ => by simp [wireIn, Wire.le_length]; omega)
    simp only [txOf, List.length_map]
    omega
  · have := length_flatMap_ge wireOut 8 b.outs (fun o ho => by simp [wireOut, Wire.le_length])
    change b.outs.length < _
    omega
  · intro j hj
    obtain ⟨i, hi, rfl⟩ := List.mem_map.mp hj
    exact h.prev i hi
  · intro j hj
    obtain ⟨i, hi, rfl⟩ := List.mem_map.mp hj
    have h1 := le_length_flatMap (fun i : In => wireIn i.prev i.index i.scriptSig i.sequence) hi
    have h2 : i.scriptSig.length ≤ (wireIn i.prev i.index i.scriptSig i.sequence).length := by
      simp only [wireIn, varStr, List.length_append]
      omega
    change i.scriptSig.length < _
    omega
  · intro o ho
    have ho : o ∈ b.outs := ho
    have h1 := le_length_flatMap wireOut ho
    have h2 : o.script.length ≤ (wireOut o).length := by
      simp only [wireOut, varStr, List.length_append]
      omega
    omega
  · intro j hj
    obtain ⟨i, hi, rfl⟩ := List.mem_map.mp hj
    change i.witness.length < _ ∧ ∀ w ∈ i.witness, _
    by_cases he : i.witness = []
    · rw [he]; simp
    · have hany : b.ins.any (fun i => !i.witness.isEmpty) = true := by
        rw [List.any_eq_true]
        exact ⟨i, hi, by cases hw : i.witness with | nil => exact absurd hw he | cons => rfl⟩
      have h0 := b3 hany
      have h1 := le_length_flatMap (fun i : In => counted varStr i.witness) hi
      have h2 := length_flatMap_ge varStr 1 i.witness (fun w hw => by
        have := hcs w.length
        simp only [varStr, List.length_append]; omega)
      have h3 : (i.witness.flatMap varStr).length ≤ (counted varStr i.witness).length := by
        unfold counted; simp only [List.length_append]; omega
      refine ⟨by omega, fun w hw => ?_⟩
      have h4 := le_length_flatMap varStr hw
      have h5 : w.length ≤ (varStr w).length := by simp only [varStr, List.length_append]; omega
      omega

omit [Hashes] in
/-- The bytes of a transaction of these sizes are read. -/
theorem parseBytes_ok {b : BTx} (h : Sizes b) : parseBytes b = .ok (txOf b, []) := by
  have henc := encodable_txOf h
  unfold parseBytes
  split
  · rename_i hw
    have := deserialize_wire henc (by rw [txOf_segwit b hw]; exact h.bytes)
    rw [txOf_segwit b hw] at this
    rw [this]
    have e : (txOf b).inputs.map (fun i => ({ parsedIn i with witness := i.witness } : TxIn)) = (txOf b).inputs := by
      simp only [txOf, List.map_map]
      rfl
    rw [e]
    rfl
  · rename_i hw
    have := deserializeNoWitness_wire henc (by rw [txOf_legacy b hw]; exact h.bytes)
    rw [txOf_legacy b hw] at this
    rw [this]
    have e : (txOf b).inputs.map parsedIn = (txOf b).inputs := ?_
    · rw [e]
      rfl
    simp only [txOf, List.map_map]
    apply List.map_congr_left
    intro i hi
    have : i.witness = [] := by
      by_contra hc
      apply hw
      rw [List.any_eq_true]
      exact ⟨i, hi, by cases hx : i.witness with | nil => exact absurd hx hc | cons => rfl⟩
    simp only [Function.comp_apply, inOf, parsedIn, this]
    rfl

/-- What SetTxIn makes of it. -/
private theorem supplied {T : ℕ → UInt32} {b : BTx} {coins : List TxOut} (h : Sizes b) (hn : coins.length = b.ins.length)
    (hk : ∀ (idx : ℕ) i coin, b.ins[idx]? = some i → coins[idx]? = some coin → ∃ p sig key, KeySpend (T idx) i coin p sig key) :
    ∃ tx, supplyCoins (coins.map coinIn) 0 (txOf b) = .ok tx ∧ wire tx = b ∧ Encodable tx ∧ (∀ t0, Inv t0 tx tx) ∧ tx.inputs.length = b.ins.length ∧
      ∀ (idx : ℕ) i coin p sig key, b.ins[idx]? = some i → coins[idx]? = some coin → KeySpend (T idx) i coin p sig key →
        ∃ k, (k = .p2pkh ∨ k = .p2wpkh) ∧ coin.script = standardScript k p ∧
          tx.inputs[idx]? = some (setInput i coin k p (addData (addData Buffer.new sig) key).data) := by
  have hin : ∀ (idx : ℕ) coin, coins[idx]? = some coin → ∃ i, b.ins[idx]? = some i := by
    intro idx coin hc
    have : idx < coins.length := by
      by_contra hcc
      rw [List.getElem?_eq_none (by omega)] at hc
      cases hc
    exact ⟨_, List.getElem?_eq_getElem (by omega)⟩
  -- the kind of the coin
  have hkind : ∀ t0 i coin p sig key, KeySpend t0 i coin p sig key → ∃ (k : Locking.Kind) (un : Option Bytes), (k = .p2pkh ∨ k = .p2wpkh) ∧
      coin.script = standardScript k p ∧ parse coin.script = .ok ⟨k, p⟩ ∧ witnessToUnlocking ⟨k, p⟩ i.witness = .ok un ∧
      un.getD i.scriptSig = (addData (addData Buffer.new sig) key).data ∧ (k = .p2wpkh → i.scriptSig = []) := by
    rintro t0 i coin p sig key ⟨hp, hs, hkl, ⟨hc, hw, he, _⟩ | ⟨hc, he, hw, _⟩⟩
    · refine ⟨.p2pkh, none, Or.inl rfl, hc, ?_, rfl, ?_, by simp⟩
      · have := C29_parse_build .p2pkh p hp
        rw [C29_build .p2pkh p hp] at this
        rw [hc]; exact this
      · change i.scriptSig = _
        rw [he, VM.addData_data _ _ (by omega), VM.addData_data _ _ (by omega), (pushToken_direct hs.1 hs.2).1, (pushToken_direct hkl.1 hkl.2).1]
        simp [Buffer.new]
    · refine ⟨.p2wpkh, some (addData (addData Buffer.new sig) key).data, Or.inr rfl, hc, ?_, ?_, rfl, fun _ => he⟩
      · have := C29_parse_build .p2wpkh p hp
        rw [C29_build .p2wpkh p hp] at this
        rw [hc]; exact this
      · rw [hw]
        rfl
  have hcoin : ∀ (idx : ℕ) c, (coins.map coinIn)[idx]? = some c → ∃ coin, coins[idx]? = some coin ∧ c = coinIn coin := by
    intro idx c hc
    rw [List.getElem?_map] at hc
    cases hx : coins[idx]? with
    | none => rw [hx] at hc; cases hc
    | some coin => rw [hx] at hc; cases hc; exact ⟨coin, rfl, rfl⟩
  have hget : ∀ (idx : ℕ) i, b.ins[idx]? = some i → (txOf b).inputs[idx]? = some (inOf i) := by
    intro idx i hi
    simp only [txOf, List.getElem?_map, hi, Option.map_some]
  obtain ⟨tx, hs, e1, e2, e3, e4, e5, e6, e7⟩ := supplyCoins_ok (coins.map coinIn) 0 (txOf b) (by
    intro idx c hc
    obtain ⟨coin, hc', rfl⟩ := hcoin idx c hc
    clear hc
    have hc := hc'
    obtain ⟨i, hi⟩ := hin idx coin hc
    obtain ⟨p, sig, key, hks⟩ := hk idx i coin hi hc
    obtain ⟨k, un, _, _, hp, hu, _⟩ := hkind _ i coin p sig key hks
    exact ⟨inOf i, _, un, by rw [Nat.zero_add]; exact hget idx i hi, hp, hu⟩)
  have hlen : tx.inputs.length = b.ins.length := by rw [e7]; simp [txOf]
  have hafter : ∀ (idx : ℕ) i coin p sig key, b.ins[idx]? = some i → coins[idx]? = some coin → KeySpend (T idx) i coin p sig key →
        ∃ k, (k = .p2pkh ∨ k = .p2wpkh) ∧ coin.script = standardScript k p ∧
          tx.inputs[idx]? = some (setInput i coin k p (addData (addData Buffer.new sig) key).data) ∧ (k = .p2wpkh → i.scriptSig = []) ∧
          (k = .p2pkh → i.scriptSig = (addData (addData Buffer.new sig) key).data) := by
    intro idx i coin p sig key hi hc hks
    obtain ⟨k, un, hk1, hk2, hp, hu, hun, hk3⟩ := hkind _ i coin p sig key hks
    obtain ⟨i', s', un', h1, h2, h3, h4⟩ := (supplyCoins_get _ 0 _ tx hs).2 idx (coinIn coin) (by rw [List.getElem?_map, hc]; rfl)
    rw [Nat.zero_add] at h1 h4
    rw [hget idx i hi] at h1
    cases h1
    rw [show parse (coinIn coin).rawLockingScript = parse coin.script from rfl, hp] at h2
    cases h2
    rw [show witnessToUnlocking ⟨k, p⟩ (inOf i).witness = witnessToUnlocking ⟨k, p⟩ i.witness from rfl, hu] at h3
    cases h3
    refine ⟨k, hk1, hk2, ?_, hk3, ?_⟩
    · rw [h4]
      unfold setInput
      rw [← hun]
      rfl
    · rintro rfl
      cases hu
      exact hun
  have hwire : wire tx = b := by
    unfold wire
    rw [e1, e2, e3]
    have : tx.inputs.map (fun i => (⟨i.hash, i.index, scriptSig i, i.sequence, i.witness⟩ : In)) = b.ins := by
      apply List.ext_getElem?
      intro idx
      rw [List.getElem?_map]
      cases hb : b.ins[idx]? with
      | none =>
        have : tx.inputs[idx]? = none := by
          rw [List.getElem?_eq_none_iff] at hb ⊢
          omega
        rw [this]
        rfl
      | some i =>
        have hlt : idx < b.ins.length := by
          by_contra hcc
          rw [List.getElem?_eq_none (by omega)] at hb
          cases hb
        have hc := List.getElem?_eq_getElem (l := coins) (i := idx) (by omega)
        obtain ⟨p, sig, key, hks⟩ := hk idx i _ hb hc
        obtain ⟨k, hk1, _, hk3, hk4, hk5⟩ := hafter idx i _ p sig key hb hc hks
        rw [hk3]
        rcases hk1 with rfl | rfl
        · have : scriptSig (setInput i coins[idx] .p2pkh p (addData (addData Buffer.new sig) key).data) = i.scriptSig := (hk5 rfl).symm
          simp only [Option.map_some, this]
          rfl
        · have : scriptSig (setInput i coins[idx] .p2wpkh p (addData (addData Buffer.new sig) key).data) = i.scriptSig := (hk4 rfl).symm
          simp only [Option.map_some, this]
          rfl
    rw [this]
    rfl
  have henc := encodable_txOf h
  refine ⟨tx, hs, hwire, ⟨?_, ?_, ?_, ?_, ?_, ?_⟩, fun t0 => ⟨Frozen.refl tx, ?_, ?_, ?_⟩, hlen, fun idx i coin p sig key a1 a2 a3 => by
    obtain ⟨k, q1, q2, q3, _⟩ := hafter idx i coin p sig key a1 a2 a3
    exact ⟨k, q1, q2, q3⟩⟩
  · rw [e7]; exact henc.ins
  · rw [e3]; exact henc.outs
  all_goals first
    | (intro c hc; first | (rw [e4] at hc; cases hc) | (rw [e5] at hc; cases hc) | (rw [e6] at hc; cases hc))
    | (rw [e3]; exact henc.out)
    | (intro j hj
       obtain ⟨idx, hj⟩ := List.mem_iff_getElem?.mp hj
       have hlt : idx < b.ins.length := by
         by_contra hcc
         rw [List.getElem?_eq_none (by omega)] at hj
         cases hj
       have hb := List.getElem?_eq_getElem hlt
       have hc := List.getElem?_eq_getElem (l := coins) (i := idx) (by omega)
       obtain ⟨p, sig, key, hks⟩ := hk idx _ _ hb hc
       obtain ⟨k, _, _, hk3, _⟩ := hafter idx _ _ p sig key hb hc hks
       rw [hj] at hk3
       cases hk3
       have hm := List.mem_map_of_mem (f := inOf) (List.getElem_mem hlt)
       first
         | exact henc.hash (inOf b.ins[idx]) hm
         | exact henc.wit (inOf b.ins[idx]) hm
         | (change (addData (addData Buffer.new sig) key).data.length < _
            obtain ⟨_, hs, hkl, _⟩ := hks
            rw [VM.addData_data _ _ (by omega), VM.addData_data _ _ (by omega), (pushToken_direct hs.1 hs.2).1, (pushToken_direct hkl.1 hkl.2).1]
            simp [Buffer.new]
            omega))

/-- The verdict of the library on a transaction that is received: parse the bytes, give it its coins with SetTxIn, verify. -/
def verdict (fuel : ℕ) (b : BTx) (coins : List TxOut) : Res Unit := do
  let p ← parseBytes b
  let tx ← supplyCoins (coins.map coinIn) 0 p.1
  (verify (Ecdsa.scheme fuel) tx).1

/-- **C127 (partial).** Full statement: for a transaction on the wire and the coins that it spends, the library accepts it if and only if it is
valid for Bitcoin. Proved, for coins of key hashes that are spent by a signature and a key in the usual form: what Bitcoin takes the
library takes; and where the signature is in the form of BIP66 and the key has no prefix 5, both say the same. The hash types of the
witness inputs may differ, but an input may not cover more than the inputs before it (`T`; see `C127_negation_mixed`). The
transaction is read from its bytes and given its coins by SetTxIn; the curve is secp256k1 as it is implemented. Outside of these
forms: `C127_negation_*`. -/
theorem C127_partial (fuel : ℕ) (T : ℕ → UInt32) (hT : ∀ n, Covers (T n) (T (n + 1))) (b : BTx) (coins : List TxOut) (h : Sizes b)
    (hn : coins.length = b.ins.length)
    (hk : ∀ (idx : ℕ) i coin, b.ins[idx]? = some i → coins[idx]? = some coin → ∃ p sig key, KeySpend (T idx) i coin p sig key) :
    (ValidScripts b coins → verdict fuel b coins = .ok ()) ∧
    ((∀ (idx : ℕ) i coin p sig key, b.ins[idx]? = some i → coins[idx]? = some coin → KeySpend (T idx) i coin p sig key → StrictForm p sig key) →
      (verdict fuel b coins = .ok () ↔ ValidScripts b coins)) := by
  obtain ⟨tx, hs, hwire, henc, hinv, hlen, hafter⟩ := supplied h hn hk
  have hver : verdict fuel b coins = (verify (Ecdsa.scheme fuel) tx).1 := by
    unfold verdict
    rw [parseBytes_ok h, Res.ok_bind]
    dsimp only
    rw [hs, Res.ok_bind]
  rw [hver]
  have hall : ∀ (idx : ℕ) j, tx.inputs[idx]? = some j → ∃ i coin p sig key k, b.ins[idx]? = some i ∧ coins[idx]? = some coin ∧
      KeySpend (T idx) i coin p sig key ∧ (k = .p2pkh ∨ k = .p2wpkh) ∧ coin.script = standardScript k p ∧
      j = setInput i coin k p (addData (addData Buffer.new sig) key).data := by
    intro idx j hj
    have hlt : idx < b.ins.length := by
      by_contra hcc
      rw [List.getElem?_eq_none (by omega)] at hj
      cases hj
    have hb := List.getElem?_eq_getElem hlt
    have hc := List.getElem?_eq_getElem (l := coins) (i := idx) (by omega)
    obtain ⟨p, sig, key, hks⟩ := hk idx _ _ hb hc
    obtain ⟨k, h1, h2, h3⟩ := hafter idx _ _ p sig key hb hc hks
    rw [hj] at h3
    exact ⟨_, _, p, sig, key, k, hb, hc, hks, h1, h2, Option.some.inj h3⟩
  let Q : TxIn × ℕ → Prop := fun q => ∃ i coin p sig key, b.ins[q.2]? = some i ∧ coins[q.2]? = some coin ∧ KeySpend (T q.2) i coin p sig key ∧
    hash160 key = p ∧ ∃ der t, sig = der ++ [t] ∧ Ecdsa.verifyBytes (hashFor b q.2 i coin p t.toUInt32) der key = .ok ()
  have hv : (verify (Ecdsa.scheme fuel) tx).1 = .ok () ↔ ∀ q ∈ tx.inputs.zipIdx, Q q := by
    refine inputs_iff (Ecdsa.scheme fuel) (fun n s => Up (T n) tx s ∧ s.inputs = tx.inputs) Q _ 0 tx ⟨(hinv _).up, rfl⟩ ?_
    rintro ⟨j, idx⟩ hm s ⟨hs1, hs2⟩
    rw [List.mem_zipIdx_iff_getElem?] at hm
    obtain ⟨i, coin, p, sig, key, k, h1, h2, h3, h4, h5, h6⟩ := hall idx j hm
    obtain ⟨l1, l2, l3⟩ := library_iff (fuel := fuel) hwire henc h1 h3 hm h5 h4 h6 hs1 hs2
    refine ⟨l1.trans ⟨fun hh => ⟨i, coin, p, sig, key, h1, h2, h3, hh⟩, ?_⟩, l2.mono (hT idx), l3⟩
    rintro ⟨i', coin', p', sig', key', g1, g2, g3, g4⟩
    rw [h1] at g1; cases g1
    rw [h2] at g2; cases g2
    obtain ⟨k', q1, q2, q3⟩ := hafter idx i coin p' sig' key' h1 h2 g3
    obtain ⟨l1', _⟩ := library_iff (fuel := fuel) hwire henc h1 g3 q3 q2 q1 rfl hs1 hs2
    rw [hm] at q3
    rw [← l1, Option.some.inj q3, l1']
    exact g4
  have hvalid : ValidScripts b coins → (verify (Ecdsa.scheme fuel) tx).1 = .ok () := by
    rintro ⟨_, hv'⟩
    rw [hv]
    rintro ⟨j, idx⟩ hm
    rw [List.mem_zipIdx_iff_getElem?] at hm
    obtain ⟨i, coin, p, sig, key, k, h1, h2, h3, _⟩ := hall idx j hm
    obtain ⟨c1, c2⟩ := bitcoin_needs h1 h3 (hv' idx coin h2)
    obtain ⟨der, t, rfl⟩ : ∃ der t, sig = der ++ [t] := by
      rcases ScriptNum.nil_or_snoc sig with e | h
      · have := h3.2.1
        rw [e] at this; simp at this
      · exact h
    exact ⟨i, coin, p, _, key, h1, h2, h3, c1, der, t, rfl, verify_of_check c2⟩
  refine ⟨hvalid, fun hstrict => ⟨fun hok => ⟨hn, ?_⟩, hvalid⟩⟩
  intro idx coin hc
  have hlt : idx < tx.inputs.length := by
    rw [hlen, ← hn]
    by_contra hcc
    rw [List.getElem?_eq_none (by omega)] at hc
    cases hc
  obtain ⟨i, coin', p, sig, key, h1, h2, h3, h4, der, t, rfl, h5⟩ := hv.mp hok (tx.inputs[idx], idx) (by
    rw [List.mem_zipIdx_iff_getElem?]; exact List.getElem?_eq_getElem hlt)
  rw [hc] at h2
  cases h2
  obtain ⟨⟨r, s, t', hb66⟩, h5', hne⟩ := hstrict idx i coin p _ key h1 hc h3
  obtain ⟨rfl, _⟩ := der_of_bip66 hb66
  exact bitcoin_takes h1 h3 hne h4 (check_of_verify hb66 h5' h5)

end

end Toku.Props
