import Verif.Proof.Validity
import Verif.Props.Built
/-
Property C126: what the library signs satisfies the script rules of Bitcoin (Spec/Validity.lean), end to end, with secp256k1 as it is
implemented; and where it does not.
-/
namespace Toku.Props
open Toku Toku.Spec Toku.Script Toku.Locking Toku.Tx Toku.Curve Toku.Keys
open Toku.Spec.Bitcoin (In BTx Rules Multi checkSig legacyCheck legacyHash IsWitnessProgram ValidInput ValidScripts consensus VerifyLegacy IsP2SH)

section
variable [Hashes]

/-- `r` is the script of `genMultiSig` for as many keys of at most 20 as private keys are given; the keys are points, and the private
keys belong to some of them in order. -/
def PolicyOf (fuel : ℕ) (r : Bytes) (keys : List Ecdsa.Key) : Prop :=
  ∃ pubs chosen : List Bytes, genMultiSig keys.length pubs = .ok r ∧ 1 ≤ keys.length ∧ pubs.length ≤ 20 ∧
    (∀ p ∈ pubs, ∃ q : Pt, Compressed q p ∨ Uncompressed q p) ∧ chosen.Sublist pubs ∧
    List.Forall₂ (fun k p => ∃ c, p = (Ecdsa.scheme fuel).pub k c) keys chosen

/-- The keys that can spend a standard output on Bitcoin. No redeem script is set for P2PKH. The script of P2SH has at most 520 bytes. -/
def SpendableWith (fuel : ℕ) (s : LockScript) (redeem : Option Bytes) (compressed : Bool) (keys : List Ecdsa.Key) : Prop :=
  match s.kind with
  | .p2pkh => redeem = none ∧ ∃ k rest, keys = k :: rest ∧ hash160 ((Ecdsa.scheme fuel).pub k compressed) = s.hash
  | .p2wpkh => ∃ k rest, keys = k :: rest ∧ hash160 ((Ecdsa.scheme fuel).pub k compressed) = s.hash
  | .p2sh => ∃ r, redeem = some r ∧ hash160 r = s.hash ∧ r.length ≤ 520 ∧ PolicyOf fuel r keys
  | .p2wsh => ∃ r, redeem = some r ∧ Hashes.sha256 r = s.hash ∧ PolicyOf fuel r keys

/-- The hash types that the library hashes as Bitcoin does, as far as no digest is cached: ALL for a legacy input; for a witness input ALL and
NONE, with or without ANYONECANPAY. -/
def Supported (witness : Bool) (t : UInt32) : Prop :=
  if witness then t < 256 ∧ (t &&& 0x1f = 0 ∨ t &&& 0x1f = 1 ∨ t &&& 0x1f = 2) else t = 1

/-- The hash types that the library hashes as Bitcoin does: ALL for a legacy input; for a witness input ALL and NONE, with or without
ANYONECANPAY, and of the class of `t0`, which is the same for all inputs of a transaction. -/
def TypeOk (t0 : UInt32) (witness : Bool) (t : UInt32) : Prop :=
  if witness then t < 256 ∧ (t &&& 0x1f = 0 ∨ t &&& 0x1f = 1 ∨ t &&& 0x1f = 2) ∧ SameClass t0 t else t = 1

omit [Hashes] in
private theorem key_form {p : Bytes} {q : Pt} (h : Compressed q p ∨ Uncompressed q p) :
    (p.length = 33 ∨ p.length = 65) ∧ ∀ rest, p ≠ 0x30 :: rest := by
  rcases h with ⟨xb, hx, rfl⟩ | ⟨xb, yb, hx, hy, rfl⟩
  · refine ⟨Or.inl (by simp [hx.1]), fun rest e => ?_⟩
    have := (List.cons.inj e).1
    split_ifs at this
    all_goals exact absurd this (by decide)
  · exact ⟨Or.inr (by simp [hx.1, hy.1]), fun rest e => absurd (List.cons.inj e).1 (by decide)⟩

omit [Hashes] in
private theorem matching_signs {κ : Type} {P : κ → PubKeySign → Prop} {Q : κ → Bytes → Prop} {ok : Bytes → Bytes → Prop}
    (h : ∀ k g p, P k g → Q k p → ok g.signature p) : ∀ {keys : List κ} {signs : List PubKeySign} {chosen : List Bytes},
    List.Forall₂ P keys signs → List.Forall₂ Q keys chosen → List.Forall₂ ok (signs.map (·.signature)) chosen := by
  intro keys
  induction keys with
  | nil => intro signs chosen h1 h2; cases h1; cases h2; exact .nil
  | cons k keys ih =>
    intro signs chosen h1 h2
    cases h1 with
    | cons a b =>
      cases h2 with
      | cons a' b' => exact .cons (h _ _ _ a a') (ih b b')

omit [Hashes] in
private theorem forall₂_right {α β : Type} {P : α → β → Prop} {l : List α} {m : List β} (h : List.Forall₂ P l m) : ∀ b ∈ m, ∃ a ∈ l, P a b := by
  induction h with
  | nil => intro b hb; cases hb
  | cons h1 _ ih =>
    intro b hb
    rcases List.mem_cons.mp hb with rfl | hb
    · exact ⟨_, List.mem_cons_self, h1⟩
    · obtain ⟨a, ha, h⟩ := ih b hb
      exact ⟨a, List.mem_cons_of_mem _ ha, h⟩

omit [Hashes] in
private theorem bare_all {i i0 : TxIn} (h : bare i = bare i0) : i.hash = i0.hash ∧ i.index = i0.index ∧ i.value = i0.value ∧
    i.sequence = i0.sequence := by
  have a := congrArg TxIn.hash h
  have b := congrArg TxIn.index h
  have c := congrArg TxIn.value h
  have d := congrArg TxIn.sequence h
  exact ⟨a, b, c, d⟩

/-- The signatures for a policy satisfy its CHECKMULTISIG, for a check that is that of signatures with the right hash. -/
private theorem policy_multi {fuel : ℕ} {keys : List Ecdsa.Key} {pubs chosen : List Bytes} {signs : List PubKeySign} {c : Bool} {t : UInt32}
    {d : Bytes} (hc : chosen.Sublist pubs) (hk : List.Forall₂ (fun k p => ∃ c, p = (Ecdsa.scheme fuel).pub k c) keys chosen)
    (hs : List.Forall₂ (SignedBy (Ecdsa.scheme fuel) c t (.ok d)) keys signs) (ht : t < 256) {hash : UInt32 → Bytes} (hd : hash t = d)
    {check : Bytes → Bytes → Option Bool}
    (hcheck : ∀ g ∈ signs, ∀ key, check g.signature key = checkSig hash g.signature key) :
    Multi consensus check (signs.map (·.signature)).reverse pubs.reverse true := by
  refine multi_of_check ?_ ?_ ⟨chosen, hc, ?_⟩
  · intro s hm
    obtain ⟨g, hg, rfl⟩ := List.mem_map.mp hm
    obtain ⟨k, _, hkg⟩ := forall₂_right hs g hg
    obtain ⟨_, _, h9, _⟩ := check_made hkg hash ht hd
    exact fun e => by rw [e] at h9; simp at h9
  · intro s hm key _
    obtain ⟨g, hg, rfl⟩ := List.mem_map.mp hm
    obtain ⟨k, _, hkg⟩ := forall₂_right hs g hg
    rw [hcheck g hg]
    exact (check_made hkg hash ht hd).2.1 key
  · have hs' : List.Forall₂ (fun k g => g ∈ signs ∧ SignedBy (Ecdsa.scheme fuel) c t (.ok d) k g) keys signs := by
      have : ∀ l : List PubKeySign, (∀ g ∈ l, g ∈ signs) → ∀ ks, List.Forall₂ (SignedBy (Ecdsa.scheme fuel) c t (.ok d)) ks l →
          List.Forall₂ (fun k g => g ∈ signs ∧ SignedBy (Ecdsa.scheme fuel) c t (.ok d) k g) ks l := by
        intro l hl ks h
        induction h with
        | nil => exact .nil
        | cons a _ ih => exact .cons ⟨hl _ List.mem_cons_self, a⟩ (ih fun g hg => hl g (List.mem_cons_of_mem _ hg))
      exact this signs (fun _ h => h) keys hs
    refine matching_signs ?_ hs' hk
    rintro k g p ⟨hg, hkg⟩ ⟨c', rfl⟩
    rw [hcheck g hg]
    exact (check_made hkg hash ht hd).1 c'

/-- The lengths of the signatures. -/
private theorem signs_length {fuel : ℕ} {keys : List Ecdsa.Key} {signs : List PubKeySign} {c : Bool} {t : UInt32} {d : Bytes}
    (hs : List.Forall₂ (SignedBy (Ecdsa.scheme fuel) c t (.ok d)) keys signs) (ht : t < 256) :
    ∀ g ∈ signs, 9 ≤ g.signature.length ∧ g.signature.length ≤ 75 ∧ ∃ rest, g.signature = 0x30 :: rest := by
  intro g hg
  obtain ⟨k, _, hkg⟩ := forall₂_right hs g hg
  obtain ⟨_, _, h9, h72, h⟩ := check_made hkg (fun _ => d) ht rfl
  exact ⟨h9, by omega, h⟩

omit [Hashes] in
/-- The push of a signature does not occur in the script of a policy. -/
private theorem not_in_policy {m : ℕ} {pubs : List Bytes} {r : Bytes} (hm : 1 ≤ m) (hmn : m ≤ pubs.length) (hn : pubs.length ≤ 20)
    (hk : ∀ p ∈ pubs, ∃ q : Pt, Compressed q p ∨ Uncompressed q p) (hr : genMultiSig m pubs = .ok r) :
    ∃ rts, (∀ t ∈ rts, t.Valid) ∧ r = encTokens rts ∧ rts.length ≠ 2 ∧ r.length < 2^31 ∧
      (∀ sig : Bytes, 9 ≤ sig.length → sig.length ≤ 75 → (∃ rest, sig = 0x30 :: rest) → (⟨UInt8.ofNat sig.length, sig⟩ : Token) ∉ rts) := by
  have h65 : ∀ p ∈ pubs, 33 ≤ p.length ∧ p.length ≤ 65 := fun p hp => by
    obtain ⟨q, hq⟩ := hk p hp
    rcases (key_form hq).1 with h | h <;> omega
  obtain ⟨r0, tm, ks, tn, hr0, hse, hp, hd, v1, v2, hkeys, hv, hrl, hru⟩ := policy hmn (by omega) h65
  rw [hr] at hr0
  cases hr0
  refine ⟨tm :: ks ++ [tn, ⟨0xae, []⟩], hv, hse, ?_, by omega, ?_⟩
  · have : ks.length = pubs.length := by rw [← hkeys, List.length_map]
    simp only [List.length_append, List.length_cons, List.length_nil]
    omega
  · intro sig h9 h75 ⟨rest, hrest⟩ hm
    have hval : pushValue ⟨UInt8.ofNat sig.length, sig⟩ = sig := by
      unfold pushValue
      have e : (UInt8.ofNat sig.length).toNat = sig.length := by rw [UInt8.toNat_ofNat']; omega
      rw [e, if_neg (by omega), if_pos (by omega)]
    have hnum : ∀ (t : Token) (n : Int), ScriptNum.make (pushValue t) 4 = .ok n → t ≠ ⟨UInt8.ofNat sig.length, sig⟩ := by
      rintro t n h rfl
      rw [hval] at h
      have := ((VM.make_iff _ _).mp h).1
      omega
    rcases List.mem_append.mp hm with hm | hm
    · rcases List.mem_cons.mp hm with hm | hm
      · exact hnum tm _ v1 hm.symm
      · have hmem := List.mem_map_of_mem (f := pushValue) hm
        rw [hkeys, hval] at hmem
        obtain ⟨q, hq⟩ := hk sig hmem
        exact (key_form hq).2 rest hrest
    · rcases List.mem_cons.mp hm with hm | hm
      · exact hnum tn _ v2 hm.symm
      · have := congrArg Token.data (List.mem_singleton.mp hm)
        dsimp only at this
        rw [this] at h9
        simp at h9

omit [Hashes] in
/-- The input that Bitcoin sees. -/
private theorem wire_get {tx : Transaction} {idx : ℕ} {i : TxIn} (h : tx.inputs[idx]? = some i) :
    (wire tx).ins[idx]? = some ⟨i.hash, i.index, scriptSig i, i.sequence, i.witness⟩ := by
  unfold wire
  rw [List.getElem?_map, h]
  rfl

private theorem valid_p2pkh {fuel : ℕ} {tx tx' : Transaction} {idx : ℕ} {i0 i : TxIn} {h : Bytes} {c : Bool} {keys : List Ecdsa.Key}
    (hf : Frozen tx tx') (henc : Encodable tx') (hi : tx'.inputs[idx]? = some i) (hlen : h.length = 20)
    (hraw : i.rawLockingScript = rawLocking ⟨.p2pkh, h⟩) (hfin : i.finalLockingScript = finalLocking ⟨.p2pkh, h⟩ i.redeemScript)
    (hw : i.witnessScriptCode = none) (hred : i.redeemScript = none) (hk : SpendableWith fuel ⟨.p2pkh, h⟩ i.redeemScript c keys)
    (hmade : Made (Ecdsa.scheme fuel) tx idx i0 ⟨.p2pkh, h⟩ 1 c keys i) (hdel : ¬ ([0x14] ++ h) <+: i.rawUnlockingScript) :
    ValidInput (wire tx') idx (coinOf i) := by
  obtain ⟨_, k, rest, rfl, hkey⟩ := hk
  obtain ⟨hb, signs, hs, hu⟩ := hmade
  cases hs with
  | @cons _ g _ gs hg hgs =>
  obtain ⟨hru, hwu⟩ : (addData (addData Buffer.new g.signature) g.pubKey).data = i.rawUnlockingScript ∧ [] = i.witness := by
    rcases hu with ⟨e, hu⟩ | ⟨h1, h2⟩
    · cases hu
    · exact ⟨Res.ok.inj h1, Res.ok.inj h2⟩
  -- the hash
  have hcode : signedScript i = .ok (standardScript .p2pkh h) := by
    unfold signedScript
    rw [hred, hfin]
    change Script.removeOpcode (rawLocking ⟨.p2pkh, h⟩) 0xab = _
    rw [C29_build .p2pkh h hlen]
    exact C20_codeseparator_kept _ (standard_short .p2pkh h hlen)
  have hhash : refHash tx idx i0 1 (scriptVersion ⟨.p2pkh, h⟩) = .ok (legacyHash (wire tx') idx (standardScript .p2pkh h) 1) := by
    change rawSignatureHash tx idx 1 = _
    rw [← rawHash_frozen hf]
    unfold rawSignatureHash
    rw [C39_format tx' henc idx i _ hi hcode (standard_short .p2pkh h hlen), legacyHash_all]
    rfl
  rw [hhash] at hg
  obtain ⟨h1, _, h9, h72, hrest⟩ := check_made hg (legacyHash (wire tx') idx (standardScript .p2pkh h)) (by decide) rfl
  have hpub : hash160 g.pubKey = h := by rw [hg.1]; exact hkey
  have hkl := (C86_lawful fuel).pub_length k
  have hkl' : 33 ≤ g.pubKey.length ∧ g.pubKey.length ≤ 65 := by
    rw [hg.1]
    cases c <;> omega
  have hnot : (⟨UInt8.ofNat g.signature.length, g.signature⟩ : Token) ∉ standardTokens .p2pkh h := by
    intro hm
    have hne : g.signature ≠ [] := fun e => by rw [e] at h9; simp at h9
    simp only [standardTokens, List.mem_cons, List.not_mem_nil, or_false, Token.mk.injEq, hne, and_false, false_or] at hm
    apply hdel
    rw [← hru, VM.addData_data _ _ (by omega), VM.addData_data _ _ (by omega), hm.2]
    have e : (VM.pushToken h).enc = [0x14] ++ h := by
      unfold VM.pushToken
      rw [hlen]
      simp [Token.enc, lenWidth, leBytes]
    rw [e]
    simp [Buffer.new]
  have hok : legacyCheck (wire tx') idx (standardTokens .p2pkh h) g.signature g.pubKey = some true := by
    unfold legacyCheck
    rw [if_neg hnot, standard_enc, hg.1]
    exact h1 c
  obtain ⟨⟨u, hv, he, hu'⟩, hl⟩ := p2pkh_spend g hkl' ⟨by omega, by omega⟩ (by rw [← hpub] at hok; exact hok)
  refine ⟨_, wire_get hi, Or.inl ⟨?_, hwu.symm, u, standardTokens .p2pkh h, ?_, ?_, ?_, ?_⟩⟩
  · change ¬ IsWitnessProgram i.rawLockingScript
    rw [hraw, rawLocking_eq hlen, ← standard_enc]
    exact not_program (standard_valid hlen) (by rw [standard_enc]; exact standard_short .p2pkh h hlen) (by simp [standardTokens])
  · intro t ht
    rcases List.mem_append.mp ht with ht | ht
    · exact hv t ht
    · exact standard_valid hlen t ht
  · change scriptSig i = _
    unfold scriptSig
    rw [if_pos hw, ← he, hru]
  · change i.rawLockingScript = _
    rw [hraw, rawLocking_eq hlen, standard_enc]
  · rw [hpub] at hl
    refine ⟨_, _, _, hu' _, hl, truthy_one, ?_⟩
    rintro ⟨_, _, e⟩
    cases e

private theorem valid_p2sh {fuel : ℕ} {tx tx' : Transaction} {idx : ℕ} {i0 i : TxIn} {h : Bytes} {c : Bool} {keys : List Ecdsa.Key}
    (hf : Frozen tx tx') (henc : Encodable tx') (hi : tx'.inputs[idx]? = some i) (hlen : h.length = 20)
    (hraw : i.rawLockingScript = rawLocking ⟨.p2sh, h⟩)
    (hw : i.witnessScriptCode = none) (hk : SpendableWith fuel ⟨.p2sh, h⟩ i.redeemScript c keys) (hri : i.redeemScript = i0.redeemScript)
    (hmade : Made (Ecdsa.scheme fuel) tx idx i0 ⟨.p2sh, h⟩ 1 c keys i) :
    ValidInput (wire tx') idx (coinOf i) := by
  obtain ⟨r, hred, rfl, h520, pubs, chosen, hr, hm, hn, hpk, hsub, hck⟩ := hk
  obtain ⟨hb, signs, hs, hu⟩ := hmade
  rw [← hri, hred] at hu
  obtain ⟨hru, hwu⟩ : unlockScriptHash signs (some r) = i.rawUnlockingScript ∧ [] = i.witness := by
    rcases hu with ⟨e, hu⟩ | ⟨h1, h2⟩
    · cases hu
    · exact ⟨Res.ok.inj h1, Res.ok.inj h2⟩
  have hmn : keys.length ≤ pubs.length := hck.length_eq ▸ hsub.length_le
  obtain ⟨rts, hrv, hre, hr2, _, hnot⟩ := not_in_policy hm hmn hn hpk hr
  have h65 : ∀ p ∈ pubs, 33 ≤ p.length ∧ p.length ≤ 65 := fun p hp => by
    obtain ⟨q, hq⟩ := hpk p hp
    rcases (key_form hq).1 with h | h <;> omega
  have hcode : signedScript i = .ok r := by
    unfold signedScript
    rw [hred]
  have hhash : refHash tx idx i0 1 (scriptVersion ⟨.p2sh, hash160 r⟩) = .ok (legacyHash (wire tx') idx r 1) := by
    change rawSignatureHash tx idx 1 = _
    rw [← rawHash_frozen hf]
    unfold rawSignatureHash
    rw [C39_format tx' henc idx i _ hi hcode (by omega), legacyHash_all]
    rfl
  rw [hhash] at hs
  have hsl := signs_length hs (by decide)
  have hmulti : Multi consensus (legacyCheck (wire tx') idx rts) (signs.map (·.signature)).reverse pubs.reverse true := by
    refine policy_multi hsub hck hs (by decide) (hash := legacyHash (wire tx') idx r) rfl ?_
    intro g hg key
    obtain ⟨h9, h75, hrest⟩ := hsl g hg
    unfold legacyCheck
    rw [if_neg (hnot _ h9 h75 hrest), ← hre]
  obtain ⟨u, rts', hv, hv', he, _, h1, h2, h3, h4, h5⟩ := p2sh_spend (R := consensus) hm hmn (by omega) h65 hr (by omega) (fun _ => h520)
    signs hs.length_eq.symm (fun g hg => ⟨by have := (hsl g hg).1; omega, (hsl g hg).2.1⟩) hmulti
  have hlock : rawLocking ⟨.p2sh, hash160 r⟩ = encTokens (standardTokens .p2sh (hash160 r)) := by
    rw [standard_enc, rawLocking_eq hlen]
  have ert : rts' = rts := tokens_unique hv' hrv (by rw [← he]; omega) (by rw [← he, ← hre])
  subst ert
  refine ⟨_, wire_get hi, Or.inl ⟨?_, hwu.symm, u, standardTokens .p2sh (hash160 r), ?_, ?_, ?_, ?_⟩⟩
  · change ¬ IsWitnessProgram i.rawLockingScript
    rw [hraw, hlock]
    exact not_program (standard_valid hlen) (by rw [standard_enc]; exact standard_short .p2sh _ hlen) (by simp [standardTokens])
  · intro t ht
    rcases List.mem_append.mp ht with ht | ht
    · exact hv t ht
    · exact standard_valid hlen t ht
  · change scriptSig i = _
    unfold scriptSig
    rw [if_pos hw, ← hru]
    exact Res.ok.inj h1
  · change i.rawLockingScript = _
    rw [hraw, hlock]
  · refine ⟨_, _, _, h3 _, h4 _, truthy_one, fun _ => ⟨h2, rts', _, _, _, hv', by rw [he], ?_, h5, truthy_one⟩⟩
    exact not_program hv' (by rw [← he]; omega) hr2

private theorem valid_p2wpkh {fuel : ℕ} {tx tx' : Transaction} {idx : ℕ} {i0 i : TxIn} {h : Bytes} {c : Bool} {keys : List Ecdsa.Key} {t : UInt32}
    (hf : Frozen tx tx') (henc : Encodable tx') (hi0 : tx.inputs[idx]? = some i0) (hi : tx'.inputs[idx]? = some i) (hlen : h.length = 20)
    (hraw : i.rawLockingScript = rawLocking ⟨.p2wpkh, h⟩) (hw : i.witnessScriptCode = witnessScriptCode ⟨.p2wpkh, h⟩ i.redeemScript)
    (hk : SpendableWith fuel ⟨.p2wpkh, h⟩ i.redeemScript c keys) (ht : t < 256)
    (ht' : t &&& 0x1f = 0 ∨ t &&& 0x1f = 1 ∨ t &&& 0x1f = 2)
    (hmade : Made (Ecdsa.scheme fuel) tx idx i0 ⟨.p2wpkh, h⟩ t c keys i) :
    ValidInput (wire tx') idx (coinOf i) ∧ i.witness ≠ [] := by
  obtain ⟨k, rest, rfl, hkey⟩ := hk
  obtain ⟨hb, signs, hs, hu⟩ := hmade
  cases hs with
  | @cons _ g _ gs hg hgs =>
  have hwu : [g.signature, g.pubKey] = i.witness := by
    rcases hu with ⟨e, hu⟩ | ⟨h1, h2⟩
    · cases hu
    · exact Res.ok.inj h2
  have hw' : i.witnessScriptCode = some (standardScript .p2pkh h) := by
    rw [hw]
    exact congrArg some (C29_build .p2pkh h hlen)
  have hhash : refHash tx idx i0 t (scriptVersion ⟨.p2wpkh, h⟩) =
      .ok (Bitcoin.witnessHash (wire tx') idx ⟨i.hash, i.index, scriptSig i, i.sequence, i.witness⟩ i.value (standardScript .p2pkh h) t) := by
    change Res.ok (refWitness tx i0 t) = _
    rw [refWitness_bip143 hf henc hi0 hi ht' (fun c e => by
      rw [hw'] at e; cases e; exact standard_short .p2pkh h hlen), witnessHash_eq tx' idx i _ t hw']
  rw [hhash] at hg
  obtain ⟨h1, _, h9, h72, hrest⟩ := check_made hg
    (Bitcoin.witnessHash (wire tx') idx ⟨i.hash, i.index, scriptSig i, i.sequence, i.witness⟩ i.value (standardScript .p2pkh h)) ht rfl
  have hpub : hash160 g.pubKey = h := by rw [hg.1]; exact hkey
  have hkl := (C86_lawful fuel).pub_length k
  have hkl' : 33 ≤ g.pubKey.length ∧ g.pubKey.length ≤ 65 := by
    rw [hg.1]
    cases c <;> omega
  obtain ⟨_, hl⟩ := p2pkh_spend g hkl' ⟨by omega, by omega⟩ (by rw [hg.1]; exact h1 c)
  rw [hpub] at hl
  refine ⟨⟨_, wire_get hi, Or.inr (Or.inl ⟨h, hlen, ?_, ?_, g.signature, g.pubKey, [1], hwu.symm, fun _ => ⟨by omega, by omega⟩, hl, truthy_one⟩)⟩,
    by rw [← hwu]; simp⟩
  · change i.rawLockingScript = _
    rw [hraw, rawLocking_eq hlen]
    rfl
  · change scriptSig i = _
    unfold scriptSig
    rw [if_neg (by rw [hw']; simp)]

private theorem valid_p2wsh {fuel : ℕ} {tx tx' : Transaction} {idx : ℕ} {i0 i : TxIn} {h : Bytes} {c : Bool} {keys : List Ecdsa.Key} {t : UInt32}
    (hf : Frozen tx tx') (henc : Encodable tx') (hi0 : tx.inputs[idx]? = some i0) (hi : tx'.inputs[idx]? = some i) (hlen : h.length = 32)
    (hraw : i.rawLockingScript = rawLocking ⟨.p2wsh, h⟩) (hw : i.witnessScriptCode = witnessScriptCode ⟨.p2wsh, h⟩ i.redeemScript)
    (hk : SpendableWith fuel ⟨.p2wsh, h⟩ i.redeemScript c keys) (hri : i.redeemScript = i0.redeemScript) (ht : t < 256)
    (ht' : t &&& 0x1f = 0 ∨ t &&& 0x1f = 1 ∨ t &&& 0x1f = 2)
    (hmade : Made (Ecdsa.scheme fuel) tx idx i0 ⟨.p2wsh, h⟩ t c keys i) :
    ValidInput (wire tx') idx (coinOf i) ∧ i.witness ≠ [] := by
  obtain ⟨r, hred, rfl, pubs, chosen, hr, hm, hn, hpk, hsub, hck⟩ := hk
  obtain ⟨hb, signs, hs, hu⟩ := hmade
  rw [← hri, hred] at hu
  have hmn : keys.length ≤ pubs.length := hck.length_eq ▸ hsub.length_le
  obtain ⟨rts, hrv, hre, hr2, hrl, _⟩ := not_in_policy hm hmn hn hpk hr
  have h65 : ∀ p ∈ pubs, 33 ≤ p.length ∧ p.length ≤ 65 := fun p hp => by
    obtain ⟨q, hq⟩ := hpk p hp
    rcases (key_form hq).1 with h | h <;> omega
  have hw' : i.witnessScriptCode = some r := by
    rw [hw, hred]
    rfl
  have hhash : refHash tx idx i0 t (scriptVersion ⟨.p2wsh, Hashes.sha256 r⟩) =
      .ok (Bitcoin.witnessHash (wire tx') idx ⟨i.hash, i.index, scriptSig i, i.sequence, i.witness⟩ i.value r t) := by
    change Res.ok (refWitness tx i0 t) = _
    rw [refWitness_bip143 hf henc hi0 hi ht' (fun c e => by
      rw [hw'] at e; cases e; omega), witnessHash_eq tx' idx i _ t hw']
  rw [hhash] at hs
  have hsl := signs_length hs ht
  have hmulti := policy_multi hsub hck hs ht
    (hash := Bitcoin.witnessHash (wire tx') idx ⟨i.hash, i.index, scriptSig i, i.sequence, i.witness⟩ i.value r) rfl (fun _ _ _ => rfl)
  obtain ⟨hwu, hv⟩ := p2wsh_spend hm hmn hn h65 hr signs hs.length_eq.symm (fun g hg => ⟨by have := (hsl g hg).1; omega, (hsl g hg).2.1⟩) hmulti
  have hwi : [] :: signs.map (·.signature) ++ [r] = i.witness := by
    rcases hu with ⟨e, hu⟩ | ⟨h1, h2⟩
    · have : (if Hashes.sha256 r ≠ Hashes.sha256 r then Res.err errRedeemHash else .ok (unlockScriptHash signs (some r))) = .err e := hu
      rw [if_neg (by simp)] at this
      cases this
    · rw [hwu] at h2
      exact Res.ok.inj h2
  rw [hwi] at hv
  refine ⟨⟨_, wire_get hi, Or.inr (Or.inr ⟨Hashes.sha256 r, r, hlen, ?_, ?_, ?_, hv⟩)⟩, by rw [← hwi]; simp⟩
  · change i.rawLockingScript = _
    rw [hraw, rawLocking_eq hlen]
    rfl
  · change scriptSig i = _
    unfold scriptSig
    rw [if_neg (by rw [hw']; simp)]
  · change i.witness.getLast? = _
    rw [← hwi, List.getLast?_concat]

/-- **C126 (partial).** Full statement: what the library signs is valid by the script rules of Bitcoin. Proved for `SignIndex` with
secp256k1 as implemented: when all inputs come from `NewTxIn` and are signed with the right keys, in any order and also more than once, then
what the library serialises is the wire form of a transaction whose inputs may spend their coins. Missing, since false: hash types
other than ALL for legacy inputs (`C126_negation_legacy`), SINGLE for witness inputs (`C126_negation_single`), a witness input signed with a
type that covers something an earlier one did not (`horder`, `C126_negation_mixed`), a redeem script given with a P2PKH coin
(`C126_negation_redeem`), and scripts above the limits of Bitcoin (C125). `hdel` excludes that a signature for a P2PKH
coin is the hash of the key itself: Bitcoin would delete it from the script before hashing, and the library does not. -/
theorem C126_signed_partial (fuel : ℕ) (tx tx' : Transaction) (calls : List (SignCall Ecdsa.Key))
    (h1 : tx.hashPrevouts = none) (h2 : tx.hashSequence = none) (h3 : tx.hashOutputs = none)
    (hcoin : ∀ i ∈ tx.inputs, FromCoin i)
    (hall : ∀ idx < tx.inputs.length, ∃ c ∈ calls, c.idx = idx)
    (hkeys : ∀ c ∈ calls, ∀ i s, tx.inputs[c.idx]? = some i → parse i.rawLockingScript = .ok s →
      SpendableWith fuel s i.redeemScript c.compressed c.keys)
    (htype : ∀ c ∈ calls, ∀ i, tx.inputs[c.idx]? = some i → Supported i.hasWitness c.hashType)
    (horder : calls.Pairwise fun a b => ∀ i j, tx.inputs[a.idx]? = some i → tx.inputs[b.idx]? = some j → i.hasWitness = true →
      j.hasWitness = true → Covers a.hashType b.hashType)
    (hsign : signAll (Ecdsa.scheme fuel) tx calls = .ok tx') (henc : Encodable tx')
    (hdel : ∀ i ∈ tx'.inputs, ∀ h, parse i.rawLockingScript = .ok ⟨.p2pkh, h⟩ → ¬ ([0x14] ++ h) <+: i.rawUnlockingScript) :
    ValidScripts (wire tx') (tx.inputs.map coinOf) ∧ serialize tx' = (wire tx').bytes := by
  have hwit : ∀ (i : TxIn) (s : LockScript) (c : Bool) (keys : List Ecdsa.Key), i.witnessScriptCode = witnessScriptCode s i.redeemScript →
      SpendableWith fuel s i.redeemScript c keys → i.hasWitness = decide (scriptVersion s = .witnessV0) := by
    intro i s c keys hw hk
    unfold TxIn.hasWitness
    rw [hw]
    unfold SpendableWith at hk
    unfold witnessScriptCode scriptVersion
    cases hkd : s.kind <;> rw [hkd] at hk <;> first | rfl | (obtain ⟨r, hr, _⟩ := hk; rw [hr]; rfl)
  obtain ⟨hinv, hmade⟩ := signAll_made (E := Ecdsa.scheme fuel) tx tx' calls h1 h2 h3 hall (by
      intro c hc i hi
      obtain ⟨s, _, hp, _, hw, _⟩ := fromCoin_fields (hcoin i (List.mem_of_getElem? hi))
      exact ⟨s, hp, hwit i s _ _ hw (hkeys c hc i s hi hp)⟩) horder hsign
  have each : ∀ idx i, tx'.inputs[idx]? = some i →
      ValidInput (wire tx') idx (coinOf i) ∧ (i.witnessScriptCode = none ↔ i.witness = []) := by
    intro idx i hi
    obtain ⟨c, hc, rfl, i0, s, hi0, hp0, hm⟩ := hmade idx i hi
    obtain ⟨s', hsz, hp, hfin, hw, hraw⟩ := fromCoin_fields (hcoin i0 (List.mem_of_getElem? hi0))
    rw [hp0] at hp
    cases hp
    have hk := hkeys c hc i0 s hi0 hp0
    have ht := htype c hc i0 hi0
    rw [hwit i0 s _ _ hw hk] at ht
    obtain ⟨b1, b2, b3, b4⟩ := bare_fields hm.1
    rw [← b4, ← b1] at hw
    rw [← b3, ← b1] at hfin
    rw [← b2] at hraw hp0
    rw [← b1] at hk
    obtain ⟨kind, h⟩ := s
    have hwn : kind = .p2pkh ∨ kind = .p2sh → i.witness = [] := by
      intro hkind
      obtain ⟨_, signs, _, hu⟩ := hm
      rcases hu with ⟨e, hu⟩ | ⟨_, h2⟩
      · rcases hkind with rfl | rfl
        · cases signs <;> cases hu
        · cases hu
      · rcases hkind with rfl | rfl <;> exact (Res.ok.inj h2).symm
    cases kind with
    | p2pkh =>
      have ht1 : c.hashType = 1 := ht
      rw [ht1] at hm
      have hw' : i.witnessScriptCode = none := hw
      exact ⟨valid_p2pkh hinv henc hi hsz hraw hfin hw' hk.1 hk hm (hdel i (List.mem_of_getElem? hi) h hp0),
        fun _ => hwn (Or.inl rfl), fun _ => hw'⟩
    | p2sh =>
      have ht1 : c.hashType = 1 := ht
      rw [ht1] at hm
      have hw' : i.witnessScriptCode = none := hw
      exact ⟨valid_p2sh hinv henc hi hsz hraw hw' hk b1 hm, fun _ => hwn (Or.inr rfl), fun _ => hw'⟩
    | p2wpkh =>
      have ht1 : _ ∧ _ := ht
      obtain ⟨v1, v2⟩ := valid_p2wpkh hinv henc hi0 hi hsz hraw hw hk ht1.1 ht1.2 hm
      exact ⟨v1, ⟨(fun e => by rw [hw] at e; cases e), (fun e => absurd e v2)⟩⟩
    | p2wsh =>
      have ht1 : _ ∧ _ := ht
      obtain ⟨v1, v2⟩ := valid_p2wsh hinv henc hi0 hi hsz hraw hw hk b1 ht1.1 ht1.2 hm
      refine ⟨v1, ⟨(fun e => ?_), (fun e => absurd e v2)⟩⟩
      obtain ⟨r, hr, _⟩ := hk
      rw [hw, hr] at e
      cases e
  refine ⟨⟨?_, ?_⟩, ?_⟩
  · unfold wire
    rw [List.length_map, List.length_map, hinv.length]
  · intro idx coin hcn
    rw [List.getElem?_map] at hcn
    cases hi : tx'.inputs[idx]? with
    | none =>
      have : tx.inputs[idx]? = none := by
        rw [List.getElem?_eq_none_iff] at hi ⊢
        rw [← hinv.length]; exact hi
      rw [this] at hcn
      cases hcn
    | some i =>
      obtain ⟨i0, hi0, hb⟩ := hinv.get hi
      rw [hi0] at hcn
      obtain ⟨_, b2, _, _⟩ := bare_fields hb
      have e : coinOf i0 = coinOf i := by
        unfold coinOf
        rw [b2, (bare_all hb).2.2.1]
      cases hcn
      rw [e]
      exact (each idx i hi).1
  · have hmem : ∀ i ∈ tx'.inputs, i.witnessScriptCode = none ↔ i.witness = [] := by
      intro i hi
      obtain ⟨n, hn⟩ := List.mem_iff_getElem?.mp hi
      exact (each n i hn).2
    have hany : (wire tx').ins.any (fun i => !i.witness.isEmpty) = hasWitness tx' := by
      unfold wire hasWitness
      rw [List.any_map, Bool.eq_iff_iff, List.any_eq_true, List.any_eq_true]
      have : ∀ i ∈ tx'.inputs, ((!i.witness.isEmpty) = true ↔ i.hasWitness = true) := by
        intro i hi
        have := hmem i hi
        unfold TxIn.hasWitness
        rw [Option.isSome_iff_ne_none, ne_eq, this]
        simp
      constructor
      · rintro ⟨i, hi, h⟩
        exact ⟨i, hi, (this i hi).mp h⟩
      · rintro ⟨i, hi, h⟩
        exact ⟨i, hi, (this i hi).mpr h⟩
    unfold BTx.bytes
    rw [hany]
    cases hh : hasWitness tx' with
    | true =>
      rw [if_pos rfl, serialize_witness henc hh]
      unfold wireSegwit wire counted
      simp only [List.length_map, List.flatMap_map]
    | false =>
      rw [if_neg (by simp), serialize_legacy hh, C35_format tx' henc]
      unfold wireLegacy wire counted
      simp only [List.length_map, List.flatMap_map]

/-- The coin of a group of the builder can be spent on Bitcoin with the keys of the group, and with its hash type. -/
structure SpendableCoin (fuel : ℕ) (p : Builder.Coin × Builder.Group Ecdsa.Key) : Prop where
  small : p.1.script.length < 2^62
  keys : ∀ script s keys, Id.hexDecode p.1.script = .ok script → parse script = .ok s → p.2.keys = some keys →
    SpendableWith fuel s p.2.redeemScript p.2.compressed keys
  type : ∀ script s, Id.hexDecode p.1.script = .ok script → parse script = .ok s →
    Supported (decide (s.kind = .p2wpkh ∨ s.kind = .p2wsh)) p.2.sigHashType

/-- The coin has a witness program. -/
def IsWitnessCoin (p : Builder.Coin × Builder.Group Ecdsa.Key) : Prop :=
  ∃ script s, Id.hexDecode p.1.script = .ok script ∧ parse script = .ok s ∧ (s.kind = .p2wpkh ∨ s.kind = .p2wsh)

/-- **C126, from the builder (partial).** A transaction built with `Sign` from coins that the keys of their groups can spend: the
coins given to the builder, decoded, are spent by it by the rules of Bitcoin, and what is serialised is that transaction. Missing as in
`C126_signed_partial`. -/
theorem C126_built_partial (fuel : ℕ) (b : Builder.Settings Ecdsa.Key) (hs : b.sign = true)
    (hc : ∀ p ∈ spends b, SpendableCoin fuel p)
    (horder : (spends b).Pairwise fun p q => IsWitnessCoin p → IsWitnessCoin q → Covers p.2.sigHashType q.2.sigHashType) (tx : Transaction) (h : Builder.build (Ecdsa.scheme fuel) b = .ok tx) (henc : Encodable tx)
    (hdel : ∀ i ∈ tx.inputs, ∀ h, parse i.rawLockingScript = .ok ⟨.p2pkh, h⟩ → ¬ ([0x14] ++ h) <+: i.rawUnlockingScript) :
    ∃ coins, List.Forall₂ (fun p (o : TxOut) => o.value = p.1.value ∧ Id.hexDecode p.1.script = .ok o.script) (spends b) coins ∧
      ValidScripts (wire tx) coins ∧ serialize tx = (wire tx).bytes := by
  obtain ⟨ins, change, f, _, _, _, _, _, _, h⟩ := Builder.build_ok.mp h
  rw [if_pos hs] at h
  obtain ⟨hsg, hne⟩ := signAll_calls _ _ _ _ h
  have get : ∀ c ∈ (((spends b).map (·.2)).zipIdx 0).map callFor, ∃ p, p ∈ spends b ∧ (spends b)[c.idx]? = some p ∧
      c = callFor (p.2, c.idx) := by
    intro c hc
    obtain ⟨⟨g, n⟩, hq, rfl⟩ := List.mem_map.mp hc
    have hq := List.mem_zipIdx_iff_getElem?.mp hq
    simp only [List.getElem?_map] at hq
    cases hp : (spends b)[n]? with
    | none => rw [hp] at hq; cases hq
    | some p =>
      rw [hp] at hq
      simp only [Option.map_some, Option.some.injEq] at hq
      exact ⟨p, List.mem_of_getElem? hp, hp, by rw [← hq]; rfl⟩
  have wit : ∀ p ∈ spends b, ∀ (i : TxIn) (n : ℕ), (spends b)[n]? = some p → ins[n]? = some i → ∃ s, Id.hexDecode p.1.script = .ok i.rawLockingScript ∧
      parse i.rawLockingScript = .ok s ∧ i.hasWitness = decide (s.kind = .p2wpkh ∨ s.kind = .p2wsh) := by
    intro p hp i n hn hi
    obtain ⟨hfc, i1, i2, _⟩ := inputFor_coin (forall₂_get f hn hi) (hc p hp).small
    obtain ⟨s, _, hps, _, hw, _⟩ := fromCoin_fields hfc
    have hk := hne p.2 (List.mem_map_of_mem hp)
    obtain ⟨keys, hk⟩ := Option.ne_none_iff_exists'.mp hk
    have hsp := (hc p hp).keys _ s keys i2 hps hk
    rw [← i1] at hsp
    refine ⟨s, i2, hps, ?_⟩
    unfold TxIn.hasWitness
    rw [hw]
    unfold SpendableWith at hsp
    unfold witnessScriptCode
    cases hkd : s.kind <;> rw [hkd] at hsp <;> first | rfl | (obtain ⟨r, hr, _⟩ := hsp; rw [hr]; rfl)
  have key := C126_signed_partial fuel (Builder.unsigned b ins change) tx _ rfl rfl rfl ?_ ?_ ?_ ?_ ?_ hsg henc hdel
  · refine ⟨ins.map coinOf, ?_, key⟩
    rw [List.forall₂_map_right_iff]
    refine List.forall₂_iff_get.mpr ⟨f.length_eq, fun n h1 h2 => ?_⟩
    obtain ⟨_, _, e3, e4, _⟩ := C47_input_is_coin _ _ (f.get h1 h2) (hc _ (List.get_mem _ _)).small
    exact ⟨e3, e4⟩
  · intro i hi
    obtain ⟨n, hn⟩ := List.mem_iff_getElem?.mp hi
    change ins[n]? = some i at hn
    have hlt : n < (spends b).length := by
      rw [f.length_eq]
      by_contra hcc
      rw [List.getElem?_eq_none (by omega)] at hn
      cases hn
    have hp := List.getElem?_eq_getElem hlt
    exact (inputFor_coin (forall₂_get f hp hn) (hc _ (List.getElem_mem hlt)).small).1
  · intro idx hidx
    change idx < ins.length at hidx
    rw [← f.length_eq] at hidx
    refine ⟨callFor ((spends b)[idx].2, idx), List.mem_map.mpr ⟨((spends b)[idx].2, idx), ?_, rfl⟩, rfl⟩
    refine List.mem_zipIdx_iff_getElem?.mpr ?_
    simp [hidx]
  · intro c hcc i s hi hps
    obtain ⟨p, hp, hn, ec⟩ := get c hcc
    obtain ⟨_, i1, i2, _⟩ := inputFor_coin (forall₂_get f hn hi) (hc p hp).small
    have hk := hne p.2 (List.mem_map_of_mem hp)
    obtain ⟨keys, hk⟩ := Option.ne_none_iff_exists'.mp hk
    rw [i1, ec]
    have := (hc p hp).keys _ s keys i2 hps hk
    simp only [callFor, hk, Option.getD_some]
    exact this
  · intro c hcc i hi
    obtain ⟨p, hp, hn, ec⟩ := get c hcc
    obtain ⟨s, i2, hps, e⟩ := wit p hp i c.idx hn hi
    have := (hc p hp).type _ s i2 hps
    rw [e, ec]
    exact this
  · have hidx : ∀ (l : List (Builder.Group Ecdsa.Key)) (n : ℕ), ((l.zipIdx n).map callFor).Pairwise fun a b : SignCall Ecdsa.Key => a.idx < b.idx := by
      intro l
      induction l with
      | nil => intro n; exact List.Pairwise.nil
      | cons g l ih =>
        intro n
        rw [List.zipIdx_cons, List.map_cons]
        refine List.pairwise_cons.mpr ⟨fun c hcc => ?_, ih (n + 1)⟩
        obtain ⟨⟨g', m⟩, hq, rfl⟩ := List.mem_map.mp hcc
        have := (List.mem_zipIdx hq).1
        change n < m
        omega
    refine List.Pairwise.imp_of_mem ?_ (hidx _ 0)
    intro a c ha hcc hlt i j hi hj hwi hwj
    obtain ⟨p, hp, hn, ea⟩ := get a ha
    obtain ⟨q, hq, hm, eb⟩ := get c hcc
    obtain ⟨s, i2, hps, e⟩ := wit p hp i a.idx hn hi
    obtain ⟨s', j2, hps', e'⟩ := wit q hq j c.idx hm hj
    rw [hwi, eq_comm, decide_eq_true_eq] at e
    rw [hwj, eq_comm, decide_eq_true_eq] at e'
    rw [ea, eb]
    obtain ⟨l1, g1⟩ := List.getElem?_eq_some_iff.mp hn
    obtain ⟨l2, g2⟩ := List.getElem?_eq_some_iff.mp hm
    have := List.pairwise_iff_getElem.mp horder a.idx c.idx l1 l2 hlt
    rw [g1, g2] at this
    exact this ⟨_, s, i2, hps, e⟩ ⟨_, s', j2, hps', e'⟩

end

end Toku.Props
