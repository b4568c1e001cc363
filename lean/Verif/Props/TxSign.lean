import Verif.Proof.TxSign
/-
Properties C43 and C44: signing and verification (xcore/transaction.go).
-/
namespace Toku.Props
open Toku Toku.Spec Toku.Tx Toku.Locking Toku.Script

variable {κ : Type} [Hashes]

/-- A call of SignIndex. -/
structure SignCall (κ : Type) where
  idx : Nat
  compressed : Bool
  hashType : UInt32
  keys : List κ

/-- Signing calls one after another; all of them report success. -/
def signAll (E : Ecdsa κ) : Transaction → List (SignCall κ) → Res Transaction
  | tx, [] => .ok tx
  | tx, c :: cs => do
    let tx ← signIndex E tx c.idx c.compressed c.hashType c.keys
    signAll E tx cs

/-- The input was made by `NewTxIn` from a coin. -/
def FromCoin (i : TxIn) : Prop :=
  ∃ hash n value script, script.length < 2^62 ∧ newTxIn hash n value script i.redeemScript = .ok i

theorem fromCoin_fields {i : TxIn} (h : FromCoin i) : ∃ s : LockScript, s.hash.length = hashSize s.kind ∧
    parse i.rawLockingScript = .ok s ∧ i.finalLockingScript = finalLocking s i.redeemScript ∧
    i.witnessScriptCode = witnessScriptCode s i.redeemScript ∧ i.rawLockingScript = rawLocking s := by
  obtain ⟨hash, n, value, script, hl, h⟩ := h
  unfold newTxIn at h
  rw [Res.bind_eq_ok] at h
  obtain ⟨s, hp, h⟩ := h
  have hs := ((C29_parse_iff script hl s).mp hp).1
  change Res.ok _ = Res.ok _ at h
  have h := Res.ok.inj h
  refine ⟨s, hs, ?_, ?_, ?_, (congrArg TxIn.rawLockingScript h).symm⟩
  · rw [← h]; exact C29_parse_build s.kind s.hash hs
  · exact (congrArg TxIn.finalLockingScript h).symm
  · exact (congrArg TxIn.witnessScriptCode h).symm

omit [Hashes] in
theorem bare_fields {i i0 : TxIn} (h : bare i = bare i0) : i.redeemScript = i0.redeemScript ∧
    i.rawLockingScript = i0.rawLockingScript ∧ i.finalLockingScript = i0.finalLockingScript ∧
    i.witnessScriptCode = i0.witnessScriptCode := by
  have a := congrArg TxIn.redeemScript h
  have b := congrArg TxIn.rawLockingScript h
  have c := congrArg TxIn.finalLockingScript h
  have d := congrArg TxIn.witnessScriptCode h
  exact ⟨a, b, c, d⟩

omit [Hashes] in
theorem putInput_get {tx : Transaction} {idx k : Nat} {i j : TxIn} (h : (putInput tx idx i).inputs[k]? = some j) :
    (k = idx ∧ j = i) ∨ (k ≠ idx ∧ tx.inputs[k]? = some j) := by
  unfold putInput at h
  simp only [List.getElem?_set] at h
  split at h
  · rename_i e
    split at h
    · left; exact ⟨e.symm, by simpa using h.symm⟩
    · cases h
  · rename_i e
    right; exact ⟨fun q => e q.symm, h⟩

theorem putInput_inv {t0 : UInt32} {tx0 tx : Transaction} (h : Inv t0 tx0 tx) {idx : Nat} {i : TxIn}
    (hi : tx.inputs[idx]? = some i) (u : Bytes) (w : List Bytes) :
    Inv t0 tx0 (putInput tx idx { i with rawUnlockingScript := u, witness := w }) := by
  refine ⟨⟨h.1.version, h.1.lockTime, h.1.outputs, ?_⟩, op_keeps (Op.embed tx idx i u w hi) h.2⟩
  rw [← h.1.inputs]
  unfold putInput
  simp only
  rw [List.map_set]
  apply List.ext_getElem?
  intro k
  rw [List.getElem?_set]
  by_cases hk : idx = k
  · subst hk
    have hlt : idx < tx.inputs.length := by
      by_contra hcc
      rw [List.getElem?_eq_none (by omega)] at hi
      cases hi
    rw [if_pos rfl, List.length_map, if_pos hlt, List.getElem?_map, hi]
    rfl
  · rw [if_neg hk]

/-- The P2WSH script is one that IsMultiSig recognises. -/
def Recognised (s : LockScript) (redeem : Option Bytes) : Prop :=
  s.kind = .p2wsh → ∃ is, allInstructions (redeem.getD []) = .ok is ∧ isMultiSig is = true

/-- SetTxIn with the coin of the input restores the unlocking script from what is on the wire. -/
def Restores (i : TxIn) : Prop := ∃ s : LockScript, parse i.rawLockingScript = .ok s ∧ i.rawLockingScript = rawLocking s ∧
  i.finalLockingScript = finalLocking s i.redeemScript ∧ i.witnessScriptCode = witnessScriptCode s i.redeemScript ∧
  (i.witnessScriptCode = none → i.witness = []) ∧
  (Recognised s i.redeemScript → ∃ u, witnessToUnlocking s i.witness = .ok u ∧ u.getD (scriptSig i) = i.rawUnlockingScript)

omit [Hashes] in
theorem unlock_fold (signs : List PubKeySign) (b : Buffer) :
    signs.foldl (fun b s => addData b s.signature) b = (signs.map (·.signature)).foldl addData b := by
  rw [List.foldl_map]

/-- One successful SignIndex with the right keys. -/
theorem signIndex_ready {E : Ecdsa κ} (hE : Lawful E) {t0 t : UInt32} {tx0 tx tx' : Transaction} {idx : Nat} {c : Bool}
    {keys : List κ} {i0 : TxIn} (hinv : Inv t0 tx0 tx) (hi0 : tx0.inputs[idx]? = some i0) (hcoin : FromCoin i0)
    (hr : ∀ s, parse i0.rawLockingScript = .ok s → RightKeys E s i0.redeemScript c keys)
    (ht : t < 256) (hs : i0.hasWitness = true → SameClass t0 t) (h : signIndex E tx idx c t keys = .ok tx') :
    Inv t0 tx0 tx' ∧ (∀ i, tx'.inputs[idx]? = some i → Ready E t0 tx0 idx i ∧ Restores i) ∧
      ∀ k i, k ≠ idx → tx'.inputs[k]? = some i → tx.inputs[k]? = some i := by
  obtain ⟨s, hsz, hp0, hf0, hw0, hl0⟩ := fromCoin_fields hcoin
  have hr := hr s hp0
  unfold signIndex at h
  cases hi : tx.inputs[idx]? with
  | none => rw [hi] at h; cases h
  | some i =>
    rw [hi] at h
    change (if keys.length > 1 ∧ i.redeemScript = none then _ else _) = _ at h
    obtain ⟨i1, e1, hb⟩ := hinv.1.get hi
    rw [hi0] at e1; cases e1
    obtain ⟨b1, b2, b3, b4⟩ := bare_fields hb
    rw [← b2] at hp0
    split at h
    · cases h
    rw [Res.bind_eq_ok] at h
    obtain ⟨⟨signs, tx1⟩, hsk, h⟩ := h
    dsimp only at h
    have hwit : i.hasWitness = decide (scriptVersion s = .witnessV0) := by
      unfold TxIn.hasWitness
      rw [b4, hw0]
      unfold RightKeys at hr
      unfold witnessScriptCode scriptVersion
      cases hk : s.kind <;> rw [hk] at hr <;> first | rfl | (obtain ⟨r, hr, _⟩ := hr; rw [hr]; rfl)
    have hs' : scriptVersion s = .witnessV0 → SameClass t0 t := by
      intro hv
      apply hs
      have : i.hasWitness = i0.hasWitness := by unfold TxIn.hasWitness; rw [b4]
      rw [← this, hwit, hv]; rfl
    rw [hwit] at hsk
    obtain ⟨hinv1, hin1, hsigned⟩ := signKeys_spec hi0 hp0 hs' keys tx tx1 signs hinv hi hsk
    -- the embedding
    unfold embed at h
    rw [hin1, hi] at h
    change (if signs.length > 1 ∧ i.redeemScript = none then _ else _) = _ at h
    split at h
    · cases h
    rw [hp0, Res.ok_bind] at h
    have ht8 : t.toUInt8.toUInt32 = t := by
      apply UInt32.toNat.inj
      have : t.toNat < 256 := ht
      simp only [UInt8.toNat_toUInt32, UInt32.toNat_toUInt8]
      exact Nat.mod_eq_of_lt this
    -- there is at least one key, so the hash was computed
    have hkey : ∃ k rest, keys = k :: rest := by
      unfold RightKeys at hr
      cases hk : s.kind <;> rw [hk] at hr
      · obtain ⟨k, rest, e, _⟩ := hr; exact ⟨k, rest, e⟩
      · obtain ⟨r, _, _, hm⟩ := hr
        obtain ⟨_, _, _, _, _, _, h1, _⟩ := hm
        cases keys with
        | nil => simp at h1
        | cons k rest => exact ⟨k, rest, rfl⟩
      · obtain ⟨k, rest, e, _⟩ := hr; exact ⟨k, rest, e⟩
      · obtain ⟨r, _, _, hm⟩ := hr
        obtain ⟨_, _, _, _, _, _, h1, _⟩ := hm
        cases keys with
        | nil => simp at h1
        | cons k rest => exact ⟨k, rest, rfl⟩
    obtain ⟨k, rest, rfl⟩ := hkey
    obtain ⟨g, gs, rfl⟩ : ∃ g gs, signs = g :: gs := by
      cases hsigned with
      | cons a b => exact ⟨_, _, rfl⟩
    have hg : SignedBy E c t (refHash tx0 idx i0 t (scriptVersion s)) k g := by
      cases hsigned with
      | cons a b => exact a
    obtain ⟨d, hd⟩ : ∃ d, refHash tx0 idx i0 t (scriptVersion s) = .ok d := by
      obtain ⟨_, d, _, hd, _⟩ := hg
      exact ⟨d, hd⟩
    rw [hd] at hsigned hg
    have hsim : VMS.Sim (Inv t0 tx0) (.ok d) (sigHashFn idx (scriptVersion s) t.toUInt8) := by
      rw [← hd]
      exact sigHashFn_sim hi0 _ ht8 hs'
    have hff : i.finalLockingScript = finalLocking s i.redeemScript := by rw [b3, hf0, b1]
    have hww : i.witnessScriptCode = witnessScriptCode s i.redeemScript := by rw [b4, hw0, b1]
    have final : ∀ u w, tx' = putInput tx1 idx { i with rawUnlockingScript := u, witness := w } →
        Unlocks E t.toUInt8 d { i with rawUnlockingScript := u, witness := w } →
        (i.witnessScriptCode = none → w = []) →
        (Recognised s i.redeemScript → ∃ v, witnessToUnlocking s w = .ok v ∧
          v.getD (if i.witnessScriptCode = none then u else []) = u) →
        Inv t0 tx0 tx' ∧ (∀ i, tx'.inputs[idx]? = some i → Ready E t0 tx0 idx i ∧ Restores i) ∧
          ∀ k i, k ≠ idx → tx'.inputs[k]? = some i → tx.inputs[k]? = some i := by
      intro u w e hu hwn hrec
      rw [e]
      refine ⟨putInput_inv hinv1 (by rw [hin1]; exact hi) u w, ?_, ?_⟩
      · intro j hj
        rcases putInput_get hj with ⟨_, rfl⟩ | ⟨q, _⟩
        · exact ⟨⟨s, t.toUInt8, d, hp0, hsim, hu⟩, s, hp0, b2.trans hl0, hff, hww, hwn, hrec⟩
        · exact absurd rfl q
      · intro n j hn hj
        rcases putInput_get hj with ⟨q, _⟩ | ⟨_, hj⟩
        · exact absurd q hn
        · rw [← hin1]; exact hj
    rw [hf0] at b3
    rw [← b1] at hr b3
    obtain ⟨kind, hash⟩ := s
    unfold RightKeys at hr
    dsimp only at hsz
    cases kind <;> dsimp only at hr
    · obtain ⟨k', rest', e, hk⟩ := hr
      cases e
      rw [show rawUnlocking ⟨.p2pkh, hash⟩ (g :: gs) i.redeemScript =
        .ok (addData (addData Buffer.new g.signature) g.pubKey).data from rfl] at h
      dsimp only at h
      rw [show witnessUnlocking ⟨.p2pkh, hash⟩ (g :: gs) i.redeemScript = .ok [] from rfl, Res.ok_bind] at h
      cases h
      refine final _ _ rfl (unlocks_key hE hg hk rfl ?_) (fun _ => rfl)
        (fun _ => ⟨none, rfl, by rw [if_pos (by rw [hww]; rfl)]; rfl⟩)
      change i.finalLockingScript = _
      rw [b3]; exact C29_build .p2pkh hash hsz
    · obtain ⟨r, er, hk, hm⟩ := hr
      rw [er] at b3
      rw [show rawUnlocking ⟨.p2sh, hash⟩ (g :: gs) i.redeemScript = .ok (unlockScriptHash (g :: gs) (some r)) by
        rw [er]; rfl] at h
      dsimp only at h
      rw [show witnessUnlocking ⟨.p2sh, hash⟩ (g :: gs) i.redeemScript = .ok [] from rfl, Res.ok_bind] at h
      cases h
      refine final _ _ rfl (unlocks_multisig hE hsigned hm rfl ?_) (fun _ => rfl)
        (fun _ => ⟨none, rfl, by rw [if_pos (by rw [hww]; rfl)]; rfl⟩)
      change i.finalLockingScript = _
      rw [b3, hk]; exact C29_build .p2sh hash hsz
    · obtain ⟨k', rest', e, hk⟩ := hr
      cases e
      rw [show rawUnlocking ⟨.p2wpkh, hash⟩ (g :: gs) i.redeemScript =
        .ok (addData (addData Buffer.new g.signature) g.pubKey).data from rfl] at h
      dsimp only at h
      rw [show witnessUnlocking ⟨.p2wpkh, hash⟩ (g :: gs) i.redeemScript = .ok [g.signature, g.pubKey] from rfl, Res.ok_bind] at h
      cases h
      refine final _ _ rfl (unlocks_key hE hg hk rfl ?_) (fun q => by rw [hww] at q; cases q)
        (fun _ => ⟨_, rfl, rfl⟩)
      change i.finalLockingScript = _
      rw [b3]; exact C29_build .p2pkh hash hsz
    · obtain ⟨r, er, hk, hm⟩ := hr
      rw [er] at b3
      have e1 : rawUnlocking ⟨.p2wsh, hash⟩ (g :: gs) i.redeemScript = .ok (unlockScriptHash (g :: gs) (some r)) := by
        rw [er]
        unfold rawUnlocking
        dsimp only
        rw [if_neg (by rw [Option.getD_some, hk]; simp)]
      have e2 : witnessUnlocking ⟨.p2wsh, hash⟩ (g :: gs) i.redeemScript = .ok ([] :: (g :: gs).map (·.signature) ++ [r]) := by
        rw [er]
        unfold witnessUnlocking
        dsimp only
        rw [if_neg (by rw [Option.getD_some, hk]; simp)]
        rfl
      rw [e1] at h
      dsimp only at h
      rw [e2, Res.ok_bind] at h
      cases h
      refine final _ _ rfl (unlocks_multisig hE hsigned hm rfl ?_) (fun q => by rw [hww, er] at q; cases q) (fun hrec => ?_)
      · change i.finalLockingScript = _
        rw [b3]; exact C29_build .p2sh (hash160 r) (hash160_length r)
      · obtain ⟨is, hi1, hi2⟩ := hrec rfl
        rw [er] at hi1
        refine ⟨some (unlockScriptHash (g :: gs) (some r)), ?_, rfl⟩
        unfold witnessToUnlocking
        dsimp only
        rw [List.getLast?_concat]
        dsimp only
        rw [if_pos (by simp), show allInstructions r = .ok is from hi1]
        dsimp only
        rw [if_pos hi2, List.dropLast_concat, List.foldl_cons, ← unlock_fold]
        rfl

/-- After signing every input, with the hypotheses of C43 below. -/
theorem signAll_ready (E : Ecdsa κ) (hE : Lawful E) (tx tx' : Transaction) (calls : List (SignCall κ)) (t0 : UInt32)
    (h1 : tx.hashPrevouts = none) (h2 : tx.hashSequence = none) (h3 : tx.hashOutputs = none)
    (hcoin : ∀ i ∈ tx.inputs, FromCoin i)
    (hall : ∀ idx < tx.inputs.length, ∃ c ∈ calls, c.idx = idx)
    (hkeys : ∀ c ∈ calls, ∀ i s, tx.inputs[c.idx]? = some i → parse i.rawLockingScript = .ok s →
      RightKeys E s i.redeemScript c.compressed c.keys)
    (htype : ∀ c ∈ calls, c.hashType < 256)
    (hclass : ∀ c ∈ calls, ∀ i, tx.inputs[c.idx]? = some i → i.hasWitness = true → SameClass t0 c.hashType)
    (hsign : signAll E tx calls = .ok tx') : 
    Inv t0 tx tx' ∧ ∀ idx i, tx'.inputs[idx]? = some i → Ready E t0 tx idx i ∧ Restores i := by
  have main : ∀ (cs : List (SignCall κ)) (txa : Transaction), (∀ c ∈ cs, c ∈ calls) → Inv t0 tx txa →
      (∀ idx i, txa.inputs[idx]? = some i → (∃ c ∈ cs, c.idx = idx) ∨ (Ready E t0 tx idx i ∧ Restores i)) →
      signAll E txa cs = .ok tx' → Inv t0 tx tx' ∧ ∀ idx i, tx'.inputs[idx]? = some i → Ready E t0 tx idx i ∧ Restores i := by
    intro cs
    induction cs with
    | nil =>
      intro txa _ hinv hr h
      cases h
      refine ⟨hinv, fun idx i hi => ?_⟩
      rcases hr idx i hi with ⟨c, hc, _⟩ | h
      · cases hc
      · exact h
    | cons c cs ih =>
      intro txa hsub hinv hr h
      simp only [signAll] at h
      rw [Res.bind_eq_ok] at h
      obtain ⟨txb, hb, h⟩ := h
      have hc : c ∈ calls := hsub c (by simp)
      have hi0 : ∃ i0, tx.inputs[c.idx]? = some i0 := by
        unfold signIndex at hb
        cases hi : txa.inputs[c.idx]? with
        | none => rw [hi] at hb; cases hb
        | some i =>
          obtain ⟨i0, e, _⟩ := hinv.1.get hi
          exact ⟨i0, e⟩
      obtain ⟨i0, hi0⟩ := hi0
      obtain ⟨hinvb, hready, hother⟩ := signIndex_ready hE hinv hi0 (hcoin i0 (List.mem_of_getElem? hi0))
        (fun s hs => hkeys c hc i0 s hi0 hs) (htype c hc) (hclass c hc i0 hi0) hb
      refine ih txb (fun d hd => hsub d (by simp [hd])) hinvb ?_ h
      intro idx i hi
      by_cases e : idx = c.idx
      · subst e; exact Or.inr (hready i hi)
      · rcases hr idx i (hother idx i e hi) with ⟨d, hd, e2⟩ | h
        · rcases List.mem_cons.mp hd with rfl | hd
          · exact absurd e2.symm e
          · exact Or.inl ⟨d, hd, e2⟩
        · exact Or.inr h
  have hinv : Inv t0 tx tx := by
    refine ⟨Frozen.refl tx, ?_, ?_, ?_⟩
    · intro c hx; rw [h1] at hx; cases hx
    · intro c hx; rw [h2] at hx; cases hx
    · intro c hx; rw [h3] at hx; cases hx
  exact main calls tx (fun _ h => h) hinv (by
    intro idx i hi
    left
    apply hall
    by_contra hcc
    rw [List.getElem?_eq_none (by omega)] at hi
    cases hi) hsign

/-- **C43 (partial).** Full statement: after SignIndex has reported success for every input with the right
keys, Verify accepts. Proved when the witness inputs are signed with hash types of one class (for example
all ALL), the inputs come from NewTxIn and no digest was cached before. Any order of signing and repeated
signing are allowed, and legacy inputs may use any hash type below 256. Missing: witness inputs signed with
different classes, where it is false (`C43_negation_mixed`), and success reported although nothing was
signed (`C43_negation_swallowed`). -/
theorem C43_signed_verifies_partial (E : Ecdsa κ) (hE : Lawful E) (tx tx' : Transaction) (calls : List (SignCall κ)) (t0 : UInt32)
    (h1 : tx.hashPrevouts = none) (h2 : tx.hashSequence = none) (h3 : tx.hashOutputs = none)
    (hcoin : ∀ i ∈ tx.inputs, FromCoin i)
    (hall : ∀ idx < tx.inputs.length, ∃ c ∈ calls, c.idx = idx)
    (hkeys : ∀ c ∈ calls, ∀ i s, tx.inputs[c.idx]? = some i → parse i.rawLockingScript = .ok s →
      RightKeys E s i.redeemScript c.compressed c.keys)
    (htype : ∀ c ∈ calls, c.hashType < 256)
    (hclass : ∀ c ∈ calls, ∀ i, tx.inputs[c.idx]? = some i → i.hasWitness = true → SameClass t0 c.hashType)
    (hsign : signAll E tx calls = .ok tx') : (verify E tx').1 = .ok () := by
  obtain ⟨hinv, hr⟩ := signAll_ready E hE tx tx' calls t0 h1 h2 h3 hcoin hall hkeys htype hclass hsign
  exact verify_ready hinv fun idx i hi => (hr idx i hi).1

/-! ### scripts that never reach a signature check -/

/-- callbacks for a script that computes no signature hash -/
def noHashEnv (E : Ecdsa κ) : VM.Env := ⟨hash160, some fun _ => .panic, some E.verify⟩

theorem noHash_agree (E : Ecdsa κ) (idx : Nat) (v : Version) :
    VMS.Agree (fun _ => True) (noHashEnv E) (engineEnv E idx v) (fun _ => .panic) :=
  ⟨rfl, rfl, rfl, fun _ hp => absurd rfl hp⟩

theorem verifyInput_ok {E : Ecdsa κ} {idx : Nat} {i : TxIn} {s : LockScript} (hp : parse i.rawLockingScript = .ok s) {vm : VM.State}
    (h : VM.verify (noHashEnv E) i.rawUnlockingScript i.finalLockingScript VM.fresh = .ok vm) (tx : Transaction) :
    ∃ tx', verifyInput E idx i tx = (.ok (), tx') := by
  obtain ⟨tx', e, _⟩ := VMS.verify_sim (noHash_agree E idx (scriptVersion s)) i.rawUnlockingScript i.finalLockingScript VM.fresh
    (by rw [h]; simp) tx trivial
  refine ⟨tx', ?_⟩
  unfold verifyInput
  change VMS.bind _ _ tx = _
  unfold VMS.bind VMS.lift
  rw [hp]
  dsimp only
  rw [e, h]

theorem verifyInput_err {E : Ecdsa κ} {idx : Nat} {i : TxIn} {s : LockScript} (hp : parse i.rawLockingScript = .ok s) {er : Err}
    (h : VM.verify (noHashEnv E) i.rawUnlockingScript i.finalLockingScript VM.fresh = .err er) (tx : Transaction) :
    (verifyInput E idx i tx).1 = .err errVerifyFailed := by
  obtain ⟨tx', e, _⟩ := VMS.verify_sim (noHash_agree E idx (scriptVersion s)) i.rawUnlockingScript i.finalLockingScript VM.fresh
    (by rw [h]; simp) tx trivial
  unfold verifyInput
  change (VMS.bind _ _ tx).1 = _
  unfold VMS.bind VMS.lift
  rw [hp]
  dsimp only
  rw [e, h]

/-- Verify accepts only if every input is accepted in some state of the caches. -/
theorem verify_each {E : Ecdsa κ} {tx : Transaction} (h : (verify E tx).1 = .ok ()) (idx : Nat) (i : TxIn)
    (hi : tx.inputs[idx]? = some i) : ∃ tx1, (verifyInput E idx i tx1).1 = .ok () := by
  have gen : ∀ (l : List (TxIn × Nat)) (tx1 : Transaction), (verifyInputs E l tx1).1 = .ok () → ∀ p ∈ l,
      ∃ tx2, (verifyInput E p.2 p.1 tx2).1 = .ok () := by
    intro l
    induction l with
    | nil => intro _ _ p hp; cases hp
    | cons q l ih =>
      intro tx1 h p hp
      obtain ⟨j, k⟩ := q
      unfold verifyInputs at h
      change (VMS.bind _ _ tx1).1 = _ at h
      unfold VMS.bind at h
      cases hq : verifyInput E k j tx1 with
      | mk r tx2 =>
        rw [hq] at h
        cases r with
        | ok u =>
          dsimp only at h
          rcases List.mem_cons.mp hp with rfl | hp
          · exact ⟨tx1, by rw [hq]⟩
          · exact ih tx2 h p hp
        | err e => cases h
        | panic => cases h
  exact gen _ tx h (i, idx) (List.mem_zipIdx_iff_getElem?.mpr hi)

theorem signKeys_total {E : Ecdsa κ} (hE : ∀ k h, ∃ sig, E.sign k h = .ok sig) {idx : Nat} {i : TxIn} {s : LockScript}
    (hp : parse i.rawLockingScript = .ok s) (hv : scriptVersion s = .witnessV0) (c : Bool) (t : UInt32) (keys : List κ) :
    ∀ tx : Transaction, tx.inputs[idx]? = some i →
      ∃ signs tx', signKeys E idx c t true keys tx = .ok (signs, tx') ∧ tx'.inputs = tx.inputs ∧ signs.length = keys.length := by
  induction keys with
  | nil => intro tx _; exact ⟨[], tx, rfl, rfl, rfl⟩
  | cons k keys ih =>
    intro tx hi
    have hlt : idx < tx.inputs.length := by
      by_contra hcc
      rw [List.getElem?_eq_none (by omega)] at hi
      cases hi
    obtain ⟨sig, hsig⟩ := hE k (sha256d (witnessPreimage (updateCaches tx t) i t))
    obtain ⟨signs, tx', e, h1, h2⟩ := ih (updateCaches tx t) hi
    have e1 : signOne E tx idx t true k = .ok (sig ++ [t.toUInt8], updateCaches tx t) := by
      unfold signOne witnessSignature
      rw [if_pos rfl, if_neg (by omega), hi]
      change (parse i.rawLockingScript >>= _) = _
      rw [hp, Res.ok_bind, hv]
      dsimp only
      have : witnessSignatureHash tx idx t = .ok (sha256d (witnessPreimage (updateCaches tx t) i t), updateCaches tx t) := by
        unfold witnessSignatureHash
        rw [hi]; rfl
      rw [this, Res.ok_bind]
      dsimp only
      rw [hsig]; rfl
    refine ⟨⟨E.pub k c, sig ++ [t.toUInt8]⟩ :: signs, tx', ?_, h1, by simp [h2]⟩
    simp only [signKeys]
    rw [e1, Res.ok_bind]
    dsimp only
    rw [e]; rfl

/-- **C43, negation (error reporting).** If the redeem script of a P2WSH input does not match the program of
the coin, SignIndex reports success for any keys, but it leaves the input without unlocking script and Verify
does not accept. -/
theorem C43_negation_swallowed (E : Ecdsa κ) (hE : ∀ k h, ∃ sig, E.sign k h = .ok sig) (tx : Transaction) (idx : Nat) (i : TxIn)
    (hi : tx.inputs[idx]? = some i) (hash r : Bytes) (hp : parse i.rawLockingScript = .ok ⟨.p2wsh, hash⟩)
    (hr : i.redeemScript = some r) (hw : i.witnessScriptCode = some r)
    (hf : i.finalLockingScript = finalLocking ⟨.p2wsh, hash⟩ (some r)) (hbad : Hashes.sha256 r ≠ hash)
    (c : Bool) (t : UInt32) (keys : List κ) :
    ∃ tx', signIndex E tx idx c t keys = .ok tx' ∧ (verify E tx').1 ≠ .ok () := by
  obtain ⟨signs, tx1, hsk, hin, hlen⟩ := signKeys_total hE hp rfl c t keys tx hi
  refine ⟨putInput tx1 idx { i with rawUnlockingScript := [] }, ?_, ?_⟩
  · unfold signIndex
    rw [hi]
    change (if keys.length > 1 ∧ i.redeemScript = none then _ else _) = _
    rw [if_neg (by rw [hr]; simp), show i.hasWitness = true by unfold TxIn.hasWitness; rw [hw]; rfl, hsk, Res.ok_bind]
    dsimp only
    unfold embed
    rw [hin, hi]
    change (if signs.length > 1 ∧ i.redeemScript = none then _ else _) = _
    rw [if_neg (by rw [hr]; simp), hp, Res.ok_bind]
    have : rawUnlocking ⟨.p2wsh, hash⟩ signs i.redeemScript = .err errRedeemHash := by
      unfold rawUnlocking
      dsimp only
      rw [hr, Option.getD_some, if_pos hbad]
    rw [this]
  · intro hv
    have hlt : idx < tx.inputs.length := by
      by_contra hcc
      rw [List.getElem?_eq_none (by omega)] at hi
      cases hi
    obtain ⟨tx2, h2⟩ := verify_each hv idx { i with rawUnlockingScript := [] } (by
      unfold putInput
      simp only
      rw [List.getElem?_set, if_pos rfl, hin, if_pos hlt])
    have hx : VM.verify (noHashEnv E) [] (lockP2SH (hash160 r)) VM.fresh = .err VM.errIndex := by
      unfold VM.verify
      rw [show VM.execute (noHashEnv E) [] false VM.fresh = .ok ⟨[], []⟩ from rfl, Res.ok_bind]
      dsimp only [VM.reset]
      rw [show [] ++ lockP2SH (hash160 r) = Spec.encTokens (p2shTokens (hash160 r)) by rw [p2sh_enc]; rfl]
      have h3 : VM.execute (noHashEnv E) (Spec.encTokens (p2shTokens (hash160 r))) true ⟨[], []⟩ = .err VM.errIndex := by
        unfold VM.execute
        have h4 := VM.run_tokens (noHashEnv E) (p2sh_valid (hash160_length r))
          (by rw [← p2sh_enc]; simp [lockP2SH, hash160_length]) ⟨[], []⟩
        unfold VM.run at h4
        rw [h4]
        rfl
      rw [h3]; rfl
    rw [verifyInput_err (i := { i with rawUnlockingScript := [] }) hp (er := VM.errIndex) (by
      change VM.verify (noHashEnv E) [] i.finalLockingScript VM.fresh = _
      rw [hf]
      change VM.verify (noHashEnv E) [] (rawLocking ⟨.p2sh, hash160 r⟩) VM.fresh = _
      rw [C29_build .p2sh (hash160 r) (hash160_length r)]
      exact hx)] at h2
    cases h2

/-! ### C44 -/

/-- **C44, negation.** For every 32-byte program, every multisig script `r` (for any keys, hashing to anything)
and every non-numeric byte string `x`, an input with the witness `x, r` passes: SetTxIn with `r` as redeem
script succeeds and Verify accepts, although nothing ties `r` to the program and `r` was not even executed. -/
theorem C44_negation (E : Ecdsa κ) (tx : Transaction) (i : TxIn) (amount : UInt64) (hash r x : Bytes)
    (m : Nat) (pubs : List Bytes) (hmn : m ≤ pubs.length) (h1 : 1 ≤ pubs.length) (hn : pubs.length ≤ 16)
    (hk : ∀ k ∈ pubs, k.length = 33 ∨ k.length = 65) (hg : genMultiSig m pubs = .ok r)
    (hr : r.length < 2^32) (hx : x.length < 2^32) (x0 : x ≠ [0x00]) (x81 : x ≠ [0x81])
    (hh : hash.length = 32) (hin : tx.inputs = [{ i with witness := [x, r] }]) :
    ∃ tx', setTxIn tx 0 amount (standardScript .p2wsh hash) (some r) = .ok tx' ∧
      (∃ j, tx'.inputs = [j] ∧ j.rawLockingScript = standardScript .p2wsh hash) ∧ (verify E tx').1 = .ok () := by
  obtain ⟨is, hi, hms⟩ := C30_recognised m pubs hmn h1 hn hk r hg (by omega)
  have hparse := C29_parse_build .p2wsh hash hh
  rw [C29_build .p2wsh hash hh] at hparse
  have hk' : ∀ k ∈ pubs, k.length < 2^32 ∧ k ≠ [0x00] ∧ k ≠ [0x81] := by
    intro k hk2
    have := hk k hk2
    refine ⟨by omega, ?_, ?_⟩ <;> (rintro rfl; simp at this)
  obtain ⟨tm, ks, tn, hse, _⟩ := genMultiSig_tokens hmn (by omega) hk' hg
  have hr3 : 2 ≤ r.length := by
    have := encTokens_length_ge (tm :: ks ++ [tn, ⟨0xae, []⟩])
    rw [← hse] at this
    simp at this
    omega
  have r0 : r ≠ [0x00] := by rintro rfl; simp at hr3
  have r81 : r ≠ [0x81] := by rintro rfl; simp at hr3
  have hun : witnessToUnlocking ⟨.p2wsh, hash⟩ [x, r] = .ok (some (addData (addData Buffer.new x) r).data) := by
    unfold witnessToUnlocking
    dsimp only
    rw [show [x, r].getLast? = some r from rfl]
    dsimp only
    rw [if_pos (by simp), hi]
    dsimp only
    rw [if_pos hms]
    rfl
  have hdata : (addData (addData Buffer.new x) r).data = encTokens ([VM.pushToken x] ++ [VM.pushToken r]) := by
    rw [VM.addData_data _ _ hr, VM.addData_data _ _ hx]
    simp [encTokens, Buffer.new]
  let j : TxIn := { i with
    witness := [x, r], rawUnlockingScript := (addData (addData Buffer.new x) r).data, value := amount, redeemScript := some r,
    witnessScriptCode := some r, rawLockingScript := standardScript .p2wsh hash,
    finalLockingScript := finalLocking ⟨.p2wsh, hash⟩ (some r) }
  have hset : setTxIn tx 0 amount (standardScript .p2wsh hash) (some r) = .ok { tx with inputs := [j] } := by
    have hb : ∀ (s : LockScript), s = ⟨.p2wsh, hash⟩ → parse (standardScript .p2wsh hash) = .ok s →
        setTxIn tx 0 amount (standardScript .p2wsh hash) (some r) = .ok { tx with inputs := [{ i with
          witness := [x, r], rawUnlockingScript := (addData (addData Buffer.new x) r).data, value := amount,
          redeemScript := some r, witnessScriptCode := witnessScriptCode s (some r), rawLockingScript := rawLocking s,
          finalLockingScript := finalLocking s (some r) }] } := by
      generalize standardScript .p2wsh hash = sc
      rintro s rfl e
      unfold setTxIn
      rw [hin, List.getElem?_cons_zero, show ∀ a : TxIn, Res.ofIdx (some a) = .ok a from fun _ => rfl, Res.ok_bind, e, Res.ok_bind]
      dsimp only
      rw [hun, Res.ok_bind]
      unfold putInput
      rw [hin]
      rfl
    have := hb _ rfl hparse
    rw [C29_build .p2wsh hash hh] at this
    exact this
  refine ⟨_, hset, ⟨j, rfl, rfl⟩, ?_⟩
  have hver : VM.verify (noHashEnv E) j.rawUnlockingScript j.finalLockingScript VM.fresh = .ok ⟨[x], []⟩ := by
    change VM.verify (noHashEnv E) (addData (addData Buffer.new x) r).data (rawLocking ⟨.p2sh, hash160 r⟩) VM.fresh = _
    rw [C29_build .p2sh (hash160 r) (hash160_length r), hdata]
    have hpush : ∀ u ∈ [VM.pushToken x] ++ [VM.pushToken r], IsPush u := by
      intro u hu
      simp only [List.cons_append, List.nil_append, List.mem_cons, List.not_mem_nil, or_false] at hu
      rcases hu with rfl | rfl
      · exact pushToken_isPush hx x81
      · exact pushToken_isPush hr r81
    have := C25_short_not_executed (noHashEnv E) (hash160 r) (hash160_length r) [VM.pushToken x] (VM.pushToken r) (by simp) hpush
      (by
        have a := pushToken_enc_le x
        have b := pushToken_enc_le r
        have : (lockP2SH (hash160 r)).length = 23 := by simp [lockP2SH, hash160_length]
        rw [List.length_append, this]
        simp only [encTokens, List.cons_append, List.nil_append, List.flatMap_cons, List.flatMap_nil, List.append_nil, List.length_append]
        omega)
      (by rw [pushToken_value r0 r81]; rfl)
    rw [List.map_singleton, pushToken_value x0 x81] at this
    exact this
  obtain ⟨tx2, e2⟩ := verifyInput_ok (E := E) (idx := 0) (i := j) hparse hver { tx with inputs := [j] }
  unfold verify
  change (verifyInputs E [(j, 0)] _).1 = _
  unfold verifyInputs
  change (VMS.bind _ _ _).1 = _
  unfold VMS.bind
  rw [e2]
  rfl

/-- **C44 (partial).** Full statement: the script run for an accepted P2WSH input hashes (SHA-256) to the program.
Proved: when the unlocking script consists of pushes, the last push hashes (HASH160) like the redeem script the
caller supplied to NewTxIn or SetTxIn. Missing: any check against the program itself (`C44_negation`). -/
theorem C44_redeem_bound_partial (E : Ecdsa κ) (tx : Transaction) (hv : (verify E tx).1 = .ok ()) (idx : Nat) (i : TxIn)
    (hi : tx.inputs[idx]? = some i) (hash : Bytes) (hp : parse i.rawLockingScript = .ok ⟨.p2wsh, hash⟩) (r : Bytes)
    (hr : i.redeemScript = some r) (hf : i.finalLockingScript = finalLocking ⟨.p2wsh, hash⟩ i.redeemScript)
    (ts : List Token) (hts : ∀ t ∈ ts, IsPush t) (hu : i.rawUnlockingScript = encTokens ts)
    (hl : (encTokens ts).length < 2^61) :
    ∃ init last, ts = init ++ [last] ∧ hash160 (pushValue last) = hash160 r := by
  obtain ⟨tx1, h1⟩ := verify_each hv idx i hi
  have hfin : i.finalLockingScript = lockP2SH (hash160 r) := by
    rw [hf, hr]
    exact C29_build .p2sh (hash160 r) (hash160_length r)
  have hlock : (lockP2SH (hash160 r)).length = 23 := by simp [lockP2SH, hash160_length]
  by_contra hc
  have herr : ∃ er, VM.verify (noHashEnv E) i.rawUnlockingScript i.finalLockingScript VM.fresh = .err er := by
    rw [hu, hfin]
    rcases List.eq_nil_or_concat ts with rfl | ⟨init, last, rfl⟩
    · refine ⟨VM.errIndex, ?_⟩
      unfold VM.verify
      rw [show VM.execute (noHashEnv E) (encTokens []) false VM.fresh = .ok ⟨[], []⟩ from rfl, Res.ok_bind]
      dsimp only [VM.reset]
      rw [show encTokens [] ++ lockP2SH (hash160 r) = encTokens (p2shTokens (hash160 r)) by rw [p2sh_enc]; rfl]
      have h3 : VM.execute (noHashEnv E) (encTokens (p2shTokens (hash160 r))) true ⟨[], []⟩ = .err VM.errIndex := by
        unfold VM.execute
        have h4 := VM.run_tokens (noHashEnv E) (p2sh_valid (hash160_length r))
          (by rw [← p2sh_enc]; omega) ⟨[], []⟩
        unfold VM.run at h4
        rw [h4]
        rfl
      rw [h3]; rfl
    · refine ⟨VM.errExec, ?_⟩
      rw [List.concat_eq_append] at hts hl ⊢
      rw [p2sh_verify (noHashEnv E) (hash160_length r) hts (by rw [List.length_append]; omega)]
      rw [if_neg]
      intro e
      exact hc ⟨init, last, by rw [List.concat_eq_append], e⟩
  obtain ⟨er, herr⟩ := herr
  rw [verifyInput_err hp herr] at h1
  cases h1

/-! ### a toy signature scheme for the examples -/

/-- Keys are bytes, the public key repeats the byte, a signature of a 32-byte hash appends the key. -/
def toyEcdsa : Ecdsa UInt8 where
  pub k c := List.replicate (if c then 33 else 65) k
  sign k h := if h.length = 32 then .ok (h ++ [k]) else .err (.other 0)
  verify h s p := match p with
    | k :: _ => if h.length = 32 ∧ s = h ++ [k] then .ok () else .err (.other 0)
    | [] => .err (.other 0)

omit [Hashes] in
theorem toyEcdsa_lawful : Lawful toyEcdsa where
  pub_length k := by simp [toyEcdsa]
  sign_ok k h sig e := by
    simp only [toyEcdsa] at e
    split at e
    · rename_i hl
      cases e
      refine ⟨by simp [hl], by simp [hl], fun c => ?_⟩
      cases c <;> simp [toyEcdsa, hl, List.replicate]
    · cases e
  no_panic h s p := by
    cases p with
    | nil => simp [toyEcdsa]
    | cons k p =>
      simp only [toyEcdsa]
      split <;> simp

/-- A coin paying to the key 7, as a P2WPKH output. -/
def toyCoin (n : UInt32) : Res TxIn :=
  @newTxIn modHashes (List.replicate 32 5) n 1000 (standardScript .p2wpkh (@hash160 modHashes (toyEcdsa.pub 7 true))) none

/-- A transaction spending two such coins, signed with the given hash types. -/
def toySigned (t0 t1 : UInt32) : Res Transaction := do
  let a ← toyCoin 0
  let b ← toyCoin 1
  @signAll _ modHashes toyEcdsa { Tx.new with inputs := [a, b], outputs := [⟨900, [0x51]⟩] }
    [⟨0, true, t0, [7]⟩, ⟨1, true, t1, [7]⟩]

/-- Two inputs signed with ALL verify. -/
example : (toySigned 1 1).bind (fun tx => (@verify _ modHashes toyEcdsa tx).1) = .ok () := by decide +kernel

omit [Hashes] in
/-- **C43, negation (mixed hash types).** Two inputs signed successfully with the right key, the first with ALL
and the second with NONE: Verify rejects the transaction it has just signed, because the second call replaced
digests that the first one had cached. -/
theorem C43_negation_mixed : (toySigned 1 2).bind (fun tx => (@verify _ modHashes toyEcdsa tx).1) = .err errVerifyFailed := by
  decide +kernel

/-- 2-of-3 multisig script of the keys 7, 8, 9 -/
def toyMulti : Bytes :=
  (0x52 :: [7, 8, 9].flatMap (fun k : UInt8 => 33 :: List.replicate 33 k)) ++ [0x53, 0xae]

/-- A P2WSH coin for it, signed with keys 7 and 9, verifies; signed with keys 9 and 7 it does not. -/
example : genMultiSig 2 [toyEcdsa.pub 7 true, toyEcdsa.pub 8 true, toyEcdsa.pub 9 true] = .ok toyMulti ∧
    MultisigOf toyEcdsa toyMulti [7, 9] := by
  have : genMultiSig 2 [toyEcdsa.pub 7 true, toyEcdsa.pub 8 true, toyEcdsa.pub 9 true] = .ok toyMulti := by decide +kernel
  refine ⟨this, _, [toyEcdsa.pub 7 true, toyEcdsa.pub 9 true], this, ?_, ?_, ?_, ?_, ?_, ?_⟩
  · decide +kernel
  · decide
  · decide +kernel
  · decide
  · decide +kernel
  · exact .cons ⟨true, rfl⟩ (.cons ⟨true, rfl⟩ .nil)

/-- One P2WSH coin for `toyMulti`, signed with the given keys. -/
def toySigned2 (keys : List UInt8) : Res Transaction := do
  let a ← @newTxIn modHashes (List.replicate 32 5) 0 1000 (standardScript .p2wsh (@Hashes.sha256 modHashes toyMulti)) (some toyMulti)
  @signAll _ modHashes toyEcdsa { Tx.new with inputs := [a], outputs := [⟨900, [0x51]⟩] } [⟨0, true, 1, keys⟩]

example : (toySigned2 [7, 9]).bind (fun tx => (@verify _ modHashes toyEcdsa tx).1) = .ok () ∧
    (toySigned2 [9, 7]).bind (fun tx => (@verify _ modHashes toyEcdsa tx).1) = .err errVerifyFailed := by
  constructor <;> decide +kernel

/-- A case of `C43_negation_swallowed`: a coin for another script; signing reports success. -/
example : (do
    let a ← @newTxIn modHashes (List.replicate 32 5) 0 1000 (standardScript .p2wsh (List.replicate 32 1)) (some toyMulti)
    @signIndex _ modHashes toyEcdsa { Tx.new with inputs := [a] } 0 true 1 [7, 9]).bind
    (fun tx => .ok (tx.inputs.map TxIn.rawUnlockingScript, (@verify _ modHashes toyEcdsa tx).1)) =
    .ok ([[]], .err errVerifyFailed) := by decide +kernel

/-- A case of `C44_negation`: a witness of a byte string and `toyMulti` spends an output for another script. -/
example : (@setTxIn modHashes { Tx.new with inputs := [{ TxIn.empty with witness := [[1], toyMulti] }] } 0 1000
    (standardScript .p2wsh (List.replicate 32 1)) (some toyMulti)).bind (fun tx => (@verify _ modHashes toyEcdsa tx).1) = .ok () := by
  decide +kernel

end Toku.Props
