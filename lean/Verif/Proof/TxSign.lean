import Verif.Spec.TxSign
import Verif.Proof.Ripemd
import Verif.Proof.VMS
import Verif.Props.SigHash
import Verif.Props.Locking
/-
Signing and verification.
-/
namespace Toku.Tx
open Toku.Locking Toku.Script Toku.Spec Toku.Props

/-- an input without its unlocking data -/
def bare (i : TxIn) : TxIn := { i with rawUnlockingScript := [], witness := [] }

/-- `tx` differs from `tx0` only in unlocking data and caches -/
structure Frozen (tx0 tx : Transaction) : Prop where
  version : tx.version = tx0.version
  lockTime : tx.lockTime = tx0.lockTime
  outputs : tx.outputs = tx0.outputs
  inputs : tx.inputs.map bare = tx0.inputs.map bare

theorem Frozen.refl (tx : Transaction) : Frozen tx tx := ⟨rfl, rfl, rfl, rfl⟩

theorem Frozen.get {tx0 tx : Transaction} (h : Frozen tx0 tx) {idx : Nat} {i : TxIn} (hi : tx.inputs[idx]? = some i) :
    ∃ i0, tx0.inputs[idx]? = some i0 ∧ bare i = bare i0 := by
  have e := congrArg (fun l : List TxIn => l[idx]?) h.inputs
  simp only [List.getElem?_map, hi, Option.map_some] at e
  cases h0 : tx0.inputs[idx]? with
  | none => rw [h0] at e; cases e
  | some i0 => rw [h0] at e; exact ⟨i0, rfl, by simpa using e⟩

theorem Frozen.length {tx0 tx : Transaction} (h : Frozen tx0 tx) : tx.inputs.length = tx0.inputs.length := by
  have e := congrArg List.length h.inputs
  simpa using e

theorem foldSig_bare (idx : Nat) (l : List TxIn) : ∀ (k : Nat) (b : Buffer),
    foldRes (writeSigInput idx) b (l.zipIdx k) = foldRes (writeSigInput idx) b ((l.map bare).zipIdx k) := by
  induction l with
  | nil => intro k b; rfl
  | cons i l ih =>
    intro k b
    simp only [List.zipIdx_cons, List.map_cons, foldRes]
    rw [show writeSigInput idx b (bare i, k) = writeSigInput idx b (i, k) from rfl]
    cases writeSigInput idx b (i, k) with
    | ok b' => exact ih (k + 1) b'
    | err e => rfl
    | panic => rfl

variable [Hashes]

theorem rawHash_frozen {tx0 tx : Transaction} (h : Frozen tx0 tx) (idx : Nat) (t : UInt32) :
    rawSignatureHash tx idx t = rawSignatureHash tx0 idx t := by
  have hw : ∀ b, writeSigAll tx idx b = writeSigAll tx0 idx b := by
    intro b
    unfold writeSigAll
    rw [foldSig_bare, foldSig_bare idx tx0.inputs, h.inputs, h.outputs, h.length]
  unfold rawSignatureHash rawPreimage
  simp only [hw, h.version, h.lockTime]

theorem witnessPreimage_congr {a b : Transaction} (h1 : a.version = b.version) (h2 : a.lockTime = b.lockTime)
    (h3 : a.hashPrevouts = b.hashPrevouts) (h4 : a.hashSequence = b.hashSequence) (h5 : a.hashOutputs = b.hashOutputs)
    (i : TxIn) (t : UInt32) : witnessPreimage a i t = witnessPreimage b i t := by
  unfold witnessPreimage
  rw [h1, h2, h3, h4, h5]

theorem witnessPreimage_bare (tx : Transaction) (i : TxIn) (t : UInt32) :
    witnessPreimage tx i t = witnessPreimage tx (bare i) t := by
  unfold witnessPreimage bare
  rfl

def clear (tx : Transaction) : Transaction := { tx with hashPrevouts := none, hashSequence := none, hashOutputs := none }

/-- what signing and verifying one class of hash types keeps -/
def Inv (t0 : UInt32) (tx0 tx : Transaction) : Prop := Frozen tx0 tx ∧ CachesOk t0 tx

theorem fold_bare_in (l : List TxIn) (b : Buffer) : l.foldl (fun b i => (b.writeBytes i.hash).writeU32 i.index) b =
    (l.map bare).foldl (fun b i => (b.writeBytes i.hash).writeU32 i.index) b := by
  rw [List.foldl_map]; rfl

theorem fold_bare_seq (l : List TxIn) (b : Buffer) : l.foldl (fun b i => b.writeU32 i.sequence) b =
    (l.map bare).foldl (fun b i => b.writeU32 i.sequence) b := by
  rw [List.foldl_map]; rfl

/-- the witness hash of type `t` with empty caches -/
def refWitness (tx0 : Transaction) (i0 : TxIn) (t : UInt32) : Bytes :=
  sha256d (witnessPreimage (updateCaches (clear tx0) t) i0 t)

theorem witnessHash_frozen {t0 t : UInt32} {tx0 tx : Transaction} (h : Inv t0 tx0 tx) (hs : SameClass t0 t) {idx : Nat}
    {i0 : TxIn} (hi0 : tx0.inputs[idx]? = some i0) :
    ∃ tx', witnessSignatureHash tx idx t = .ok (refWitness tx0 i0 t, tx') ∧ Inv t0 tx0 tx' ∧ tx'.inputs = tx.inputs := by
  obtain ⟨hf, hc⟩ := h
  have hlt : idx < tx.inputs.length := by
    rw [hf.length]
    by_contra hcc
    rw [List.getElem?_eq_none (by omega)] at hi0
    cases hi0
  have hi : tx.inputs[idx]? = some tx.inputs[idx] := List.getElem?_eq_getElem hlt
  obtain ⟨i1, e1, hb⟩ := hf.get hi
  rw [hi0] at e1
  cases e1
  have key : witnessSignatureHash tx idx t = .ok (refWitness tx0 i0 t, updateCaches tx t) := by
    unfold witnessSignatureHash
    rw [hi]
    change Res.ok (_, _) = Res.ok (_, _)
    obtain ⟨v1, v2, v3⟩ := cache_vals hc t hs
    have w1 : cachePrevouts (clear tx) t0 = cachePrevouts (clear tx0) t := by
      unfold cachePrevouts clear
      have hb := hs.1
      by_cases ha : t0 &&& 0x80 = 0
      · rw [if_pos ha, if_pos (hb.mp ha)]
        dsimp only
        rw [fold_bare_in, hf.inputs, ← fold_bare_in]
      · rw [if_neg ha, if_neg (fun q => ha (hb.mpr q))]
    have w2 : cacheSequence (clear tx) t0 = cacheSequence (clear tx0) t := by
      unfold cacheSequence clear
      have hb := and_congr hs.1 hs.2.1
      by_cases ha : t0 &&& 0x80 = 0 ∧ t0 &&& 0x1f ≠ 3 ∧ t0 &&& 0x1f ≠ 2
      · rw [if_pos ha, if_pos (hb.mp ha)]
        dsimp only
        rw [fold_bare_seq, hf.inputs, ← fold_bare_seq]
      · rw [if_neg ha, if_neg (fun q => ha (hb.mpr q))]
    have w3 : cacheOutputs (clear tx) t0 = cacheOutputs (clear tx0) t := by
      unfold cacheOutputs clear
      have hb := hs.2.2
      by_cases ha : t0 &&& 3 ≠ 3 ∧ t0 &&& 2 ≠ 2
      · rw [if_pos ha, if_pos (hb.mp ha)]
        dsimp only
        rw [hf.outputs]
      · rw [if_neg ha, if_neg (fun q => ha (hb.mpr q))]
    have hp : witnessPreimage (updateCaches tx t) tx.inputs[idx] t = witnessPreimage (updateCaches (clear tx0) t) i0 t := by
      rw [witnessPreimage_bare, hb, ← witnessPreimage_bare]
      exact witnessPreimage_congr (a := updateCaches tx t) (b := updateCaches (clear tx0) t) hf.version hf.lockTime (congrArg some (v1.trans w1)) (congrArg some (v2.trans w2))
        (congrArg some (v3.trans w3)) _ _
    unfold refWitness
    rw [hp]
  refine ⟨_, key, ⟨⟨hf.version, hf.lockTime, hf.outputs, hf.inputs⟩, ?_⟩, rfl⟩
  exact op_keeps (Op.hash tx _ idx t _ hs key) hc

/-- the hash that is signed, in terms of the unsigned transaction -/
def refHash (tx0 : Transaction) (idx : Nat) (i0 : TxIn) (t : UInt32) : Version → Res Bytes
  | .base => rawSignatureHash tx0 idx t
  | .witnessV0 => .ok (refWitness tx0 i0 t)

/-- the callback of Verify computes the reference hash -/
theorem sigHashFn_sim {t0 t : UInt32} {tx0 : Transaction} {idx : Nat} {i0 : TxIn} (hi0 : tx0.inputs[idx]? = some i0)
    (v : Version) (ht : t.toUInt8.toUInt32 = t) (hs : v = .witnessV0 → SameClass t0 t) :
    VMS.Sim (Inv t0 tx0) (refHash tx0 idx i0 t v) (sigHashFn idx v t.toUInt8) := by
  intro hp s hinv
  cases v with
  | base =>
    refine ⟨s, ?_, hinv⟩
    unfold sigHashFn refHash
    rw [ht]
    dsimp only
    rw [rawHash_frozen hinv.1]
  | witnessV0 =>
    obtain ⟨tx', e, h', _⟩ := witnessHash_frozen hinv (hs rfl) hi0
    refine ⟨tx', ?_, h'⟩
    unfold sigHashFn refHash
    rw [ht]
    dsimp only
    rw [e]

variable {κ : Type} {E : Ecdsa κ}

/-- a signature made by a key over the reference hash -/
def SignedBy (E : Ecdsa κ) (compressed : Bool) (t : UInt32) (r : Res Bytes) (k : κ) (s : PubKeySign) : Prop :=
  s.pubKey = E.pub k compressed ∧ ∃ h sig, r = .ok h ∧ E.sign k h = .ok sig ∧ s.signature = sig ++ [t.toUInt8]

theorem signOne_spec {t0 t : UInt32} {tx0 tx tx' : Transaction} {idx : Nat} {i0 i : TxIn} {sc : LockScript} {key : κ} {g : Bytes}
    (hinv : Inv t0 tx0 tx) (hi0 : tx0.inputs[idx]? = some i0) (hi : tx.inputs[idx]? = some i)
    (hp : parse i.rawLockingScript = .ok sc)
    (hs : scriptVersion sc = .witnessV0 → SameClass t0 t)
    (h : signOne E tx idx t (decide (scriptVersion sc = .witnessV0)) key = .ok (g, tx')) :
    Inv t0 tx0 tx' ∧ tx'.inputs = tx.inputs ∧
      ∃ h sig, refHash tx0 idx i0 t (scriptVersion sc) = .ok h ∧ E.sign key h = .ok sig ∧ g = sig ++ [t.toUInt8] := by
  have hlt : idx < tx.inputs.length := by
    by_contra hcc
    rw [List.getElem?_eq_none (by omega)] at hi
    cases hi
  unfold signOne at h
  cases hv : scriptVersion sc with
  | base =>
    rw [hv] at h
    rw [if_neg (by decide), Res.bind_eq_ok] at h
    obtain ⟨g', h1, h2⟩ := h
    cases h2
    unfold rawSignature at h1
    rw [if_neg (by omega), Res.bind_eq_ok] at h1
    obtain ⟨d, hd, h1⟩ := h1
    rw [Res.bind_eq_ok] at h1
    obtain ⟨sg, hsg, h1⟩ := h1
    cases h1
    rw [rawHash_frozen hinv.1] at hd
    exact ⟨hinv, rfl, d, sg, hd, hsg, rfl⟩
  | witnessV0 =>
    rw [hv] at h hs
    rw [if_pos (by decide)] at h
    unfold witnessSignature at h
    rw [if_neg (by omega), hi] at h
    change (parse i.rawLockingScript >>= _) = _ at h
    rw [hp, Res.ok_bind] at h
    rw [hv] at h
    dsimp only at h
    obtain ⟨tx1, e1, hinv1, hin1⟩ := witnessHash_frozen hinv (hs rfl) hi0
    rw [e1, Res.ok_bind] at h
    dsimp only at h
    rw [Res.bind_eq_ok] at h
    obtain ⟨sg, hsg, h1⟩ := h
    cases h1
    exact ⟨hinv1, hin1, _, sg, rfl, hsg, rfl⟩

theorem signKeys_spec {t0 t : UInt32} {tx0 : Transaction} {idx : Nat} {i0 i : TxIn} {sc : LockScript} {c : Bool}
    (hi0 : tx0.inputs[idx]? = some i0)
    (hp : parse i.rawLockingScript = .ok sc)
    (hs : scriptVersion sc = .witnessV0 → SameClass t0 t) (keys : List κ) :
    ∀ (tx tx' : Transaction) (signs : List PubKeySign), Inv t0 tx0 tx → tx.inputs[idx]? = some i →
      signKeys E idx c t (decide (scriptVersion sc = .witnessV0)) keys tx = .ok (signs, tx') →
      Inv t0 tx0 tx' ∧ tx'.inputs = tx.inputs ∧
        List.Forall₂ (SignedBy E c t (refHash tx0 idx i0 t (scriptVersion sc))) keys signs := by
  induction keys with
  | nil =>
    intro tx tx' signs hinv hi h
    cases h
    exact ⟨hinv, rfl, .nil⟩
  | cons k keys ih =>
    intro tx tx' signs hinv hi h
    simp only [signKeys] at h
    rw [Res.bind_eq_ok] at h
    obtain ⟨⟨g, tx1⟩, h1, h⟩ := h
    dsimp only at h
    rw [Res.bind_eq_ok] at h
    obtain ⟨⟨rest, tx2⟩, h2, h⟩ := h
    cases h
    obtain ⟨hinv1, hin1, hg⟩ := signOne_spec hinv hi0 hi hp hs h1
    obtain ⟨hinv2, hin2, hf⟩ := ih tx1 _ rest hinv1 (by rw [hin1]; exact hi) h2
    exact ⟨hinv2, hin2.trans hin1, .cons ⟨rfl, hg⟩ hf⟩

/-- a hasher for one hash type -/
def oneHash (b : UInt8) (h : Bytes) (t : UInt8) : Res Bytes := if t = b then .ok h else .panic

def oneEnv (E : Ecdsa κ) (b : UInt8) (h : Bytes) : VM.Env := ⟨hash160, some (oneHash b h), some E.verify⟩

/-- the unlocking script of an input satisfies its final locking script, for the hash `h` of type `b` -/
def Unlocks (E : Ecdsa κ) (b : UInt8) (h : Bytes) (i : TxIn) : Prop :=
  ∃ vm, VM.verify (oneEnv E b h) i.rawUnlockingScript i.finalLockingScript VM.fresh = .ok vm

/-- the input is ready for Verify -/
def Ready (E : Ecdsa κ) (t0 : UInt32) (tx0 : Transaction) (idx : Nat) (i : TxIn) : Prop :=
  ∃ sc b h, parse i.rawLockingScript = .ok sc ∧ VMS.Sim (Inv t0 tx0) (.ok h) (sigHashFn idx (scriptVersion sc) b) ∧
    Unlocks E b h i

theorem verifyInput_ready {t0 : UInt32} {tx0 tx : Transaction} {idx : Nat} {i : TxIn} (h : Ready E t0 tx0 idx i)
    (hinv : Inv t0 tx0 tx) : ∃ tx', verifyInput E idx i tx = (.ok (), tx') ∧ Inv t0 tx0 tx' := by
  obtain ⟨sc, b, d, hp, hsim, vm, hu⟩ := h
  have agree : VMS.Agree (Inv t0 tx0) (oneEnv E b d) (engineEnv E idx (scriptVersion sc)) (oneHash b d) := by
    refine ⟨rfl, rfl, rfl, ?_⟩
    intro t
    unfold oneHash
    by_cases ht : t = b
    · rw [if_pos ht, ht]; exact hsim
    · rw [if_neg ht]; intro hp; exact absurd rfl hp
  obtain ⟨tx', e, h'⟩ := VMS.verify_sim agree i.rawUnlockingScript i.finalLockingScript VM.fresh
    (by rw [hu]; simp) tx hinv
  refine ⟨tx', ?_, h'⟩
  unfold verifyInput
  change VMS.bind _ _ tx = _
  unfold VMS.bind VMS.lift
  rw [hp]
  dsimp only
  rw [e, hu]

theorem verifyInputs_ready {t0 : UInt32} {tx0 : Transaction} (l : List (TxIn × Nat)) :
    ∀ tx, Inv t0 tx0 tx → (∀ p ∈ l, Ready E t0 tx0 p.2 p.1) → ∃ tx', verifyInputs E l tx = (.ok (), tx') := by
  induction l with
  | nil => intro tx _ _; exact ⟨tx, rfl⟩
  | cons p l ih =>
    intro tx hinv hr
    obtain ⟨i, idx⟩ := p
    obtain ⟨tx1, e1, h1⟩ := verifyInput_ready (hr (i, idx) (by simp)) hinv
    obtain ⟨tx2, e2⟩ := ih tx1 h1 (fun p hp => hr p (by simp [hp]))
    refine ⟨tx2, ?_⟩
    unfold verifyInputs
    change VMS.bind _ _ tx = _
    unfold VMS.bind
    rw [e1]
    exact e2

theorem verify_ready {t0 : UInt32} {tx0 tx : Transaction} (hinv : Inv t0 tx0 tx)
    (hr : ∀ idx i, tx.inputs[idx]? = some i → Ready E t0 tx0 idx i) : (verify E tx).1 = .ok () := by
  obtain ⟨tx', e⟩ := verifyInputs_ready (E := E) tx.inputs.zipIdx tx hinv (by
    rintro ⟨i, idx⟩ hm
    rw [List.mem_zipIdx_iff_getElem?] at hm
    exact hr idx i hm)
  unfold verify
  rw [e]

theorem pushToken_enc_le (d : Bytes) : (VM.pushToken d).enc.length ≤ d.length + 5 := by
  have hw : ∀ op : UInt8, lenWidth op ≤ 4 := by apply Base58.forall_uint8; decide +kernel
  have hd : (VM.pushToken d).data.length ≤ d.length := by
    unfold VM.pushToken
    repeat' split
    all_goals simp
  rw [enc_length]
  have := hw (VM.pushToken d).op
  omega

theorem encTokens_push_le (ds : List Bytes) (h : ∀ d ∈ ds, d.length ≤ 75) :
    (encTokens (ds.map VM.pushToken)).length ≤ 80 * ds.length := by
  induction ds with
  | nil => simp [encTokens]
  | cons d ds ih =>
    have h1 := ih (fun x hx => h x (by simp [hx]))
    have h2 := pushToken_enc_le d
    have h3 := h d (by simp)
    simp only [encTokens, List.map_cons, List.flatMap_cons, List.length_append, List.length_cons] at h1 ⊢
    omega

theorem signed_sigOk (hE : Lawful E) {c : Bool} {t : UInt32} {h : Bytes} {k : κ} {s : PubKeySign}
    (hs : SignedBy E c t (.ok h) k s) (c' : Bool) :
    SigOk (oneEnv E t.toUInt8 h) s.signature (E.pub k c') ∧ 9 ≤ s.signature.length ∧ s.signature.length ≤ 73 ∧
      ∃ sig, s.signature = sig ++ [t.toUInt8] := by
  obtain ⟨_, h', sig, e, h1, h2⟩ := hs
  cases e
  obtain ⟨l1, l2, l3⟩ := hE.sign_ok k _ sig h1
  refine ⟨⟨oneHash t.toUInt8 h, E.verify, sig, t.toUInt8, h, rfl, rfl, h2, ?_, l3 c'⟩, ?_, ?_, sig, h2⟩
  · unfold oneHash; rw [if_pos rfl]
  · rw [h2]; simp; omega
  · rw [h2]; simp; omega

/-- P2PKH and P2WPKH -/
theorem unlocks_key (hE : Lawful E) {c : Bool} {t : UInt32} {h hash : Bytes} {k : κ} {s : PubKeySign} {i : TxIn}
    (hs : SignedBy E c t (.ok h) k s) (hk : hash160 (E.pub k c) = hash)
    (hu : i.rawUnlockingScript = (addData (addData Buffer.new s.signature) s.pubKey).data)
    (hl : i.finalLockingScript = standardScript .p2pkh hash) : Unlocks E t.toUInt8 h i := by
  obtain ⟨hok, l1, l2, _⟩ := signed_sigOk hE hs c
  refine ⟨VM.fresh, ?_⟩
  rw [hu, hl, ← hk, hs.1]
  refine C24_p2pkh_complete (oneEnv E t.toUInt8 h) (E.pub k c) s.signature ⟨l1, by omega⟩ ?_ (hash160_length _) hok
  cases c
  · exact Or.inr (hE.pub_length k).2
  · exact Or.inl (hE.pub_length k).1

/-- P2SH and P2WSH -/
theorem unlocks_multisig (hE : Lawful E) {c : Bool} {t : UInt32} {h r : Bytes} {keys : List κ} {signs : List PubKeySign} {i : TxIn}
    (hs : List.Forall₂ (SignedBy E c t (.ok h)) keys signs) (hm : MultisigOf E r keys)
    (hu : i.rawUnlockingScript = unlockScriptHash signs (some r))
    (hl : i.finalLockingScript = standardScript .p2sh (hash160 r)) : Unlocks E t.toUInt8 h i := by
  obtain ⟨pubs, chosen, hg, hp, hn, hr, h1, hsub, hch⟩ := hm
  have hlen := hs.length_eq
  have hlen2 := hch.length_eq
  have hle := hsub.length_le
  have hk : ∀ k ∈ pubs, k.length < 2^32 ∧ k ≠ [0x00] ∧ k ≠ [0x81] := by
    intro k hk
    have := hp k hk
    refine ⟨by omega, ?_, ?_⟩ <;> (rintro rfl; simp at this)
  have hsig : ∀ s ∈ signs, 9 ≤ s.signature.length ∧ s.signature.length ≤ 73 ∧ ∃ sig, s.signature = sig ++ [t.toUInt8] := by
    intro s hm
    clear hlen hch hu hg h1 hlen2
    induction hs with
    | nil => cases hm
    | cons a b ih =>
      rcases List.mem_cons.mp hm with rfl | hm
      · exact (signed_sigOk hE a true).2
      · exact ih hm
  set sigs := signs.map (·.signature) with hsigs
  have hsl : sigs.length = keys.length := by rw [hsigs, List.length_map, hlen]
  have hsig' : ∀ s ∈ sigs, 9 ≤ s.length ∧ s.length ≤ 73 ∧ ∃ sig, s = sig ++ [t.toUInt8] := by
    intro s hm
    obtain ⟨q, hq, rfl⟩ := List.mem_map.mp hm
    exact hsig q hq
  have hne : ∀ x ∈ sigs, x ≠ [] := by
    intro x hx e
    have := (hsig' x hx).1
    rw [e] at this; simp at this
  have hor : Oracles (oneEnv E t.toUInt8 h) sigs pubs := by
    refine ⟨_, _, rfl, rfl, ?_⟩
    intro der b hb
    obtain ⟨_, _, sig, e⟩ := hsig' _ hb
    obtain ⟨e1, e2⟩ := List.append_inj' e rfl
    have e3 : b = t.toUInt8 := by simpa using e2
    refine ⟨⟨h, ?_⟩, fun _ _ _ => hE.no_panic _ _ _⟩
    unfold oneHash; rw [if_pos e3]
  have hmatch : Matching (SigOk (oneEnv E t.toUInt8 h)) sigs pubs := by
    refine ⟨chosen, hsub, ?_⟩
    rw [hsigs]
    clear hlen hlen2 hsub hu hsig hsigs hsl hsig' hne hor h1 hg hle
    induction hs generalizing chosen with
    | nil => cases hch; exact .nil
    | cons a b ih =>
      cases hch with
      | cons p q =>
        obtain ⟨c', rfl⟩ := p
        exact .cons (signed_sigOk hE a c').1 (ih _ q)
  obtain ⟨b, hb, hiff⟩ := C30_enforces (oneEnv E t.toUInt8 h) keys.length pubs sigs hor (by omega) hn hk r hg (by omega)
    hsl hne [] []
  have hbt : b = true := hiff.mpr hmatch
  subst hbt
  obtain ⟨tm, ks, tn, hse, p1, v1, hks, hkeys, p2, v2, hv⟩ := genMultiSig_tokens (m := keys.length) (by omega) hn hk hg
  have hr3 : 2 ≤ r.length := by
    have := encTokens_length_ge (tm :: ks ++ [tn, ⟨0xae, []⟩])
    rw [← hse] at this
    simp at this
    omega
  have r0 : r ≠ [0x00] := by rintro rfl; simp at hr3
  have r81 : r ≠ [0x81] := by rintro rfl; simp at hr3
  have big : ∀ s ∈ sigs, s.length < 2^32 ∧ s ≠ [0x00] ∧ s ≠ [0x81] := by
    intro s hm
    have := hsig' s hm
    refine ⟨by omega, ?_, ?_⟩ <;> (rintro rfl; simp at this)
  have hdata : i.rawUnlockingScript = encTokens ((⟨0x00, []⟩ :: sigs.map VM.pushToken) ++ [VM.pushToken r]) := by
    rw [hu]
    unfold unlockScriptHash
    rw [if_pos (by omega)]
    dsimp only
    rw [Option.getD_some, VM.addData_data _ _ hr]
    have : signs.foldl (fun b s => addData b s.signature) (addOp Buffer.new 0x00) = sigs.foldl addData (addOp Buffer.new 0x00) := by
      rw [hsigs, List.foldl_map]
    rw [this, foldl_addData _ (fun k hk => (big k hk).1)]
    simp [encTokens, addOp, Buffer.new, Buffer.writeU8, Token.enc, lenWidth, leBytes]
  have hvals : (⟨0x00, []⟩ :: sigs.map VM.pushToken : List Token).map pushValue = [] :: sigs := by
    simp only [List.map_cons, List.map_map]
    refine congrArg₂ _ rfl ?_
    conv => rhs; rw [← List.map_id sigs]
    apply List.map_congr_left
    intro s hm
    exact pushToken_value (big s hm).2.1 (big s hm).2.2
  have hpush : ∀ x ∈ (⟨0x00, []⟩ :: sigs.map VM.pushToken) ++ [VM.pushToken r], IsPush x := by
    intro x hx
    rcases List.mem_append.mp hx with hx | hx
    · rcases List.mem_cons.mp hx with rfl | hx
      · exact ⟨⟨by decide, by decide⟩, by decide⟩
      · obtain ⟨s, hm, rfl⟩ := List.mem_map.mp hx
        exact pushToken_isPush (big s hm).1 (big s hm).2.2
    · rw [List.mem_singleton.mp hx]
      exact pushToken_isPush hr r81
  have hrun : VM.execute (oneEnv E t.toUInt8 h) r true ⟨sigs.reverse ++ [[]], []⟩ = .ok ⟨[], []⟩ := by
    rw [VM.execute_false] at hb
    rw [VM.execute_true]
    exact ⟨_, hb, Or.inr ⟨_, _, rfl, rfl, rfl⟩⟩
  refine ⟨⟨[], []⟩, ?_⟩
  rw [hdata, hl]
  refine (C25_p2sh_partial (oneEnv E t.toUInt8 h) (hash160 r) (hash160_length r) _ ?_ hpush ?_ _).mpr
    ⟨_, _, rfl, ?_, ?_⟩
  · simp; omega
  · have a := encTokens_push_le sigs (fun d hd => by have := (hsig' d hd).2.1; omega)
    have b := pushToken_enc_le r
    have e : (encTokens ((⟨0x00, []⟩ :: sigs.map VM.pushToken) ++ [VM.pushToken r])).length =
        (Token.enc ⟨0x00, []⟩).length + (encTokens (sigs.map VM.pushToken)).length + (VM.pushToken r).enc.length := by
      simp [encTokens]; omega
    have z : (Token.enc ⟨0x00, []⟩).length = 1 := by decide
    rw [List.length_append, e, z]
    have : (lockP2SH (hash160 r)).length = 23 := by simp [lockP2SH, hash160_length]
    omega
  · rw [pushToken_value r0 r81]; rfl
  · rw [hvals, pushToken_value r0 r81]
    simpa using hrun

end Toku.Tx
