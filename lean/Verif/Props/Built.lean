import Verif.Props.BuilderCalls
import Verif.Props.TxEcdsa
/-
Property C108: what the builder signs, verifies (xcore/transactionbuilder.go:165-330 and Verify, xcore/transaction.go:684-734).
-/
namespace Toku.Props
open Toku Toku.Spec Toku.Tx Toku.Locking Toku.Script Toku.Builder

section
variable {κ : Type} [Hashes]

/-- The coin of a group can be spent with what the group has: its keys are the right ones for the script of the coin, the hash type
is a byte, and for a witness script it is of the class of `t0`. -/
structure Entitled (E : Ecdsa κ) (t0 : UInt32) (p : Coin × Builder.Group κ) : Prop where
  small : p.1.script.length < 2^62
  keys : ∀ script s keys, Id.hexDecode p.1.script = .ok script → parse script = .ok s → p.2.keys = some keys →
    RightKeys E s p.2.redeemScript p.2.compressed keys
  type : p.2.sigHashType < 256
  same : ∀ script s, Id.hexDecode p.1.script = .ok script → parse script = .ok s → s.kind = .p2wpkh ∨ s.kind = .p2wsh →
    SameClass t0 p.2.sigHashType

/-- the call of SignIndex made for a group -/
def callFor (q : Builder.Group κ × Nat) : SignCall κ := ⟨q.2, q.1.compressed, q.1.sigHashType, q.1.keys.getD []⟩

theorem signAll_calls (E : Ecdsa κ) (gs : List (Builder.Group κ)) : ∀ (n : Nat) (tx : Transaction) {tx' : Transaction},
    Builder.signAll E gs n tx = .ok tx' → signAll E tx ((gs.zipIdx n).map callFor) = .ok tx' ∧ ∀ g ∈ gs, g.keys ≠ none := by
  induction gs with
  | nil => intro n tx tx' h; exact ⟨h, by simp⟩
  | cons g gs ih =>
    intro n tx tx' h
    simp only [Builder.signAll] at h
    cases hk : g.keys with
    | none => rw [hk] at h; cases h
    | some keys =>
      rw [hk] at h
      dsimp only at h
      obtain ⟨tx1, h1, h⟩ := Res.bind_eq_ok.mp h
      obtain ⟨e, hs⟩ := ih _ _ h
      refine ⟨?_, ?_⟩
      · rw [List.zipIdx_cons, List.map_cons]
        unfold signAll
        rw [show (callFor (g, n)).keys = keys by simp [callFor, hk]]
        change signIndex E tx n g.compressed g.sigHashType keys >>= _ = _
        rw [h1, Res.ok_bind, e]
      · intro g' hg'
        rcases List.mem_cons.mp hg' with rfl | hg'
        · rw [hk]; simp
        · exact hs g' hg'

omit [Hashes] in
theorem hexDecode_length : ∀ (n : ℕ) (s r : Bytes), s.length ≤ n → Id.hexDecode s = .ok r → r.length ≤ s.length := by
  intro n
  induction n with
  | zero => intro s r hs e; cases s with
    | nil => cases e; simp
    | cons => simp at hs
  | succ n ih =>
    intro s r hs e
    match s, e with
    | [], e => cases e; simp
    | [_], e => cases e
    | a :: c :: rest, e =>
      unfold Id.hexDecode at e
      split at e
      · obtain ⟨r', e', e⟩ := Res.bind_eq_ok.mp e
        cases e
        have := ih rest r' (by simp at hs; omega) e'
        simp; omega
      · cases e

theorem inputFor_coin {p : Coin × Builder.Group κ} {i : TxIn} (h : InputFor p i) (hl : p.1.script.length < 2^62) :
    FromCoin i ∧ i.redeemScript = p.2.redeemScript ∧ Id.hexDecode p.1.script = .ok i.rawLockingScript ∧
      (i.hasWitness = true → ∃ s, parse i.rawLockingScript = .ok s ∧ (s.kind = .p2wpkh ∨ s.kind = .p2wsh)) := by
  obtain ⟨_, _, _, h4, h5⟩ := C47_input_is_coin p i h hl
  obtain ⟨txid, script, e1, e2, h⟩ := h
  have hlen := hexDecode_length _ _ _ (le_refl _) e2
  rw [h4] at e2
  cases e2
  refine ⟨⟨txid, p.1.n, p.1.value, i.rawLockingScript, by omega, by rw [h5]; exact h⟩, h5, h4, ?_⟩
  intro hw
  unfold newTxIn at h
  obtain ⟨s, hs, h⟩ := Res.bind_eq_ok.mp h
  refine ⟨s, hs, ?_⟩
  cases h
  change (witnessScriptCode s p.2.redeemScript).isSome = true at hw
  unfold witnessScriptCode at hw
  cases hk : s.kind <;> rw [hk] at hw <;> simp at hw ⊢

omit [Hashes] in
theorem forall₂_get {α β : Type} {R : α → β → Prop} {l : List α} {m : List β} (h : List.Forall₂ R l m) : ∀ {n : ℕ} {a : α} {b : β},
    l[n]? = some a → m[n]? = some b → R a b := by
  induction h with
  | nil => intro n a b h; simp at h
  | cons h1 _ ih =>
    intro n a b ha hb
    cases n with
    | zero => simp at ha hb; subst ha; subst hb; exact h1
    | succ n => simp at ha hb; exact ih ha hb

/-- What building with signing amounts to: calls of SignIndex with the hypotheses of C43. -/
theorem built_calls {E : Ecdsa κ} {b : Settings κ} {t0 : UInt32} (hs : b.sign = true) (he : ∀ p ∈ spends b, Entitled E t0 p)
    {tx : Transaction} (h : build E b = .ok tx) : ∃ (tx0 : Transaction) (calls : List (SignCall κ)),
      tx0.hashPrevouts = none ∧ tx0.hashSequence = none ∧ tx0.hashOutputs = none ∧
      List.Forall₂ InputFor (spends b) tx0.inputs ∧ (∀ i ∈ tx0.inputs, FromCoin i) ∧
      (∀ idx < tx0.inputs.length, ∃ c ∈ calls, c.idx = idx) ∧
      (∀ c ∈ calls, ∀ i s, tx0.inputs[c.idx]? = some i → parse i.rawLockingScript = .ok s →
        RightKeys E s i.redeemScript c.compressed c.keys) ∧
      (∀ c ∈ calls, c.hashType < 256) ∧
      (∀ c ∈ calls, ∀ i, tx0.inputs[c.idx]? = some i → i.hasWitness = true → SameClass t0 c.hashType) ∧
      signAll E tx0 calls = .ok tx := by
  obtain ⟨ins, change, f, _, _, _, _, _, _, h⟩ := build_ok.mp h
  rw [if_pos hs] at h
  obtain ⟨hsg, hne⟩ := signAll_calls E _ _ _ h
  have get : ∀ c ∈ (((spends b).map (·.2)).zipIdx 0).map callFor, ∃ p, p ∈ spends b ∧ (spends b)[c.idx]? = some p ∧
      c = callFor (p.2, c.idx) := by
    intro c hc
    obtain ⟨⟨g, n⟩, hq, rfl⟩ := List.mem_map.mp hc
    have hq := List.mem_zipIdx_iff_getElem?.mp hq
    simp only [List.getElem?_map] at hq
    cases hp : (spends b)[n]? with
    | none => rw [hp] at hq; cases hq
    | some p =>
      rw [hp] at hq
      simp only [Option.map_some, Option.some.injEq] at hq
      exact ⟨p, List.mem_of_getElem? hp, hp, by rw [← hq]; rfl⟩
  refine ⟨unsigned b ins change, _, rfl, rfl, rfl, f, ?_, ?_, ?_, ?_, ?_, hsg⟩
  · intro i hi
    obtain ⟨n, hn⟩ := List.mem_iff_getElem?.mp hi
    change ins[n]? = some i at hn
    have hlt : n < (spends b).length := by
      rw [f.length_eq]
      by_contra hcc
      rw [List.getElem?_eq_none (by omega)] at hn
      cases hn
    have hp := List.getElem?_eq_getElem hlt
    exact (inputFor_coin (forall₂_get f hp hn) (he _ (List.getElem_mem hlt)).small).1
  · intro idx hidx
    change idx < ins.length at hidx
    rw [← f.length_eq] at hidx
    refine ⟨callFor ((spends b)[idx].2, idx), List.mem_map.mpr ⟨((spends b)[idx].2, idx), ?_, rfl⟩, rfl⟩
    refine List.mem_zipIdx_iff_getElem?.mpr ?_
    simp [hidx]
  · intro c hc i s hi hps
    obtain ⟨p, hp, hn, ec⟩ := get c hc
    obtain ⟨_, i1, i2, _⟩ := inputFor_coin (forall₂_get f hn hi) (he p hp).small
    have hk := hne p.2 (List.mem_map_of_mem hp)
    obtain ⟨keys, hk⟩ := Option.ne_none_iff_exists'.mp hk
    rw [i1, ec]
    have := (he p hp).keys _ s keys i2 hps hk
    simp only [callFor, hk, Option.getD_some]
    exact this
  · intro c hc
    obtain ⟨p, hp, _, ec⟩ := get c hc
    rw [ec]
    exact (he p hp).type
  · intro c hc i hi hw
    obtain ⟨p, hp, hn, ec⟩ := get c hc
    obtain ⟨_, i1, i2, i3⟩ := inputFor_coin (forall₂_get f hn hi) (he p hp).small
    obtain ⟨s, h1, h2⟩ := i3 hw
    rw [ec]
    exact (he p hp).same _ s i2 h1 h2

/-- **C108.** A transaction that the builder built and signed verifies, when every coin comes with the right keys and the hash types
are bytes, those of the witness coins of one class. -/
theorem C108_built_verifies (E : Ecdsa κ) (hE : Lawful E) (b : Settings κ) (t0 : UInt32) (hs : b.sign = true)
    (he : ∀ p ∈ spends b, Entitled E t0 p) (tx : Transaction) (h : build E b = .ok tx) : (verify E tx).1 = .ok () := by
  obtain ⟨tx0, calls, h1, h2, h3, _, hcoin, hall, hkeys, htype, hclass, hsign⟩ := built_calls hs he h
  exact C43_signed_verifies_partial E hE tx0 tx calls t0 h1 h2 h3 hcoin hall hkeys htype hclass hsign

omit [Hashes] in
/-- without SetSigHashType, the group of every coin has type ALL -/
theorem run_types (calls : List (Call κ)) (ht : ∀ t, Call.setSigHashType t ∉ calls) :
    ∀ g ∈ (run calls).groups, g.coin ≠ none → g.sigHashType = 1 := by
  have main : ∀ (cs : List (Call κ)) (b : Settings κ), (∀ t, Call.setSigHashType t ∉ cs) →
      (∀ g ∈ b.groups, g.coin ≠ none → g.sigHashType = 1) → ∀ g ∈ (cs.foldl step b).groups, g.coin ≠ none → g.sigHashType = 1 := by
    intro cs
    induction cs with
    | nil => intro b _ h; exact h
    | cons c cs ih =>
      intro b hcs h
      rw [List.foldl_cons]
      refine ih _ (fun t hm => hcs t (List.mem_cons_of_mem _ hm)) ?_
      have hb : ∀ g ∈ b.before, g.coin ≠ none → g.sigHashType = 1 := fun g hg => h g (List.mem_append_left _ hg)
      have hl : b.group.coin ≠ none → b.group.sigHashType = 1 := h b.group (List.mem_append_right _ (by simp))
      have hfees : ∀ f, ∃ x, step b (.sendFees f) = { b with sendFees := x } := fun f => ⟨_, rfl⟩
      intro g hg hc
      unfold Settings.groups at hg
      rcases List.mem_append.mp hg with hg | hg
      · cases c with
        | sendFees f =>
          obtain ⟨x, hx⟩ := hfees f
          rw [hx] at hg
          exact hb g hg hc
        | setSigHashType t => exact absurd List.mem_cons_self (hcs t)
        | then_ => simp only [step] at hg; exact h g hg hc
        | _ => simp only [step] at hg; exact hb g hg hc
      · rw [List.mem_singleton.mp hg] at hc ⊢
        cases c with
        | sendFees f =>
          obtain ⟨x, hx⟩ := hfees f
          rw [hx] at hc ⊢
          exact hl hc
        | setSigHashType t => exact absurd List.mem_cons_self (hcs t)
        | then_ => simp only [step, Group.empty] at hc; exact absurd rfl hc
        | addCoin c => simp only [step]
        | _ => simp only [step] at hc ⊢; exact hl hc
  refine main calls Builder.new ht ?_
  intro g hg hc
  have e : g = Group.empty := by simpa [Settings.groups, Builder.new] using hg
  rw [e] at hc
  exact absurd rfl hc

omit [Hashes] in
theorem spends_group {b : Settings κ} {p : Coin × Builder.Group κ} (h : p ∈ spends b) : p.2 ∈ b.groups ∧ p.2.coin = some p.1 := by
  unfold spends at h
  obtain ⟨g, hg, h⟩ := List.mem_filterMap.mp h
  cases hc : g.coin with
  | none => rw [hc] at h; cases h
  | some c =>
    rw [hc] at h
    simp only [Option.map_some, Option.some.injEq] at h
    rw [← h]
    exact ⟨hg, hc⟩

omit [Hashes] in
theorem SameClass.rfl' (t : UInt32) : SameClass t t := ⟨Iff.rfl, Iff.rfl, Iff.rfl⟩

/-- **C108**, with secp256k1 ECDSA as implemented and from the calls of the builder's methods: if `Sign` was called, the keys given for
every coin are right, and nobody chose another hash type, a transaction that is built verifies. -/
theorem C108_calls (fuel : ℕ) (calls : List (Call Ecdsa.Key)) (hs : Call.sign ∈ calls) (ht : ∀ t, Call.setSigHashType t ∉ calls)
    (hk : ∀ p ∈ spends (run calls), p.1.script.length < 2^62 ∧ ∀ script s keys, Id.hexDecode p.1.script = .ok script →
      parse script = .ok s → p.2.keys = some keys → RightKeys (Ecdsa.scheme fuel) s p.2.redeemScript p.2.compressed keys)
    (tx : Transaction) (h : build (Ecdsa.scheme fuel) (run calls) = .ok tx) : (verify (Ecdsa.scheme fuel) tx).1 = .ok () := by
  have hsign : (run calls).sign = true := by
    rw [(C47_calls calls).sign, List.any_eq_true]
    exact ⟨_, hs, rfl⟩
  refine C108_built_verifies _ (C86_lawful fuel) (run calls) 1 hsign (fun p hp => ?_) tx h
  obtain ⟨hg, hc⟩ := spends_group hp
  have h1 := run_types calls ht p.2 hg (by rw [hc]; simp)
  refine ⟨(hk p hp).1, fun script s keys => (hk p hp).2 script s keys, ?_, fun _ _ _ _ _ => ?_⟩
  · rw [h1]; decide
  · rw [h1]; exact SameClass.rfl' 1

/-- the receiver's view of a wide enough P2WSH script: a multisig script of at most 16 keys -/
def SmallMultisig (redeem : Option Bytes) : Prop := ∃ (m : Nat) (pubs : List Bytes) (r : Bytes),
  redeem = some r ∧ genMultiSig m pubs = .ok r ∧ m ≤ pubs.length ∧ 1 ≤ pubs.length ∧ pubs.length ≤ 16 ∧ r.length < 2^62 ∧
    ∀ p ∈ pubs, p.length = 33 ∨ p.length = 65

/-- **C108.** It also verifies at the receiver, after serialisation, parsing and SetTxIn with the coins (P2WSH scripts of at most 16
keys). -/
theorem C108_built_wire_verifies (E : Ecdsa κ) (hE : Lawful E) (b : Settings κ) (t0 : UInt32) (hs : b.sign = true)
    (he : ∀ p ∈ spends b, Entitled E t0 p)
    (hw : ∀ p ∈ spends b, ∀ script h, Id.hexDecode p.1.script = .ok script → parse script = .ok ⟨.p2wsh, h⟩ →
      SmallMultisig p.2.redeemScript)
    (tx : Transaction) (h : build E b = .ok tx) (henc : Encodable tx) (hsize : (serialize tx).length < 2^43) :
    ∃ txd tx2, (if hasWitness tx then deserialize Tx.new (serialize tx) else deserializeNoWitness Tx.new (serialize tx)) =
        .ok (txd, []) ∧ supplyCoins tx.inputs 0 txd = .ok tx2 ∧ (verify E tx2).1 = .ok () := by
  obtain ⟨tx0, calls, h1, h2, h3, f, hcoin, hall, hkeys, htype, hclass, hsign⟩ := built_calls hs he h
  refine C84_signed_wire_verifies E hE tx0 tx calls t0 h1 h2 h3 hcoin hall hkeys htype hclass hsign ?_ henc hsize
  intro i hi hash hp
  obtain ⟨n, hn⟩ := List.mem_iff_getElem?.mp hi
  have hlt : n < (spends b).length := by
    rw [f.length_eq]
    by_contra hcc
    rw [List.getElem?_eq_none (by omega)] at hn
    cases hn
  have hm := List.getElem_mem hlt
  obtain ⟨_, e1, e2, _⟩ := inputFor_coin (forall₂_get f (List.getElem?_eq_getElem hlt) hn) (he _ hm).small
  rw [e1]
  exact hw _ hm _ hash e2 hp

/-! ### signing succeeds -/

omit [Hashes] in
theorem foldSig_ok (idx : Nat) : ∀ (l : List (TxIn × Nat)) (b : Buffer),
    (∀ i ∈ l, i.1.redeemScript = none → i.1.finalLockingScript.length < 2^62) → ∃ b', foldRes (writeSigInput idx) b l = .ok b' := by
  intro l
  induction l with
  | nil => intro b _; exact ⟨b, rfl⟩
  | cons i l ih =>
    intro b h
    have h1 : ∃ b', writeSigInput idx b i = .ok b' := by
      unfold writeSigInput
      dsimp only
      split
      · cases hr : i.1.redeemScript with
        | some r => exact ⟨_, rfl⟩
        | none =>
          rw [C20_codeseparator_kept _ (h i List.mem_cons_self hr)]
          exact ⟨_, rfl⟩
      · exact ⟨_, rfl⟩
    obtain ⟨b', h1⟩ := h1
    obtain ⟨c, hc⟩ := ih b' (fun j hj => h j (List.mem_cons_of_mem _ hj))
    exact ⟨c, by simp only [foldRes, h1, Res.ok_bind, hc]⟩

/-- the locking script checked in the end is short -/
theorem finalLocking_length {s : LockScript} (hs : s.hash.length = hashSize s.kind) (r : Option Bytes) :
    (finalLocking s r).length < 2^62 := by
  obtain ⟨k, h⟩ := s
  have key : ∀ k (h : Bytes), h.length = hashSize k → (rawLocking ⟨k, h⟩).length < 2^62 := by
    intro k h hh
    rw [C29_build k h hh]
    cases k <;> simp only [hashSize] at hh <;> simp [standardScript, hh]
  cases k
  · exact key _ _ hs
  · exact key _ _ hs
  · exact key .p2pkh h hs
  · exact key .p2sh _ (hash160_length _)

theorem signOne_ok {E : Ecdsa κ} {tx : Transaction} {idx : ℕ} {t : UInt32} {i : TxIn} {s : LockScript} {key : κ}
    (hi : tx.inputs[idx]? = some i) (hf : ∀ j ∈ tx.inputs, j.finalLockingScript.length < 2^62) (hp : parse i.rawLockingScript = .ok s)
    (hsig : ∀ h : Bytes, h.length = 32 → ∃ sig, E.sign key h = .ok sig) :
    ∃ r, signOne E tx idx t (decide (scriptVersion s = .witnessV0)) key = .ok r := by
  have hlt : ¬ tx.inputs.length ≤ idx := by
    intro h
    rw [List.getElem?_eq_none h] at hi
    cases hi
  unfold signOne
  cases hv : scriptVersion s with
  | base =>
    rw [show decide (Version.base = .witnessV0) = false from rfl]
    simp only [Bool.false_eq_true, if_false]
    have hraw : ∃ p, rawSignatureHash tx idx t = .ok (sha256d p) := by
      unfold rawSignatureHash rawPreimage
      dsimp only
      split
      · unfold writeSigAll
        obtain ⟨b, hb⟩ := foldSig_ok idx tx.inputs.zipIdx ((Buffer.new.writeU32 tx.version).writeVarInt (UInt64.ofNat tx.inputs.length))
          (fun j hj _ => hf j.1 (by
            obtain ⟨n, hn⟩ := List.mem_iff_getElem?.mp hj
            rw [List.getElem?_zipIdx] at hn
            cases hx : tx.inputs[n]? with
            | none => rw [hx] at hn; cases hn
            | some x =>
              rw [hx] at hn
              simp only [Option.map_some, Option.some.injEq] at hn
              rw [← hn]
              exact List.mem_of_getElem? hx))
        rw [hb]
        exact ⟨_, rfl⟩
      · exact ⟨_, rfl⟩
    obtain ⟨d, hd⟩ := hraw
    obtain ⟨sig, hs⟩ := hsig (sha256d d) (sha256d_length d)
    unfold rawSignature
    rw [if_neg hlt, hd, Res.ok_bind, hs]
    exact ⟨_, rfl⟩
  | witnessV0 =>
    rw [show decide (Version.witnessV0 = .witnessV0) = true from rfl]
    simp only [if_true]
    unfold witnessSignature
    rw [if_neg hlt, hi, show Res.ofIdx (some i) = .ok i from rfl, Res.ok_bind, hp, Res.ok_bind, hv]
    dsimp only
    unfold witnessSignatureHash
    rw [hi, show Res.ofIdx (some i) = .ok i from rfl, Res.ok_bind]
    dsimp only
    obtain ⟨sig, hs⟩ := hsig (sha256d (witnessPreimage (updateCaches tx t) i t)) (sha256d_length _)
    refine ⟨(sig ++ [t.toUInt8], updateCaches tx t), ?_⟩
    change (E.sign key _ >>= _) = _
    rw [hs]
    rfl

theorem signKeys_ok {E : Ecdsa κ} {idx : ℕ} {t : UInt32} {c : Bool} {i : TxIn} {s : LockScript} (hp : parse i.rawLockingScript = .ok s)
    (keys : List κ) : ∀ (tx : Transaction), tx.inputs[idx]? = some i → (∀ j ∈ tx.inputs, j.finalLockingScript.length < 2^62) →
    (∀ k ∈ keys, ∀ h : Bytes, h.length = 32 → ∃ sig, E.sign k h = .ok sig) →
    ∃ signs tx', signKeys E idx c t (decide (scriptVersion s = .witnessV0)) keys tx = .ok (signs, tx') ∧ tx'.inputs = tx.inputs ∧
      signs.length = keys.length := by
  induction keys with
  | nil => intro tx _ _ _; exact ⟨[], tx, rfl, rfl, rfl⟩
  | cons k keys ih =>
    intro tx hi hf hsig
    obtain ⟨⟨g, tx1⟩, h1⟩ := signOne_ok (t := t) hi hf hp (hsig k List.mem_cons_self)
    have e1 := (signOne_frozen h1).2
    obtain ⟨signs, tx2, h2, e2, l⟩ := ih tx1 (by rw [e1]; exact hi) (by rw [e1]; exact hf)
      (fun k' hk' => hsig k' (List.mem_cons_of_mem _ hk'))
    refine ⟨⟨E.pub k c, g⟩ :: signs, tx2, ?_, e2.trans e1, by simp [l]⟩
    simp only [signKeys, h1, Res.ok_bind, h2]
    rfl

/-- SignIndex succeeds with the right keys, if there is a redeem script or one key. -/
theorem signIndex_ok {E : Ecdsa κ} {tx : Transaction} {idx : ℕ} {c : Bool} {t : UInt32} {keys : List κ} {i i0 : TxIn}
    (hi : tx.inputs[idx]? = some i) (hb : bare i = bare i0) (hcoin : FromCoin i0)
    (hf : ∀ j ∈ tx.inputs, j.finalLockingScript.length < 2^62)
    (hr : ∀ s, parse i0.rawLockingScript = .ok s → RightKeys E s i0.redeemScript c keys)
    (hsig : ∀ k ∈ keys, ∀ h : Bytes, h.length = 32 → ∃ sig, E.sign k h = .ok sig) (hone : keys.length ≤ 1 ∨ i0.redeemScript ≠ none) :
    ∃ tx', signIndex E tx idx c t keys = .ok tx' := by
  obtain ⟨s, hsz, hp0, hf0, hw0, hl0⟩ := fromCoin_fields hcoin
  have hr := hr s hp0
  obtain ⟨b1, b2, b3, b4⟩ := bare_fields hb
  rw [← b2] at hp0
  have hwit : i.hasWitness = decide (scriptVersion s = .witnessV0) := by
    unfold TxIn.hasWitness
    rw [b4, hw0]
    unfold RightKeys at hr
    unfold witnessScriptCode scriptVersion
    cases hk : s.kind <;> rw [hk] at hr <;> first | rfl | (obtain ⟨r, hr, _⟩ := hr; rw [hr]; rfl)
  obtain ⟨signs, tx1, h1, e1, l⟩ := signKeys_ok (E := E) (idx := idx) (t := t) (c := c) hp0 keys tx hi hf hsig
  have hno : ¬ (keys.length > 1 ∧ i.redeemScript = none) := by
    rw [b1]
    rintro ⟨q1, q2⟩
    rcases hone with q | q
    · omega
    · exact q q2
  unfold signIndex
  rw [hi, show Res.ofIdx (some i) = .ok i from rfl, Res.ok_bind, if_neg hno, hwit, h1, Res.ok_bind]
  dsimp only
  unfold embed
  rw [e1, hi, show Res.ofIdx (some i) = .ok i from rfl, Res.ok_bind, if_neg (by rw [l]; exact hno), hp0, Res.ok_bind]
  have hne : s.kind = .p2pkh ∨ s.kind = .p2wpkh → ∃ g gs, signs = g :: gs := by
    intro hk
    unfold RightKeys at hr
    obtain ⟨k, rest, e, _⟩ : ∃ k rest, keys = k :: rest ∧ hash160 (E.pub k c) = s.hash := by
      rcases hk with hk | hk <;> rw [hk] at hr <;> exact hr
    rw [e] at l
    cases signs with
    | nil => simp at l
    | cons g gs => exact ⟨g, gs, rfl⟩
  obtain ⟨kind, hash⟩ := s
  cases kind
  · obtain ⟨g, gs, rfl⟩ := hne (Or.inl rfl)
    exact ⟨_, rfl⟩
  · exact ⟨_, rfl⟩
  · obtain ⟨g, gs, rfl⟩ := hne (Or.inr rfl)
    exact ⟨_, rfl⟩
  · obtain ⟨r, er, hh, _⟩ := hr
    rw [← b1] at er
    unfold rawUnlocking witnessUnlocking
    dsimp only
    rw [er, Option.getD_some, if_neg (by rw [hh]; simp)]
    dsimp only
    rw [if_neg (by rw [hh]; simp)]
    exact ⟨_, rfl⟩

/-- **C108.** Signing refuses nothing: when every coin comes with the right keys (more than one only with a redeem script) and the
keys sign, the builder with `Sign` builds a transaction exactly when it does without. -/
theorem C108_signing_succeeds (E : Ecdsa κ) (b : Settings κ) (t0 : UInt32) (he : ∀ p ∈ spends b, Entitled E t0 p)
    (hk : ∀ p ∈ spends b, ∃ keys, p.2.keys = some keys ∧ (keys.length ≤ 1 ∨ p.2.redeemScript ≠ none) ∧
      ∀ k ∈ keys, ∀ h : Bytes, h.length = 32 → ∃ sig, E.sign k h = .ok sig) :
    (∃ tx, build E { b with sign := true } = .ok tx) ↔ ∃ tx, build E { b with sign := false } = .ok tx := by
  constructor
  · rintro ⟨tx, h⟩
    obtain ⟨ins, change, f, n1, n2, n3, n4, n5, n6, _⟩ := build_ok.mp h
    exact ⟨_, build_ok.mpr ⟨ins, change, f, n1, n2, n3, n4, n5, n6, rfl⟩⟩
  · rintro ⟨tx, h⟩
    obtain ⟨ins, change, f, n1, n2, n3, n4, n5, n6, _⟩ := build_ok.mp h
    suffices hs : ∃ tx, Builder.signAll E ((spends b).map (·.2)) 0 (unsigned b ins change) = .ok tx by
      obtain ⟨tx, hs⟩ := hs
      exact ⟨tx, build_ok.mpr ⟨ins, change, f, n1, n2, n3, n4, n5, n6, hs⟩⟩
    have f : List.Forall₂ InputFor (spends b) ins := f
    have main : ∀ (l done : List (Coin × Builder.Group κ)) (txa : Transaction), spends b = done ++ l →
        Frozen (unsigned b ins change) txa → ∃ tx, Builder.signAll E (l.map (·.2)) done.length txa = .ok tx := by
      intro l
      induction l with
      | nil => intro done txa _ _; exact ⟨txa, rfl⟩
      | cons p l ih =>
        intro done txa hsp hfr
        have hp : p ∈ spends b := by rw [hsp]; simp
        have hpn : (spends b)[done.length]? = some p := by rw [hsp]; simp
        obtain ⟨keys, k1, k2, k3⟩ := hk p hp
        have hlt : done.length < ins.length := by
          rw [← f.length_eq, hsp]; simp
        have hi0 : (unsigned b ins change).inputs[done.length]? = some ins[done.length] := List.getElem?_eq_getElem hlt
        have hlt' : done.length < txa.inputs.length := by rw [hfr.length]; exact hlt
        have hi : txa.inputs[done.length]? = some txa.inputs[done.length] := List.getElem?_eq_getElem hlt'
        obtain ⟨i0, e0, hb⟩ := hfr.get hi
        rw [hi0] at e0
        cases e0
        obtain ⟨c1, c2, c3, _⟩ := inputFor_coin (forall₂_get f hpn hi0) (he p hp).small
        have hshort : ∀ j ∈ txa.inputs, j.finalLockingScript.length < 2^62 := by
          intro j hj
          obtain ⟨n, hn⟩ := List.mem_iff_getElem?.mp hj
          obtain ⟨j0, ej, hbj⟩ := hfr.get hn
          change ins[n]? = some j0 at ej
          have hln : n < (spends b).length := by
            rw [f.length_eq]
            by_contra hcc
            rw [List.getElem?_eq_none (by omega)] at ej
            cases ej
          obtain ⟨d1, _⟩ := inputFor_coin (forall₂_get f (List.getElem?_eq_getElem hln) ej) (he _ (List.getElem_mem hln)).small
          obtain ⟨s, q1, _, q2, _⟩ := fromCoin_fields d1
          rw [(bare_fields hbj).2.2.1, q2]
          exact finalLocking_length q1 _
        obtain ⟨tx1, h1⟩ := signIndex_ok (E := E) (c := p.2.compressed) (t := p.2.sigHashType) (keys := keys) hi hb c1 hshort
          (fun s hs => by rw [c2]; exact (he p hp).keys _ s keys c3 hs k1) k3 (by rw [c2]; exact k2)
        obtain ⟨tx2, h2⟩ := ih (done ++ [p]) tx1 (by rw [hsp]; simp) (Frozen.trans' hfr (signIndex_frozen h1))
        refine ⟨tx2, ?_⟩
        rw [List.map_cons]
        unfold Builder.signAll
        rw [k1]
        dsimp only
        rw [h1, Res.ok_bind]
        rw [List.length_append, List.length_singleton] at h2
        exact h2
    exact main (spends b) [] _ rfl (Frozen.refl _)

end

/-! ### an example -/

/-- two coins of key 7, one P2PKH with the uncompressed key and one P2WPKH, spent to another address with change -/
def builtCalls : List (Call UInt8) :=
  let script k c := Id.hexEncode (standardScript k (@hash160 modHashes (toyEcdsa.pub 7 c)))
  [.addCoin (some ⟨List.replicate 64 0x31, 0, 5000, script .p2pkh false⟩), .addKeys (some [7]), .setPubKeyUncompressed, .then_,
   .addCoin (some ⟨List.replicate 64 0x32, 3, 7000, script .p2wpkh true⟩), .addKeys (some [7]), .to (some exAddr) 6000, .then_,
   .setChange (some exAddr), .sendFees 500, .sign]

example : (@build _ modHashes toyEcdsa (run builtCalls)).bind (fun tx => (@verify _ modHashes toyEcdsa tx).1) = .ok () := by
  decide +kernel

/-- The coins have the right keys. -/
example : ∀ p ∈ spends (run builtCalls), @Entitled _ modHashes toyEcdsa 1 p := by
  have e : ∀ p ∈ spends (run builtCalls), p.1.script.length < 2^62 ∧ p.2.sigHashType = 1 ∧ p.2.keys = some [7] ∧ ∃ s,
      (Id.hexDecode p.1.script).bind parse = .ok s ∧ (s.kind = .p2pkh ∨ s.kind = .p2wpkh) ∧
        @hash160 modHashes (toyEcdsa.pub 7 p.2.compressed) = s.hash := by
    have h : ((spends (run builtCalls)).all fun p => decide (p.1.script.length < 2^62) && decide (p.2.sigHashType = 1) &&
        decide (p.2.keys = some [7]) && match (Id.hexDecode p.1.script).bind parse with
          | .ok s => decide (s.kind = .p2pkh ∨ s.kind = .p2wpkh) &&
            decide (@hash160 modHashes (toyEcdsa.pub 7 p.2.compressed) = s.hash)
          | _ => false) = true := by decide +kernel
    intro p hp
    have h := List.all_eq_true.mp h p hp
    simp only [Bool.and_eq_true, decide_eq_true_eq] at h
    refine ⟨h.1.1.1, h.1.1.2, h.1.2, ?_⟩
    have h := h.2
    split at h
    · rename_i s hs
      simp only [Bool.and_eq_true, decide_eq_true_eq] at h
      exact ⟨s, hs, h.1, h.2⟩
    · cases h
  intro p hp
  obtain ⟨h1, h2, h3, s, h4, h5, h6⟩ := e p hp
  have key : ∀ script s', Id.hexDecode p.1.script = .ok script → parse script = .ok s' → s' = s := by
    intro script s' e1 e2
    rw [e1] at h4
    change parse script = _ at h4
    rw [e2] at h4
    exact Res.ok.inj h4
  refine @Entitled.mk _ modHashes _ _ _ h1 ?_ (by rw [h2]; decide) (fun _ _ _ _ _ => by rw [h2]; exact SameClass.rfl' 1)
  intro script s' keys e1 e2 e3
  rw [key script s' e1 e2]
  rw [h3] at e3
  cases e3
  obtain ⟨kind, hash⟩ := s
  dsimp only at h5 h6
  rcases h5 with rfl | rfl <;> exact ⟨7, [], rfl, h6⟩

end Toku.Props
