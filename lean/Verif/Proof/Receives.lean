import Verif.Proof.Invalid
import Verif.Props.Received
import Verif.Props.Validity
/-
A transaction as Bitcoin sees it, received by the library: what it is after parsing and SetTxIn, and when an input that spends a P2PKH
or P2WPKH coin is accepted by the library and by Bitcoin.
-/
namespace Toku.Props
open Toku Toku.Spec Toku.Script Toku.Locking Toku.Tx Toku.Curve Toku.Keys Toku.VM
open Toku.Spec.Bitcoin (In BTx Rules Bip66 Positive checkSig legacyCheck legacyHash IsWitnessProgram ValidInput consensus VerifyLegacy
  VerifyP2WPKH EvalScript Eval ofBool isCond Truthy)

/-! ### Signatures -/

/-- Bitcoin accepts what the library accepts for the same hash, if the signature is of the form of BIP66 and the key does not have the
prefix 5. -/
theorem check_of_verify {hash : UInt32 → Bytes} {der key r s : Bytes} {t : UInt8} (hb : Bip66 (der ++ [t]) r s t)
    (h5 : ∀ rest, key ≠ 5 :: rest) (h : Ecdsa.verifyBytes (hash t.toUInt32) der key = .ok ()) :
    checkSig hash (der ++ [t]) key = some true := by
  unfold checkSig
  rw [if_neg (by simp), if_pos ⟨r, s, t, hb⟩]
  have : ∀ {p : Prop} (hp : p), some (@decide p (Classical.propDecidable p)) = some true := fun hp => by simp [hp]
  refine this ?_
  unfold Ecdsa.verifyBytes at h
  obtain ⟨k, hk, h⟩ := Res.bind_eq_ok.mp h
  obtain ⟨_, _, _, q, hq, rfl, hs⟩ := C60_accepted_partial key k hk
  obtain ⟨r', s', hu, hsig⟩ := (C62_ecdsaVerify q _ der).mp h
  obtain ⟨_, hder, hl⟩ := der_of_bip66 hb
  have e := (C65_marshal _ _ der (by omega)).mp hder
  have h31 : (Der.marshal (beNat r : ℤ) (beNat s : ℤ)).length < 2 ^ 31 := by rw [← e]; omega
  rw [e, C65_round_trip _ _ h31] at hu
  cases hu
  refine ⟨r, s, t, q, hb, hq, ?_, hsig⟩
  rcases hs with h | h | h | ⟨rest, h, _⟩
  · exact Or.inl h
  · exact Or.inr (Or.inl h)
  · exact Or.inr (Or.inr h)
  · exact absurd h (h5 rest)

/-- A key under which a signature is valid has 33 or 65 bytes. -/
theorem check_key {hash : UInt32 → Bytes} {sig key : Bytes} (h : checkSig hash sig key = some true) : key.length = 33 ∨ key.length = 65 := by
  unfold checkSig at h
  split at h
  · cases h
  split at h
  · have h := @of_decide_eq_true _ (Classical.propDecidable _) (Option.some.inj h)
    obtain ⟨_, _, _, q, _, _, hk, _⟩ := h
    rcases hk with ⟨xb, hx, rfl⟩ | ⟨xb, yb, hx, hy, rfl⟩ | ⟨xb, yb, hx, hy, rfl⟩
    · simp [hx.1]
    · simp [hx.1, hy.1]
    · simp [hx.1, hy.1]
  · cases h

/-- The push of a string of 2 to 75 bytes: its length and the string. -/
theorem pushToken_direct {d : Bytes} (h2 : 2 ≤ d.length) (h75 : d.length ≤ 75) :
    (VM.pushToken d).enc = [UInt8.ofNat d.length] ++ d ∧ pushed d = d := by
  have ne : ∀ x : UInt8, d ≠ [x] := fun x e => by rw [e] at h2; simp at h2
  have hn : (UInt8.ofNat d.length).toNat = d.length := by rw [UInt8.toNat_ofNat']; omega
  constructor
  · have : VM.pushToken d = ⟨UInt8.ofNat d.length, d⟩ := by
      unfold VM.pushToken
      split_ifs <;> first | rfl | omega
    rw [this]
    unfold Token.enc lenWidth
    dsimp only
    rw [if_neg, if_neg, if_neg]
    · simp [leBytes]
    all_goals (intro e; rw [e] at hn; have : ∀ a b : ℕ, a = b → 75 < a → b ≤ 75 → False := by omega
               exact this _ _ hn (by decide) h75)
  · unfold pushed
    split_ifs with h
    · exact absurd h (ne _)
    · rfl

section
variable [Hashes]

/-! ### Bitcoin -/

/-- A P2PKH coin is spent by a signature and a key. -/
theorem p2pkh_spent {tx : BTx} {idx : ℕ} {i : In} {v : UInt64} {p sig key : Bytes} (hp : p.length = 20)
    (hi : tx.ins[idx]? = some i) (hw : i.witness = []) (hs : 2 ≤ sig.length ∧ sig.length ≤ 75) (hk : 33 ≤ key.length ∧ key.length ≤ 65)
    (he : i.scriptSig = [UInt8.ofNat sig.length] ++ sig ++ [UInt8.ofNat key.length] ++ key) (hne : sig ≠ p)
    (hh : hash160 key = p) (hc : checkSig (legacyHash tx idx (standardScript .p2pkh p)) sig key = some true) :
    ValidInput tx idx ⟨v, standardScript .p2pkh p⟩ := by
  have hnot : (⟨UInt8.ofNat sig.length, sig⟩ : Token) ∉ standardTokens .p2pkh p := by
    intro hm
    have hne' : sig ≠ [] := fun e => by rw [e] at hs; simp at hs
    simp only [standardTokens, List.mem_cons, List.not_mem_nil, or_false, Token.mk.injEq, hne', and_false, false_or] at hm
    exact hne hm.2
  have hok : legacyCheck tx idx (standardTokens .p2pkh p) sig key = some true := by
    unfold legacyCheck
    rw [if_neg hnot, standard_enc]
    exact hc
  subst hh
  obtain ⟨⟨u, hv, he', hu'⟩, hl⟩ := p2pkh_spend ⟨key, sig⟩ hk hs hok
  refine ⟨i, hi, Or.inl ⟨?_, hw, u, standardTokens .p2pkh (hash160 key), ?_, ?_, ?_, ?_⟩⟩
  · change ¬ IsWitnessProgram (standardScript .p2pkh (hash160 key))
    rw [← standard_enc]
    exact not_program (standard_valid hp) (by rw [standard_enc]; exact standard_short .p2pkh _ hp) (by simp [standardTokens])
  · intro t ht
    rcases List.mem_append.mp ht with ht | ht
    · exact hv t ht
    · exact standard_valid hp t ht
  · rw [he, ← he', VM.addData_data _ _ (by dsimp only; omega), VM.addData_data _ _ (by dsimp only; omega)]
    dsimp only
    rw [(pushToken_direct hs.1 hs.2).1, (pushToken_direct (d := key) (by omega) (by omega)).1]
    simp [Buffer.new]
  · rw [standard_enc]
  · refine ⟨_, _, _, hu' _, hl, truthy_one, ?_⟩
    rintro ⟨_, _, e⟩
    cases e

/-- A P2WPKH coin is spent by a signature and a key. -/
theorem p2wpkh_spent {tx : BTx} {idx : ℕ} {i : In} {v : UInt64} {p sig key : Bytes} (hp : p.length = 20)
    (hi : tx.ins[idx]? = some i) (hw : i.witness = [sig, key]) (hs : 2 ≤ sig.length ∧ sig.length ≤ 75) (hk : 33 ≤ key.length ∧ key.length ≤ 65)
    (he : i.scriptSig = [])
    (hh : hash160 key = p) (hc : checkSig (Bitcoin.witnessHash tx idx i v (standardScript .p2pkh p)) sig key = some true) :
    ValidInput tx idx ⟨v, standardScript .p2wpkh p⟩ := by
  subst hh
  obtain ⟨_, hl⟩ := p2pkh_spend ⟨key, sig⟩ hk hs hc
  exact ⟨i, hi, Or.inr (Or.inl ⟨hash160 key, hp, rfl, he, sig, key, [1], hw, fun _ => ⟨by omega, by omega⟩, hl, truthy_one⟩)⟩

/-! ### What is received -/

/-- An input that was parsed. -/
def inOf (i : In) : TxIn := { TxIn.empty with hash := i.prev, index := i.index, rawUnlockingScript := i.scriptSig, sequence := i.sequence, witness := i.witness }

/-- A transaction that was parsed. -/
def txOf (b : BTx) : Transaction :=
  { Tx.new with version := b.version, lockTime := b.lockTime, inputs := b.ins.map inOf, outputs := b.outs }

/-- What SetTxIn is called with for a coin. -/
def coinIn (c : TxOut) : TxIn := { TxIn.empty with value := c.value, rawLockingScript := c.script }

omit [Hashes] in
theorem txOf_segwit (b : BTx) (h : b.ins.any (fun i => !i.witness.isEmpty) = true) : wireSegwit (txOf b) = b.bytes := by
  unfold wireSegwit BTx.bytes
  rw [if_pos h]
  simp only [txOf, counted, List.length_map, List.flatMap_map]
  rfl

omit [Hashes] in
theorem txOf_legacy (b : BTx) (h : ¬ b.ins.any (fun i => !i.witness.isEmpty) = true) : wireLegacy (txOf b) = b.bytes := by
  unfold wireLegacy BTx.bytes
  rw [if_neg h]
  simp only [txOf, counted, List.length_map, List.flatMap_map]
  rfl

/-- SetTxIn for all inputs: it succeeds if every coin is a standard one and there are witness items enough. -/
theorem supplyCoins_ok (cs : List TxIn) : ∀ (n : ℕ) (tx : Transaction),
    (∀ j c, cs[j]? = some c → ∃ i s un, tx.inputs[n + j]? = some i ∧ parse c.rawLockingScript = .ok s ∧ witnessToUnlocking s i.witness = .ok un) →
    ∃ tx', supplyCoins cs n tx = .ok tx' ∧ tx'.version = tx.version ∧ tx'.lockTime = tx.lockTime ∧ tx'.outputs = tx.outputs ∧
      tx'.hashPrevouts = tx.hashPrevouts ∧ tx'.hashSequence = tx.hashSequence ∧ tx'.hashOutputs = tx.hashOutputs ∧
      tx'.inputs.length = tx.inputs.length := by
  induction cs with
  | nil => intro n tx _; exact ⟨tx, rfl, rfl, rfl, rfl, rfl, rfl, rfl, rfl⟩
  | cons c cs ih =>
    intro n tx h
    obtain ⟨i, s, un, hi, hp, hu⟩ := h 0 c rfl
    rw [Nat.add_zero] at hi
    have e1 : setTxIn tx n c.value c.rawLockingScript c.redeemScript = .ok (putInput tx n { i with
        rawUnlockingScript := un.getD i.rawUnlockingScript, value := c.value, redeemScript := c.redeemScript,
        witnessScriptCode := witnessScriptCode s c.redeemScript, rawLockingScript := rawLocking s,
        finalLockingScript := finalLocking s c.redeemScript }) := by
      unfold setTxIn
      rw [hi, show Res.ofIdx (some i) = .ok i from rfl, Res.ok_bind, hp, Res.ok_bind, hu, Res.ok_bind]
      rfl
    obtain ⟨tx', e2, a1, a2, a3, a4, a5, a6, a7⟩ := ih (n + 1) (putInput tx n { i with
        rawUnlockingScript := un.getD i.rawUnlockingScript, value := c.value, redeemScript := c.redeemScript,
        witnessScriptCode := witnessScriptCode s c.redeemScript, rawLockingScript := rawLocking s,
        finalLockingScript := finalLocking s c.redeemScript }) (by
      intro j d hd
      obtain ⟨i', s', un', hi', hp', hu'⟩ := h (j + 1) d hd
      refine ⟨i', s', un', ?_, hp', hu'⟩
      unfold putInput
      dsimp only
      rw [List.getElem?_set_ne (by omega), ← hi']
      congr 1
      omega)
    refine ⟨tx', ?_, a1, a2, a3, a4, a5, a6, ?_⟩
    · simp only [supplyCoins]
      rw [e1, Res.ok_bind]
      exact e2
    · rw [a7]
      simp [putInput]

end

end Toku.Props
