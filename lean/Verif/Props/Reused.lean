import Verif.Proof.VMSLock
import Verif.Props.Spend
/-
Property C114: transactions read into an object that was used before.
-/
namespace Toku.Props
open Toku Toku.Spec Toku.VM Toku.Locking Toku.Script Toku.Tx

/-- `tx` with the digest caches of `o`. -/
def withCaches (tx o : Transaction) : Transaction :=
  { tx with hashPrevouts := o.hashPrevouts, hashSequence := o.hashSequence, hashOutputs := o.hashOutputs }

/-! ### what Deserialize takes over from the object -/

private theorem readMany_length {α : Type} {rd : Buffer → Res (α × Buffer)} (n : ℕ) : ∀ {b : Buffer} {l : List α} {b' : Buffer},
    readMany rd n b = .ok (l, b') → l.length = n := by
  induction n with
  | zero => intro b l b' h; cases h; rfl
  | succ n ih =>
    intro b l b' h
    simp only [readMany] at h
    rw [Res.bind_eq_ok] at h
    obtain ⟨⟨x, b1⟩, _, h⟩ := h
    rw [Res.bind_eq_ok] at h
    obtain ⟨⟨xs, b2⟩, h2, h⟩ := h
    cases h
    rw [List.length_cons, ih h2]

/-- a list that was read, or the old one if it was empty -/
def orOld {α : Type} (l old : List α) : List α := if l.isEmpty then old else l

private theorem readCounted_old {α : Type} {size : ℕ} {rd : Buffer → Res (α × Buffer)} {b b' : Buffer} {l : List α}
    (h : readCounted size rd [] b = .ok (l, b')) (old : List α) : readCounted size rd old b = .ok (orOld l old, b') := by
  unfold readCounted at h ⊢
  rw [Res.bind_eq_ok] at h
  obtain ⟨⟨n, b1⟩, h1, h⟩ := h
  rw [h1, Res.ok_bind]
  dsimp only at h ⊢
  split_ifs at h ⊢ with c1
  · cases h; rfl
  · rw [h]
    have := readMany_length _ h
    cases l with
    | nil => exact absurd this.symm c1
    | cons x l => rfl

/-- **C114.** What Deserialize into a used object gives: where reading the bytes into a new object gives a transaction with
inputs, reading them into any object gives that transaction with the digest caches of the object, and with the outputs of the
object if it has none itself. -/
theorem C114_deserialize (data rest : Bytes) (t : Transaction) (h : deserialize Tx.new data = .ok (t, rest)) (hi : t.inputs ≠ [])
    (o : Transaction) : deserialize o data = .ok (withCaches { t with outputs := orOld t.outputs o.outputs } o, rest) := by
  unfold deserialize at h ⊢
  dsimp only at h ⊢
  rw [Res.bind_eq_ok] at h
  obtain ⟨⟨v, b1⟩, h1, h⟩ := h
  rw [h1, Res.ok_bind]
  dsimp only at h ⊢
  rw [Res.bind_eq_ok] at h
  obtain ⟨⟨m, b2⟩, h2, h⟩ := h
  rw [h2, Res.ok_bind]
  dsimp only at h ⊢
  split_ifs at h ⊢ with c1
  rw [Res.bind_eq_ok] at h
  obtain ⟨⟨f, b3⟩, h3, h⟩ := h
  rw [h3, Res.ok_bind]
  dsimp only at h ⊢
  split_ifs at h ⊢ with c2
  rw [Res.bind_eq_ok] at h
  obtain ⟨⟨ins, b4⟩, h4, h⟩ := h
  rw [Res.bind_eq_ok] at h
  obtain ⟨⟨outs, b5⟩, h5, h⟩ := h
  rw [Res.bind_eq_ok] at h
  obtain ⟨⟨ins', b6⟩, h6, h⟩ := h
  rw [Res.bind_eq_ok] at h
  obtain ⟨⟨lt, b7⟩, h7, h⟩ := h
  cases h
  have hne : ins ≠ [] := by
    rintro rfl
    cases h6
    exact hi rfl
  rw [readCounted_old h4, Res.ok_bind]
  dsimp only
  rw [readCounted_old h5, Res.ok_bind]
  dsimp only
  rw [show orOld ins o.inputs = ins by unfold orOld; rw [if_neg (by simpa using hne)], h6, Res.ok_bind]
  dsimp only
  rw [h7]
  rfl

/-- **C114.** The same for DeserializeNoWitness, where also the inputs of the object stay if there are none in the bytes. -/
theorem C114_deserializeNoWitness (data rest : Bytes) (t : Transaction) (h : deserializeNoWitness Tx.new data = .ok (t, rest))
    (o : Transaction) : deserializeNoWitness o data =
      .ok (withCaches { t with inputs := orOld t.inputs o.inputs, outputs := orOld t.outputs o.outputs } o, rest) := by
  unfold deserializeNoWitness at h ⊢
  dsimp only at h ⊢
  rw [Res.bind_eq_ok] at h
  obtain ⟨⟨v, b1⟩, h1, h⟩ := h
  rw [h1, Res.ok_bind]
  dsimp only at h ⊢
  rw [Res.bind_eq_ok] at h
  obtain ⟨⟨ins, b4⟩, h4, h⟩ := h
  rw [Res.bind_eq_ok] at h
  obtain ⟨⟨outs, b5⟩, h5, h⟩ := h
  rw [Res.bind_eq_ok] at h
  obtain ⟨⟨lt, b7⟩, h7, h⟩ := h
  cases h
  rw [readCounted_old h4, Res.ok_bind]
  dsimp only
  rw [readCounted_old h5, Res.ok_bind]
  dsimp only
  rw [h7]
  rfl

/-- **C114 (partial).** Full statement: what is read into an object does not depend on the object. Proved for objects without
cached digests and bytes of transactions with inputs and outputs: reading gives the same as with a new object, so that also
every later verdict is the same. -/
theorem C114_partial (o : Transaction) (h1 : o.hashPrevouts = none) (h2 : o.hashSequence = none) (h3 : o.hashOutputs = none)
    (data rest : Bytes) (t : Transaction) (h : deserialize Tx.new data = .ok (t, rest)) (hi : t.inputs ≠ []) (ho : t.outputs ≠ []) :
    deserialize o data = deserialize Tx.new data := by
  have e : ∀ old, orOld t.outputs old = t.outputs := fun old => by unfold orOld; rw [if_neg (by simpa using ho)]
  rw [C114_deserialize data rest t h hi Tx.new, C114_deserialize data rest t h hi o, e, e]
  unfold withCaches
  rw [h1, h2, h3]
  rfl

/-- **C114 (negation).** A transaction without inputs and outputs read into a used object leaves the inputs and outputs that
were there. -/
theorem C114_negation_empty (tx : Transaction) (hi : tx.inputs = []) (ho : tx.outputs = []) (o : Transaction) :
    deserializeNoWitness o (serializeNoWitness tx) = .ok ({ o with version := tx.version, lockTime := tx.lockTime }, []) := by
  have h := deserializeNoWitness_wire (tx := tx) ⟨by simp [hi], by simp [ho], by simp [hi], by simp [hi], by simp [ho], by simp [hi]⟩
    (by unfold wireLegacy counted; simp [hi, ho, Wire.le_length, compactSize])
  rw [serializeNoWitness_eq ⟨by simp [hi], by simp [ho], by simp [hi], by simp [hi], by simp [ho], by simp [hi]⟩,
    C114_deserializeNoWitness _ _ _ h o, hi, ho]
  rfl

example : deserializeNoWitness { Tx.new with outputs := [⟨900, [0x51]⟩], hashOutputs := some [1] } (serializeNoWitness Tx.new) =
    .ok ({ Tx.new with outputs := [⟨900, [0x51]⟩], hashOutputs := some [1] }, []) :=
  C114_negation_empty Tx.new rfl rfl _

section
variable {κ : Type} [Hashes]

/-! ### verdicts that do not depend on the object -/

/-- how Verify turns the result of the engine into its own -/
private def judged (m : VMS.M Transaction State) : VMS.M Transaction Unit := fun tx =>
  match m tx with
  | (.ok _, tx) => (.ok (), tx)
  | (.err _, tx) => (.err errVerifyFailed, tx)
  | (.panic, tx) => (.panic, tx)

private theorem verifyInput_judged {E : Ecdsa κ} {idx : ℕ} {i : TxIn} {s : LockScript} (hp : parse i.rawLockingScript = .ok s) :
    verifyInput E idx i = judged (VMS.verify (engineEnv E idx (scriptVersion s)) i.rawUnlockingScript i.finalLockingScript fresh) := by
  unfold verifyInput
  rw [hp]
  rfl

omit [Hashes] in
private theorem judged_lock {R : Transaction → Transaction → Prop} {Q : Transaction → Prop} {m1 m2 : VMS.M Transaction State}
    (h : VMS.Lock R Q m1 m2) : VMS.Lock R Q (judged m1) (judged m2) := by
  have e1 : ∀ (m : VMS.M Transaction State) s, (judged m s).2 = (m s).2 := by
    intro m s
    unfold judged
    cases m s with
    | mk r t => cases r <;> rfl
  have e2 : ∀ s1 s2, (m1 s1).1 = (m2 s2).1 → (judged m1 s1).1 = (judged m2 s2).1 := by
    intro s1 s2 e
    unfold judged
    cases h1 : m1 s1 with
    | mk r t =>
      cases h2 : m2 s2 with
      | mk r' t' =>
        rw [h1, h2] at e
        dsimp only at e
        subst e
        cases r <;> rfl
  constructor
  · intro s1 s2 hr
    rw [e1, e1]
    rcases h.step s1 s2 hr with ⟨e, hr'⟩ | hq
    · exact .inl ⟨e2 s1 s2 e, hr'⟩
    · exact .inr hq
  · intro s hq
    rw [e1]
    exact h.keep s hq

private theorem verifyInputs_lock (E : Ecdsa κ) {R : Transaction → Transaction → Prop} {Q : Transaction → Prop} (l : List (TxIn × ℕ))
    (hk : ∀ p ∈ l, ∃ s, parse p.1.rawLockingScript = .ok s ∧
      ∀ t, VMS.Lock R Q (sigHashFn p.2 (scriptVersion s) t) (sigHashFn p.2 (scriptVersion s) t)) :
    VMS.Lock R Q (verifyInputs E l) (verifyInputs E l) := by
  induction l with
  | nil => exact VMS.Lock.lift _
  | cons p l ih =>
    refine VMS.Lock.bind (m1 := verifyInput E p.2 p.1) (m2 := verifyInput E p.2 p.1) ?_ fun _ => ih fun q hq => hk q (by simp [hq])
    obtain ⟨s, hp, hs⟩ := hk p (by simp)
    rw [verifyInput_judged hp]
    exact judged_lock (VMS.verify_lock (es := engineEnv E p.2 (scriptVersion s)) hs _ _ _)

private theorem verify_lock {E : Ecdsa κ} {R : Transaction → Transaction → Prop} {a b : Transaction} (hab : R a b)
    (hin : a.inputs = b.inputs)
    (hk : ∀ idx i, a.inputs[idx]? = some i → ∃ s, parse i.rawLockingScript = .ok s ∧
      ∀ t, VMS.Lock R (fun _ => False) (sigHashFn idx (scriptVersion s) t) (sigHashFn idx (scriptVersion s) t)) :
    (verify E a).1 = (verify E b).1 := by
  have h := verifyInputs_lock E (R := R) (Q := fun _ => False) a.inputs.zipIdx (by
    rintro ⟨i, idx⟩ hm
    rw [List.mem_zipIdx_iff_getElem?] at hm
    exact hk idx i hm)
  rcases h.step a b hab with ⟨e, _⟩ | hq
  · unfold Tx.verify
    rw [e, hin]
  · exact hq.elim

omit [Hashes] in
private theorem version_witness {s : LockScript} (h : s.kind = .p2wpkh ∨ s.kind = .p2wsh) : scriptVersion s = .witnessV0 := by
  unfold scriptVersion; rcases h with h | h <;> rw [h]

omit [Hashes] in
private theorem version_base {s : LockScript} (h : s.kind = .p2pkh ∨ s.kind = .p2sh) : scriptVersion s = .base := by
  unfold scriptVersion; rcases h with h | h <;> rw [h]

/-- **C114.** For transactions that spend P2PKH and P2SH coins only, the verdict of Verify does not depend on the digest caches,
so it is the same whatever object they were read into. -/
theorem C114_legacy_partial (E : Ecdsa κ) (tx o : Transaction)
    (hl : ∀ i ∈ tx.inputs, ∃ s, parse i.rawLockingScript = .ok s ∧ (s.kind = .p2pkh ∨ s.kind = .p2sh)) :
    (Tx.verify E (withCaches tx o)).1 = (Tx.verify E tx).1 := by
  refine verify_lock (R := SameTx) ⟨rfl, rfl, rfl, rfl⟩ rfl fun idx i hi => ?_
  obtain ⟨s, hp, hs⟩ := hl i (List.mem_of_getElem? hi)
  refine ⟨s, hp, fun t => ⟨?_, fun _ h => h.elim⟩⟩
  rw [version_base hs]
  rintro s1 s2 ⟨q1, q2, q3, q4⟩
  refine .inl ⟨?_, q1, q2, q3, q4⟩
  change rawSignatureHash s1 idx _ = rawSignatureHash s2 idx _
  unfold rawSignatureHash rawPreimage writeSigAll
  rw [q1, q2, q3, q4]

/-- **C114.** What goes wrong: once the digest of the outputs is cached, the verdict on a transaction that spends P2WPKH and
P2WSH coins does not depend on its outputs. -/
theorem C114_outputs_unread (E : Ecdsa κ) (o : Transaction) (c : Bytes) (hc : o.hashOutputs = some c)
    (hw : ∀ i ∈ o.inputs, ∃ s, parse i.rawLockingScript = .ok s ∧ (s.kind = .p2wpkh ∨ s.kind = .p2wsh)) (outs : List TxOut) :
    (Tx.verify E { o with outputs := outs }).1 = (Tx.verify E o).1 := by
  symm
  refine verify_lock (R := fun s1 s2 => s2 = { s1 with outputs := outs } ∧ ∃ c, s1.hashOutputs = some c) ⟨rfl, c, hc⟩ rfl
    fun idx i hi => ?_
  obtain ⟨s, hp, hs⟩ := hw i (List.mem_of_getElem? hi)
  refine ⟨s, hp, fun t => ⟨?_, fun _ h => h.elim⟩⟩
  rw [version_witness hs]
  rintro s1 s2 ⟨rfl, c, hc⟩
  left
  unfold sigHashFn
  dsimp only
  unfold witnessSignatureHash
  dsimp only
  cases s1.inputs[idx]? with
  | none => exact ⟨rfl, rfl, c, hc⟩
  | some j =>
    have hu : updateCaches { s1 with outputs := outs } t.toUInt32 = { updateCaches s1 t.toUInt32 with outputs := outs } := by
      unfold updateCaches cachePrevouts cacheSequence cacheOutputs
      dsimp only
      rw [hc]
      rfl
    rw [show Res.ofIdx (some j) = .ok j from rfl, Res.ok_bind, Res.ok_bind, hu]
    exact ⟨rfl, rfl, _, rfl⟩

/-! ### replacing the outputs -/

private theorem supplyCoins_with (cs : List TxIn) (outs : List TxOut) (o : Transaction) : ∀ (n : ℕ) (tx tx' : Transaction),
    supplyCoins cs n tx = .ok tx' →
    supplyCoins cs n (withCaches { tx with outputs := outs } o) = .ok (withCaches { tx' with outputs := outs } o) := by
  induction cs with
  | nil => intro n tx tx' h; cases h; rfl
  | cons c cs ih =>
    intro n tx tx' h
    simp only [supplyCoins] at h ⊢
    rw [Res.bind_eq_ok] at h
    obtain ⟨tx1, h1, h⟩ := h
    have : setTxIn (withCaches { tx with outputs := outs } o) n c.value c.rawLockingScript c.redeemScript =
        .ok (withCaches { tx1 with outputs := outs } o) := by
      unfold setTxIn at h1 ⊢
      change (Res.ofIdx tx.inputs[n]? >>= _) = _
      rw [Res.bind_eq_ok] at h1
      obtain ⟨i, hi, h1⟩ := h1
      rw [hi, Res.ok_bind]
      rw [Res.bind_eq_ok] at h1
      obtain ⟨s, hs, h1⟩ := h1
      rw [hs, Res.ok_bind]
      rw [Res.bind_eq_ok] at h1
      obtain ⟨un, hun, h1⟩ := h1
      rw [hun, Res.ok_bind]
      cases h1
      rfl
    rw [this, Res.ok_bind]
    exact ih (n + 1) tx1 tx' h

private theorem supplyCoins_caches {cs : List TxIn} {n : ℕ} {tx tx' : Transaction} (h : supplyCoins cs n tx = .ok tx') :
    tx'.hashPrevouts = tx.hashPrevouts ∧ tx'.hashSequence = tx.hashSequence ∧ tx'.hashOutputs = tx.hashOutputs := by
  have := supplyCoins_with cs tx.outputs tx n tx tx' h
  have e : withCaches { tx with outputs := tx.outputs } tx = tx := rfl
  rw [e, h] at this
  have e2 : tx' = withCaches { tx' with outputs := tx.outputs } tx := Res.ok.inj this
  exact ⟨by rw [e2]; rfl, by rw [e2]; rfl, by rw [e2]; rfl⟩

private theorem supplyCoins_length {cs : List TxIn} : ∀ {n : ℕ} {tx tx' : Transaction}, supplyCoins cs n tx = .ok tx' →
    tx'.inputs.length = tx.inputs.length := by
  induction cs with
  | nil => intro n tx tx' h; cases h; rfl
  | cons c cs ih =>
    intro n tx tx' h
    simp only [supplyCoins] at h
    rw [Res.bind_eq_ok] at h
    obtain ⟨tx1, h1, h⟩ := h
    rw [ih h]
    unfold setTxIn at h1
    rw [Res.bind_eq_ok] at h1
    obtain ⟨i, hi, h1⟩ := h1
    rw [Res.bind_eq_ok] at h1
    obtain ⟨s, hs, h1⟩ := h1
    rw [Res.bind_eq_ok] at h1
    obtain ⟨un, hun, h1⟩ := h1
    cases h1
    exact List.length_set

/-- When an input that spends a P2WPKH coin is accepted the digest of the outputs is cached afterwards. -/
private theorem p2wpkh_fills (E : Ecdsa κ) (tx : Transaction) (idx : ℕ) (i : TxIn) (h : Bytes)
    (hp : parse i.rawLockingScript = .ok ⟨.p2wpkh, h⟩) (hh : h.length = 20)
    (hf : i.finalLockingScript = lockP2PKH h) (w0 w1 : Bytes) (l0 : w0.length < 2^32) (l1 : w1.length < 2^32)
    (hu : i.rawUnlockingScript = (addData (addData Buffer.new w0) w1).data) (hok : (verifyInput E idx i tx).1 = .ok ()) :
    ∃ c, (verifyInput E idx i tx).2.hashOutputs = some c := by
  have hl : ∀ t, VMS.Lock (fun a b : Transaction => True) (fun s => ∃ c, s.hashOutputs = some c) (sigHashFn idx .witnessV0 t)
      (fun s => (.panic, s)) := by
    have hq : ∀ t (s : Transaction), (∃ j, s.inputs[idx]? = some j) → ∃ c, (sigHashFn idx .witnessV0 t s).2.hashOutputs = some c := by
      rintro t s ⟨j, hj⟩
      unfold sigHashFn witnessSignatureHash
      rw [hj]
      exact ⟨_, rfl⟩
    intro t
    constructor
    · rintro s1 s2 -
      cases hj : s1.inputs[idx]? with
      | none =>
        refine .inl ⟨?_, trivial⟩
        unfold sigHashFn witnessSignatureHash
        rw [hj]
        rfl
      | some j => exact .inr (hq t s1 ⟨j, hj⟩)
    · rintro s ⟨c, hc⟩
      cases hj : s.inputs[idx]? with
      | none =>
        refine ⟨c, ?_⟩
        unfold sigHashFn witnessSignatureHash
        rw [hj]
        exact hc
      | some j => exact hq t s ⟨j, hj⟩
  have lk := VMS.verify_lock (es := engineEnv E idx .witnessV0) hl i.rawUnlockingScript i.finalLockingScript fresh
  have hv := verifyInput_judged (E := E) (idx := idx) hp
  change verifyInput E idx i = judged (VMS.verify (engineEnv E idx .witnessV0) _ _ _) at hv
  rcases (judged_lock lk).step tx tx trivial with ⟨e, _⟩ | hq
  · exfalso
    change (judged (VMS.verify (engineEnv E idx .witnessV0) _ _ _) tx).1 = _ at e
    rw [← hv, hok] at e
    have ag : VMS.AgreeX True (fun _ : Transaction => True) ⟨hash160, some fun _ => .panic, some E.verify⟩
        (VMS.withHasher (engineEnv E idx .witnessV0) (fun _ s => (.panic, s))) (fun _ => .panic) :=
      ⟨rfl, rfl, rfl, fun t _ s _ => ⟨s, rfl, trivial⟩⟩
    obtain ⟨s', es, _⟩ := VMS.verify_sim ag i.rawUnlockingScript i.finalLockingScript fresh (fun _ => trivial) tx trivial
    unfold judged at e
    rw [es] at e
    rw [hu, hf] at e
    rcases two_pushes ⟨hash160, some fun _ => .panic, some E.verify⟩ _ E.verify rfl rfl h hh w0 w1 l0 l1 with ⟨_, er, he⟩ | ⟨_, _, he⟩
    · rw [he] at e; cases e
    · rw [he] at e
      split_ifs at e
      · unfold sigValue at e
        rcases ScriptNum.nil_or_snoc (pushed w0) with q | ⟨der, t, q⟩
        · rw [q] at e; cases e
        · rw [q, List.getLast?_concat] at e; cases e
  · obtain ⟨c, hc⟩ := hq
    exact ⟨c, by rw [hv]; exact hc⟩

/-- An input with its coin, a P2WPKH coin, and the first two witness items `w0`, `w1` on the way to the engine; the signature
has hash type 0x01. -/
private structure Keyed (i : TxIn) (h w0 w1 : Bytes) : Prop where
  raw : parse i.rawLockingScript = .ok ⟨.p2wpkh, h⟩
  len : h.length = 20
  final : i.finalLockingScript = lockP2PKH h
  l0 : w0.length < 2^32
  l1 : w1.length < 2^32
  un : i.rawUnlockingScript = (addData (addData Buffer.new w0) w1).data
  ty : w0.getLast? = some 1

omit [Hashes] in
private theorem Keyed.pushed {i : TxIn} {h w0 w1 : Bytes} (k : Keyed i h w0 w1) : pushed w0 = w0 := by
  unfold Props.pushed
  rw [if_neg]
  intro e
  have := k.ty
  rw [e] at this
  revert this
  decide

/-- the transaction with its digests cached and other outputs -/
private def swapped (a : Transaction) (outs : List TxOut) : Transaction := { updateCaches a 1 with outputs := outs }

private theorem swapped_caches (a : Transaction) (outs : List TxOut) : updateCaches (swapped a outs) 1 = swapped a outs := by
  unfold swapped updateCaches cachePrevouts cacheSequence cacheOutputs
  congr 1

private theorem digest_same {a s : Transaction} (hs : s = a ∨ s = updateCaches a 1) (outs : List TxOut) {idx : ℕ} {i : TxIn}
    (hi : a.inputs[idx]? = some i) :
    ∃ d, witnessSignatureHash s idx 1 = .ok (d, updateCaches a 1) ∧ witnessSignatureHash (swapped a outs) idx 1 = .ok (d, swapped a outs) := by
  refine ⟨sha256d (witnessPreimage (updateCaches a 1) i 1), ?_, ?_⟩
  · unfold witnessSignatureHash
    rcases hs with rfl | rfl
    · rw [hi]; rfl
    · rw [show (updateCaches a 1).inputs[idx]? = some i from hi, updateCaches_idem]; rfl
  · unfold witnessSignatureHash
    rw [show (swapped a outs).inputs[idx]? = some i from hi, swapped_caches]; rfl

/-- One input: accepted before, it is accepted with the other outputs. -/
private theorem swap_input (E : Ecdsa κ) (hE : ∀ a b c, E.verify a b c ≠ .panic) {a s : Transaction} (ha : a.hashOutputs = none)
    (hs : s = a ∨ s = updateCaches a 1) (outs : List TxOut) {idx : ℕ} {i : TxIn} (hi : a.inputs[idx]? = some i) {h w0 w1 : Bytes}
    (k : Keyed i h w0 w1) (hok : (verifyInput E idx i s).1 = .ok ()) :
    (verifyInput E idx i s).2 = updateCaches a 1 ∧ verifyInput E idx i (swapped a outs) = (.ok (), swapped a outs) := by
  have his : s.inputs[idx]? = some i := by rcases hs with rfl | rfl <;> exact hi
  obtain ⟨r1, r2⟩ := p2wpkh_run E hE s idx i his h k.raw k.len k.final w0 w1 k.l0 k.l1 k.un
  obtain ⟨q1, q2⟩ := p2wpkh_run E hE (swapped a outs) idx i hi h k.raw k.len k.final w0 w1 k.l0 k.l1 k.un
  have hT : ((pushed w0).getLast?.getD 0).toUInt32 = 1 := by rw [k.pushed, k.ty]; rfl
  rw [hT] at r2 q2
  rw [swapped_caches] at q2
  obtain ⟨c, hc⟩ := p2wpkh_fills E s idx i h k.raw k.len k.final w0 w1 k.l0 k.l1 k.un hok
  constructor
  · rcases hs with rfl | rfl
    · rcases r2 with e | e
      · rw [e, ha] at hc; cases hc
      · exact e
    · rcases r2 with e | e
      · exact e
      · rw [e, updateCaches_idem]
  · obtain ⟨g1, g2, g3, der, t, d, tx2, e1, e2, e3⟩ := r1.mp hok
    have ht : t = 1 := by
      have := k.ty
      rw [← k.pushed, e1, List.getLast?_concat] at this
      exact Option.some.inj this
    subst ht
    obtain ⟨d', u1, u2⟩ := digest_same hs outs hi
    have h1 : (1 : UInt8).toUInt32 = 1 := rfl
    rw [h1, u1] at e2
    cases e2
    have := q1.mpr ⟨g1, g2, g3, der, 1, d, _, e1, by rw [h1]; exact u2, e3⟩
    refine Prod.ext this ?_
    rcases q2 with e | e <;> exact e

private theorem swap_inputs (E : Ecdsa κ) (hE : ∀ a b c, E.verify a b c ≠ .panic) {a : Transaction} (ha : a.hashOutputs = none)
    (outs : List TxOut) (l : List (TxIn × ℕ)) : ∀ s, (s = a ∨ s = updateCaches a 1) →
    (∀ p ∈ l, a.inputs[p.2]? = some p.1 ∧ ∃ h w0 w1, Keyed p.1 h w0 w1) → (verifyInputs E l s).1 = .ok () →
    (l ≠ [] → (verifyInputs E l s).2 = updateCaches a 1) ∧ verifyInputs E l (swapped a outs) = (.ok (), swapped a outs) := by
  induction l with
  | nil => intro s _ _ _; exact ⟨fun h => absurd rfl h, rfl⟩
  | cons p l ih =>
    intro s hs hl h
    have e0 : ∀ s, verifyInputs E (p :: l) s = VMS.bind (verifyInput E p.2 p.1) (fun _ => verifyInputs E l) s := fun _ => rfl
    rw [e0] at h
    rw [e0, e0]
    unfold VMS.bind at h ⊢
    obtain ⟨hi, h0, w0, w1, k⟩ := hl p (by simp)
    cases hq : verifyInput E p.2 p.1 s with
    | mk r s1 =>
      rw [hq] at h
      cases r with
      | err e => cases h
      | panic => cases h
      | ok u =>
        obtain ⟨e1, e2⟩ := swap_input E hE ha hs outs hi k (by rw [hq])
        rw [hq] at e1
        dsimp only at e1 h
        subst e1
        obtain ⟨f1, f2⟩ := ih _ (.inr rfl) (fun q hq => hl q (by simp [hq])) h
        rw [e2]
        refine ⟨fun _ => ?_, f2⟩
        by_cases hn : l = []
        · subst hn; rfl
        · exact f1 hn

/-- **C114 (negation).** Verify can be made to accept outputs that nobody signed. Let a transaction spend P2WPKH coins with
signatures of hash type 0x01, be read into a new object, be supplied with its coins and be accepted. Then the same transaction
with any other outputs, read into the same object and supplied with the same coins, is accepted too, with the old signatures.
This holds for every signature scheme. -/
theorem C114_negation (E : Ecdsa κ) (hE : ∀ a b c, E.verify a b c ≠ .panic) (tx : Transaction) (he : Encodable tx)
    (hs : (wireSegwit tx).length < 2^43) (hne : tx.inputs ≠ []) (coins : List TxIn) (hn : coins.length = tx.inputs.length)
    (hc : ∀ c ∈ coins, ∃ h : Bytes, h.length = 20 ∧ c.rawLockingScript = standardScript .p2wpkh h)
    (hw : ∀ i ∈ tx.inputs, ∀ w ∈ i.witness, w.length < 2^32)
    (ht : ∀ i ∈ tx.inputs, ∀ w0, i.witness.head? = some w0 → w0.getLast? = some 1)
    (a0 a : Transaction) (rest : Bytes) (h1 : deserialize Tx.new (wireSegwit tx) = .ok (a0, rest)) (h2 : supplyCoins coins 0 a0 = .ok a)
    (hv : (Tx.verify E a).1 = .ok ())
    (outs : List TxOut) (hon : outs ≠ []) (hoe : Encodable { tx with outputs := outs })
    (hos : (wireSegwit { tx with outputs := outs }).length < 2^43) :
    ∃ b0 b, deserialize (Tx.verify E a).2 (wireSegwit { tx with outputs := outs }) = .ok (b0, []) ∧ supplyCoins coins 0 b0 = .ok b ∧
      b.outputs = outs ∧ (Tx.verify E b).1 = .ok () := by
  rw [deserialize_wire he hs] at h1
  cases h1
  obtain ⟨c1, c2, c3⟩ := supplyCoins_caches h2
  have hlen : a.inputs.length = tx.inputs.length := by
    rw [supplyCoins_length h2]
    simp
  have hkeyed : ∀ p ∈ a.inputs.zipIdx, a.inputs[p.2]? = some p.1 ∧ ∃ h w0 w1, Keyed p.1 h w0 w1 := by
    rintro ⟨j, idx⟩ hm
    rw [List.mem_zipIdx_iff_getElem?] at hm
    refine ⟨hm, ?_⟩
    have hlt : idx < coins.length := by
      rw [hn, ← hlen]
      by_contra hcc
      rw [List.getElem?_eq_none (by omega)] at hm
      cases hm
    obtain ⟨i, s, un, hi, hp, hun, hi'⟩ := (supplyCoins_get coins 0 _ a h2).2 idx coins[idx] (List.getElem?_eq_getElem hlt)
    rw [Nat.zero_add] at hi hi'
    obtain ⟨h, hh, hk⟩ := hc coins[idx] (List.getElem_mem hlt)
    have hp' := C29_parse_build .p2wpkh h hh
    rw [C29_build .p2wpkh h hh, ← hk, hp] at hp'
    cases hp'
    unfold witnessToUnlocking at hun
    dsimp only at hun
    have hj : j = _ := Option.some.inj (hm.symm.trans hi')
    dsimp only at hi
    rw [List.getElem?_map] at hi
    cases hti : tx.inputs[idx]? with
    | none => rw [hti] at hi; cases hi
    | some ti =>
      rw [hti] at hi
      have hw' := hw ti (List.mem_of_getElem? hti)
      have ht' := ht ti (List.mem_of_getElem? hti)
      have hwi : i.witness = ti.witness := by cases hi; rfl
      rw [← hwi] at hw' ht'
      match hwit : i.witness with
      | [] => rw [hwit] at hun; cases hun
      | [_] => rw [hwit] at hun; cases hun
      | w0 :: w1 :: rest =>
        rw [hwit] at hun hw' ht'
        cases hun
        exact ⟨h, w0, w1, by rw [hj]; exact C29_parse_build .p2wpkh h hh, hh, by rw [hj]; exact C29_build .p2pkh h hh,
          hw' w0 (by simp), hw' w1 (by simp), by rw [hj]; rfl, ht' w0 rfl⟩
  obtain ⟨f1, f2⟩ := swap_inputs E hE (c3.trans rfl) outs a.inputs.zipIdx a (.inl rfl) hkeyed hv
  have hnz : a.inputs.zipIdx ≠ [] := by
    intro e
    have := congrArg List.length e
    rw [List.length_zipIdx, hlen] at this
    exact hne (List.length_eq_zero_iff.mp this)
  have ho : (Tx.verify E a).2 = updateCaches a 1 := f1 hnz
  have hd := C114_deserialize _ _ _ (deserialize_wire hoe hos) (by simpa using hne) (Tx.verify E a).2
  rw [show orOld outs (Tx.verify E a).2.outputs = outs by unfold orOld; exact if_neg (by simpa using hon)] at hd
  have hb := supplyCoins_with coins outs (Tx.verify E a).2 0 _ a h2
  refine ⟨_, _, hd, hb, rfl, ?_⟩
  rw [ho]
  exact congrArg Prod.fst f2

end

/-- A received transaction that spends the coin of key 7 and pays 900 to the script `s`. -/
def paying (s : Bytes) (w : List Bytes) : Transaction := { spendTx w [] with outputs := [⟨900, s⟩] }

/-- The signature of key 7 for paying to `s`. -/
def payingSig (s : Bytes) : Res Bytes :=
  (@supplyCoins modHashes [spendCoin .p2wpkh] 0 (paying s [[], []])).bind fun tx =>
    (@Tx.witnessSignatureHash modHashes tx 0 1).bind fun p => .ok (p.1 ++ [7, 1])

/-- Reads bytes into the object, supplies the coin and verifies: the verdict and the object afterwards. -/
def readAndVerify (o : Transaction) (data : Bytes) : Res Unit × Transaction :=
  match (deserialize o data).bind fun p => @supplyCoins modHashes [spendCoin .p2wpkh] 0 p.1 with
  | .ok tx => @Tx.verify _ modHashes toyEcdsa tx
  | .err e => (.err e, o)
  | .panic => (.panic, o)

/-- The owner of key 7 signs a payment to the script `51`. It is accepted; the payment to `52` with the same signature is rejected
when read into a new object, and accepted when read into the object of the first. -/
example : ∃ s, payingSig [0x51] = .ok s ∧
    let a := wireSegwit (paying [0x51] [s, toyEcdsa.pub 7 true])
    let b := wireSegwit (paying [0x52] [s, toyEcdsa.pub 7 true])
    (readAndVerify Tx.new a).1 = .ok () ∧ (readAndVerify Tx.new b).1 = .err errVerifyFailed ∧
    (readAndVerify (readAndVerify Tx.new a).2 b).1 = .ok () ∧ (readAndVerify (readAndVerify Tx.new a).2 b).2.outputs = [⟨900, [0x52]⟩] := by
  refine ⟨_, rfl, ?_, ?_, ?_, ?_⟩ <;> decide +kernel

end Toku.Props
