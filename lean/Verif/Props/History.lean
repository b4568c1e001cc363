import Verif.Props.SigHash
import Verif.Proof.VMSKeep
import Verif.Proof.TxSign
/-
C42, exactly: what the witness hash commits to after an arbitrary history of the transaction object
(xcore/transaction.go:319-384, the digest caches of 33-35).
-/
namespace Toku.Props
open Toku Toku.Spec Toku.Tx

variable {κ : Type} [Hashes]

/-! ### What the object remembers -/

/-- The contents in which the three digests of BIP143 were computed. -/
def prevoutsDigest (tx : Transaction) : Bytes := sha256d (tx.inputs.flatMap fun i => i.hash ++ le 4 i.index.toNat)
def sequenceDigest (tx : Transaction) : Bytes := sha256d (tx.inputs.flatMap fun i => le 4 i.sequence.toNat)
def outputsDigest (tx : Transaction) : Bytes := sha256d (tx.outputs.flatMap wireOut)

/-- The hash types for which the code puts zeros in the place of a digest. -/
def zeroPrevouts (t : UInt32) : Prop := t &&& 0x80 ≠ 0
def zeroSequence (t : UInt32) : Prop := t &&& 0x80 ≠ 0 ∨ t &&& 0x1f = 3 ∨ t &&& 0x1f = 2
def zeroOutputs (t : UInt32) : Prop := t &&& 2 = 2

instance : DecidablePred zeroPrevouts := fun t => by unfold zeroPrevouts; infer_instance
instance : DecidablePred zeroSequence := fun t => by unfold zeroSequence; infer_instance
instance : DecidablePred zeroOutputs := fun t => by unfold zeroOutputs; infer_instance

/-- A digest as the object has it after the hashes `calls` (the contents when each was computed, and its type): zeros once
any of them had a type that calls for zeros, else the digest of the contents at the first of them. -/
def remembered (zero : UInt32 → Prop) [DecidablePred zero] (digest : Transaction → Bytes) (calls : List (Transaction × UInt32)) :
    Bytes :=
  if ∃ c ∈ calls, zero c.2 then List.replicate 32 0
  else match calls with
    | [] => []
    | c :: _ => digest c.1

/-- The bytes hashed for input `i` of `tx` and the type `t` after the hashes `calls`. -/
def preimageAfter (calls : List (Transaction × UInt32)) (tx : Transaction) (i : TxIn) (t : UInt32) : Bytes :=
  let all := calls ++ [(tx, t)]
  le 4 tx.version.toNat ++ remembered zeroPrevouts prevoutsDigest all ++ remembered zeroSequence sequenceDigest all ++
    i.hash ++ le 4 i.index.toNat ++ varStr (i.witnessScriptCode.getD []) ++ le 8 i.value.toNat ++ le 4 i.sequence.toNat ++
    remembered zeroOutputs outputsDigest all ++ le 4 tx.lockTime.toNat ++ le 4 t.toNat

/-- An object that began with empty caches (a new one), after the witness hashes `calls` and any changes whatever to
everything but the caches. -/
inductive History : List (Transaction × UInt32) → Transaction → Prop
  | new (tx : Transaction) : tx.hashPrevouts = none → tx.hashSequence = none → tx.hashOutputs = none → History [] tx
  | edit {calls : List (Transaction × UInt32)} {tx tx' : Transaction} : History calls tx →
      tx'.hashPrevouts = tx.hashPrevouts → tx'.hashSequence = tx.hashSequence → tx'.hashOutputs = tx.hashOutputs →
      History calls tx'
  | hash {calls : List (Transaction × UInt32)} {tx tx' : Transaction} (idx : Nat) (t : UInt32) (d : Bytes) : History calls tx →
      witnessSignatureHash tx idx t = .ok (d, tx') → History (calls ++ [(tx, t)]) tx'

/-! ### Helpers -/

omit [Hashes] in
private theorem remembered_append (zero : UInt32 → Prop) [DecidablePred zero] (digest : Transaction → Bytes)
    (calls : List (Transaction × UInt32)) (hne : calls ≠ []) (c : Transaction × UInt32) :
    remembered zero digest (calls ++ [c]) = if zero c.2 then List.replicate 32 0 else remembered zero digest calls := by
  unfold remembered
  cases calls with
  | nil => exact absurd rfl hne
  | cons a l =>
    by_cases hz : zero c.2
    · rw [if_pos hz, if_pos ⟨c, by simp, hz⟩]
    · rw [if_neg hz]
      by_cases he : ∃ x ∈ a :: l, zero x.2
      · obtain ⟨x, hx, hzx⟩ := he
        rw [if_pos ⟨x, List.mem_append_left _ hx, hzx⟩, if_pos ⟨x, hx, hzx⟩]
      · rw [if_neg he, if_neg]
        · rfl
        · rintro ⟨x, hx, hzx⟩
          rcases List.mem_append.mp hx with hx | hx
          · exact he ⟨x, hx, hzx⟩
          · rw [List.mem_singleton] at hx
            subst hx
            exact hz hzx

omit [Hashes] in
private theorem remembered_one (zero : UInt32 → Prop) [DecidablePred zero] (digest : Transaction → Bytes) (c : Transaction × UInt32) :
    remembered zero digest [c] = if zero c.2 then List.replicate 32 0 else digest c.1 := by
  unfold remembered
  by_cases hz : zero c.2
  · rw [if_pos hz, if_pos ⟨c, by simp, hz⟩]
  · rw [if_neg hz, if_neg]
    rintro ⟨x, hx, hzx⟩
    rw [List.mem_singleton] at hx
    subst hx
    exact hz hzx

omit [Hashes] in
/-- One cache: what a hash of type `t` makes of it. -/
private theorem cache_step {zero : UInt32 → Prop} [DecidablePred zero] {digest : Transaction → Bytes}
    {calls : List (Transaction × UInt32)} {cache : Option Bytes} {tx : Transaction} {t : UInt32}
    (h : cache = if calls = [] then none else some (remembered zero digest calls)) :
    (if zero t then List.replicate 32 0 else cache.getD (digest tx)) = remembered zero digest (calls ++ [(tx, t)]) := by
  by_cases hn : calls = []
  · rw [h, if_pos hn, hn, List.nil_append, remembered_one]
    rfl
  · rw [h, if_neg hn, remembered_append _ _ _ hn]
    rfl

private theorem prevouts_step (tx : Transaction) (t : UInt32) :
    cachePrevouts tx t = if zeroPrevouts t then List.replicate 32 0 else tx.hashPrevouts.getD (prevoutsDigest tx) := by
  unfold cachePrevouts
  rw [prevouts_data]
  by_cases h : zeroPrevouts t
  · rw [if_pos h, if_neg h]
    rfl
  · rw [if_neg h, if_pos (not_not.mp h)]
    rfl

private theorem sequence_step (tx : Transaction) (t : UInt32) :
    cacheSequence tx t = if zeroSequence t then List.replicate 32 0 else tx.hashSequence.getD (sequenceDigest tx) := by
  unfold cacheSequence
  rw [sequences_data]
  by_cases h : zeroSequence t
  · rw [if_pos h, if_neg]
    · rfl
    · rintro ⟨a, b, c⟩
      rcases h with h | h | h
      · exact h a
      · exact b h
      · exact c h
  · rw [if_neg h, if_pos]
    · rfl
    · unfold zeroSequence at h
      rw [not_or, not_or] at h
      exact ⟨not_not.mp h.1, h.2.1, h.2.2⟩

private theorem outputs_step (tx : Transaction) (t : UInt32) (ho : ∀ o ∈ tx.outputs, o.script.length < 2^62) :
    cacheOutputs tx t = if zeroOutputs t then List.replicate 32 0 else tx.hashOutputs.getD (outputsDigest tx) := by
  unfold cacheOutputs
  rw [outputs_data ho]
  by_cases h : zeroOutputs t
  · rw [if_pos h, if_neg (fun q => q.2 h)]
    rfl
  · rw [if_neg h, if_pos]
    · rfl
    · refine ⟨fun q => h ?_, h⟩
      have e : t &&& 2 = (t &&& 3) &&& 2 := by rw [UInt32.and_assoc]; rfl
      unfold zeroOutputs
      rw [e, q]
      rfl

private theorem history_caches {calls : List (Transaction × UInt32)} {tx : Transaction} (h : History calls tx)
    (ho : ∀ c ∈ calls, ∀ o ∈ c.1.outputs, o.script.length < 2^62) :
    (tx.hashPrevouts = if calls = [] then none else some (remembered zeroPrevouts prevoutsDigest calls)) ∧
    (tx.hashSequence = if calls = [] then none else some (remembered zeroSequence sequenceDigest calls)) ∧
    (tx.hashOutputs = if calls = [] then none else some (remembered zeroOutputs outputsDigest calls)) := by
  induction h with
  | new tx h1 h2 h3 => exact ⟨h1, h2, h3⟩
  | edit _ e1 e2 e3 ih => rw [e1, e2, e3]; exact ih ho
  | @hash calls tx tx' idx t d hh he ih =>
    obtain ⟨c1, c2, c3⟩ := ih fun c hc => ho c (List.mem_append_left _ hc)
    have hne : calls ++ [(tx, t)] ≠ [] := by simp
    rw [if_neg hne, if_neg hne, if_neg hne]
    unfold witnessSignatureHash at he
    cases hi : tx.inputs[idx]? with
    | none => rw [hi] at he; cases he
    | some i =>
      rw [hi] at he
      change Res.ok _ = Res.ok _ at he
      simp only [Res.ok.injEq, Prod.mk.injEq] at he
      obtain ⟨_, rfl⟩ := he
      refine ⟨?_, ?_, ?_⟩
      · change some (cachePrevouts tx t) = _
        rw [prevouts_step, cache_step c1]
      · change some (cacheSequence tx t) = _
        rw [sequence_step, cache_step c2]
      · change some (cacheOutputs tx t) = _
        rw [outputs_step _ _ (ho (tx, t) (by simp)), cache_step c3]

/-! ### C42 -/

/-- **C42**, exactly. After any history at all, the witness hash of input `idx` with type `t` is the double SHA-256 of
version, outpoint, script code, amount, sequence, lock time and type as they are now, and of the three digests as the object
remembers them: zeros if any type so far (this one included) calls for zeros, else the digest of the outpoints, sequences
and outputs the object had when its first witness hash was computed. -/
theorem C42_exact (calls : List (Transaction × UInt32)) (tx : Transaction) (h : History calls tx) (idx : Nat) (i : TxIn) (t : UInt32)
    (hi : tx.inputs[idx]? = some i) (hc : (i.witnessScriptCode.getD []).length < 2^62)
    (ho : ∀ c ∈ calls ++ [(tx, t)], ∀ o ∈ c.1.outputs, o.script.length < 2^62) :
    ∃ tx', witnessSignatureHash tx idx t = .ok (sha256d (preimageAfter calls tx i t), tx') ∧
      History (calls ++ [(tx, t)]) tx' := by
  obtain ⟨c1, c2, c3⟩ := history_caches h fun c hc => ho c (List.mem_append_left _ hc)
  have e : witnessSignatureHash tx idx t = .ok (sha256d (preimageAfter calls tx i t), updateCaches tx t) := by
    unfold witnessSignatureHash
    rw [hi]
    change Res.ok (_, _) = Res.ok (_, _)
    rw [witnessPreimage_eq _ _ _ (by omega)]
    unfold updateCaches preimageAfter
    simp only [Option.getD_some]
    rw [prevouts_step, cache_step c1, sequence_step, cache_step c2, outputs_step _ _ (ho (tx, t) (by simp)), cache_step c3]
  exact ⟨_, e, .hash idx t _ h e⟩

/-- Two transactions agree on what a hash of type `t` covers. -/
def SameFor (t : UInt32) (a b : Transaction) : Prop :=
  (¬ zeroPrevouts t → a.inputs.map (fun i => (i.hash, i.index)) = b.inputs.map (fun i => (i.hash, i.index))) ∧
  (¬ zeroSequence t → a.inputs.map (·.sequence) = b.inputs.map (·.sequence)) ∧
  (¬ zeroOutputs t → a.outputs = b.outputs)

/-- What the type `t` covers, `t0` covers. -/
def CoversAll (t0 t : UInt32) : Prop :=
  (zeroPrevouts t0 → zeroPrevouts t) ∧ (zeroSequence t0 → zeroSequence t) ∧ (zeroOutputs t0 → zeroOutputs t)

omit [Hashes] in
private theorem remembered_fresh {zero : UInt32 → Prop} [DecidablePred zero] {digest : Transaction → Bytes}
    {calls : List (Transaction × UInt32)} {tx : Transaction} {t : UInt32}
    (hz : ∀ c ∈ calls, zero c.2 → zero t) (hd : ∀ c, calls.head? = some c → ¬ zero t → digest c.1 = digest tx) :
    remembered zero digest (calls ++ [(tx, t)]) = remembered zero digest [(tx, t)] := by
  by_cases hn : calls = []
  · rw [hn]; rfl
  · rw [remembered_append _ _ _ hn, remembered_one]
    by_cases ht : zero t
    · rw [if_pos ht, if_pos ht]
    · rw [if_neg ht, if_neg ht]
      unfold remembered
      rw [if_neg (fun ⟨c, hc, q⟩ => ht (hz c hc q))]
      cases calls with
      | nil => exact absurd rfl hn
      | cons c l => exact hd c rfl ht

/-- **C42**, partial: the history makes no difference whenever every earlier type covers what `t` covers and the object had, at
its first witness hash, the contents covered by `t` that it has now. Missing: the other histories, for which `C42_exact` says
what is hashed instead. -/
theorem C42_covering_partial (calls : List (Transaction × UInt32)) (tx : Transaction) (h : History calls tx) (idx : Nat) (i : TxIn)
    (t : UInt32) (hi : tx.inputs[idx]? = some i) (hc : (i.witnessScriptCode.getD []).length < 2^62)
    (ho : ∀ c ∈ calls ++ [(tx, t)], ∀ o ∈ c.1.outputs, o.script.length < 2^62)
    (hz : ∀ c ∈ calls, CoversAll c.2 t) (hs : ∀ c, calls.head? = some c → SameFor t c.1 tx) :
    (witnessSignatureHash tx idx t).bind (fun p => .ok p.1) =
    (witnessSignatureHash { tx with hashPrevouts := none, hashSequence := none, hashOutputs := none } idx t).bind
      (fun p => .ok p.1) := by
  obtain ⟨a, ha, _⟩ := C42_exact calls tx h idx i t hi hc ho
  obtain ⟨b, hb, _⟩ := C42_exact [] { tx with hashPrevouts := none, hashSequence := none, hashOutputs := none }
    (.new _ rfl rfl rfl) idx i t hi hc (by
      intro c hc
      rw [List.nil_append, List.mem_singleton] at hc
      subst hc
      exact ho (tx, t) (by simp))
  rw [ha, hb]
  change Res.ok _ = Res.ok _
  unfold preimageAfter
  have e1 := remembered_fresh (zero := zeroPrevouts) (digest := prevoutsDigest) (tx := tx) (t := t) (fun c hc => (hz c hc).1)
    (fun c hc ht => by
      have q := congrArg (List.flatMap fun p : Bytes × UInt32 => p.1 ++ le 4 p.2.toNat) ((hs c hc).1 ht)
      rw [List.flatMap_map, List.flatMap_map] at q
      unfold prevoutsDigest
      rw [q])
  have e2 := remembered_fresh (zero := zeroSequence) (digest := sequenceDigest) (tx := tx) (t := t) (fun c hc => (hz c hc).2.1)
    (fun c hc ht => by
      have q := congrArg (List.flatMap fun p : UInt32 => le 4 p.toNat) ((hs c hc).2.1 ht)
      rw [List.flatMap_map, List.flatMap_map] at q
      unfold sequenceDigest
      rw [q])
  have e3 := remembered_fresh (zero := zeroOutputs) (digest := outputsDigest) (tx := tx) (t := t) (fun c hc => (hz c hc).2.2)
    (fun c hc ht => by
      unfold outputsDigest
      rw [(hs c hc).2.2 ht])
  dsimp only
  rw [e1, e2, e3, List.nil_append]
  simp only [remembered_one]
  rfl

omit [Hashes] in
private theorem digest_length {zero : UInt32 → Prop} [DecidablePred zero] {digest : Transaction → Bytes}
    (hd : ∀ tx, (digest tx).length = 32) {calls : List (Transaction × UInt32)} (hne : calls ≠ []) :
    (remembered zero digest calls).length = 32 := by
  unfold remembered
  split
  · exact List.length_replicate
  · cases calls with
    | nil => exact absurd rfl hne
    | cons c l => exact hd _

omit [Hashes] in
private theorem remembered_iff {zero : UInt32 → Prop} [DecidablePred zero] {digest : Transaction → Bytes}
    {calls : List (Transaction × UInt32)} {tx : Transaction} {t : UInt32} (hnz : digest tx ≠ List.replicate 32 0)
    (h : remembered zero digest (calls ++ [(tx, t)]) = remembered zero digest [(tx, t)]) :
    zero t ∨ ((∀ c ∈ calls, ¬ zero c.2) ∧ ∀ c, calls.head? = some c → digest c.1 = digest tx) := by
  by_cases ht : zero t
  · exact .inl ht
  refine .inr ?_
  cases calls with
  | nil => exact ⟨fun c hc => absurd hc List.not_mem_nil, fun c hc => by cases hc⟩
  | cons a l =>
    rw [remembered_append _ _ _ (by simp), remembered_one, if_neg ht, if_neg ht] at h
    unfold remembered at h
    split at h
    · exact absurd h.symm hnz
    · rename_i hno
      refine ⟨fun c hc q => hno ⟨c, hc, q⟩, fun c hc => ?_⟩
      cases hc
      exact h

/-- **C42**, converse: if the bytes hashed after a history are those hashed for an object with empty caches (and none of the three
digests is 32 zeros), then for each of the three digests either `t` does not cover it, or every earlier type covered it and it is
the digest of what the object contained at its first witness hash. -/
theorem C42_converse (calls : List (Transaction × UInt32)) (tx : Transaction) (i : TxIn) (t : UInt32)
    (h1 : prevoutsDigest tx ≠ List.replicate 32 0) (h2 : sequenceDigest tx ≠ List.replicate 32 0)
    (h3 : outputsDigest tx ≠ List.replicate 32 0) (he : preimageAfter calls tx i t = preimageAfter [] tx i t) :
    (zeroPrevouts t ∨ ((∀ c ∈ calls, ¬ zeroPrevouts c.2) ∧ ∀ c, calls.head? = some c → prevoutsDigest c.1 = prevoutsDigest tx)) ∧
    (zeroSequence t ∨ ((∀ c ∈ calls, ¬ zeroSequence c.2) ∧ ∀ c, calls.head? = some c → sequenceDigest c.1 = sequenceDigest tx)) ∧
    (zeroOutputs t ∨ ((∀ c ∈ calls, ¬ zeroOutputs c.2) ∧ ∀ c, calls.head? = some c → outputsDigest c.1 = outputsDigest tx)) := by
  have hne : calls ++ [(tx, t)] ≠ [] := by simp
  have hne' : ([] : List (Transaction × UInt32)) ++ [(tx, t)] ≠ [] := by simp
  unfold preimageAfter at he
  simp only [List.append_assoc] at he
  have he := List.append_cancel_left he
  obtain ⟨e1, he⟩ := List.append_inj he ((digest_length (digest := prevoutsDigest) (fun _ => sha256d_length _) hne).trans
    (digest_length (fun _ => sha256d_length _) hne').symm)
  obtain ⟨e2, he⟩ := List.append_inj he ((digest_length (digest := sequenceDigest) (fun _ => sha256d_length _) hne).trans
    (digest_length (fun _ => sha256d_length _) hne').symm)
  have he := List.append_cancel_left (List.append_cancel_left (List.append_cancel_left (List.append_cancel_left (List.append_cancel_left he))))
  obtain ⟨e3, _⟩ := List.append_inj he ((digest_length (digest := outputsDigest) (fun _ => sha256d_length _) hne).trans
    (digest_length (fun _ => sha256d_length _) hne').symm)
  exact ⟨remembered_iff h1 e1, remembered_iff h2 e2, remembered_iff h3 e3⟩

/-- The histories meant: from the object of xcore/transaction.go:123-129 by any calls of its methods that return no error (and
Verify whatever it returns). -/
inductive Reached (E : Ecdsa κ) : Transaction → Prop
  | new : Reached E Tx.new
  | setVersion {tx : Transaction} (v : UInt32) : Reached E tx → Reached E (setVersion tx v)
  | setLockTime {tx : Transaction} (v : UInt32) : Reached E tx → Reached E (setLockTime tx v)
  | addInput {tx : Transaction} (i : TxIn) : Reached E tx → Reached E (addInput tx i)
  | addOutput {tx : Transaction} (o : TxOut) : Reached E tx → Reached E (addOutput tx o)
  | setTxIn {tx tx' : Transaction} (idx : Nat) (a : UInt64) (s : Bytes) (r : Option Bytes) : Reached E tx →
      Tx.setTxIn tx idx a s r = .ok tx' → Reached E tx'
  | witnessHash {tx tx' : Transaction} (idx : Nat) (t : UInt32) (d : Bytes) : Reached E tx →
      witnessSignatureHash tx idx t = .ok (d, tx') → Reached E tx'
  | witnessSignature {tx tx' : Transaction} (idx : Nat) (t : UInt32) (key : κ) (sig : Bytes) : Reached E tx →
      Tx.witnessSignature E tx idx t key = .ok (sig, tx') → Reached E tx'
  | embed {tx tx' : Transaction} (idx : Nat) (signs : List Locking.PubKeySign) : Reached E tx →
      Tx.embed tx idx signs = .ok tx' → Reached E tx'
  | signIndex {tx tx' : Transaction} (idx : Nat) (compressed : Bool) (t : UInt32) (keys : List κ) : Reached E tx →
      Tx.signIndex E tx idx compressed t keys = .ok tx' → Reached E tx'
  | deserialize {tx tx' : Transaction} (data rest : Bytes) : Reached E tx → Tx.deserialize tx data = .ok (tx', rest) → Reached E tx'
  | deserializeNoWitness {tx tx' : Transaction} (data rest : Bytes) : Reached E tx →
      Tx.deserializeNoWitness tx data = .ok (tx', rest) → Reached E tx'
  | verify {tx : Transaction} : Reached E tx → Reached E (Tx.verify E tx).2

private theorem embed_history {calls : List (Transaction × UInt32)} {tx tx' : Transaction} {idx : Nat}
    {signs : List Locking.PubKeySign} (h : History calls tx) (he : Tx.embed tx idx signs = .ok tx') : History calls tx' := by
  unfold Tx.embed at he
  obtain ⟨i, _, he⟩ := bind_ok he
  split at he
  · cases he
  · obtain ⟨s, _, he⟩ := bind_ok he
    split at he
    · cases he
    · cases he
      exact .edit h rfl rfl rfl
    · obtain ⟨w, _, he⟩ := bind_ok he
      cases he
      exact .edit h rfl rfl rfl

private theorem witnessSignature_history {E : Ecdsa κ} {calls : List (Transaction × UInt32)} {tx tx' : Transaction} {idx : Nat}
    {t : UInt32} {key : κ} {sig : Bytes} (h : History calls tx) (he : Tx.witnessSignature E tx idx t key = .ok (sig, tx')) :
    ∃ calls, History calls tx' := by
  unfold Tx.witnessSignature at he
  split at he
  · cases he
  · obtain ⟨i, _, he⟩ := bind_ok he
    obtain ⟨s, _, he⟩ := bind_ok he
    split at he
    · obtain ⟨⟨d, tx1⟩, e1, he⟩ := bind_ok he
      obtain ⟨g, _, he⟩ := bind_ok he
      cases he
      exact ⟨_, .hash idx t d h e1⟩
    · cases he

private theorem signKeys_history {E : Ecdsa κ} {idx : Nat} {compressed : Bool} {t : UInt32} {witness : Bool} (keys : List κ) :
    ∀ {calls : List (Transaction × UInt32)} {tx tx' : Transaction} {signs : List Locking.PubKeySign}, History calls tx →
    signKeys E idx compressed t witness keys tx = .ok (signs, tx') → ∃ calls, History calls tx' := by
  induction keys with
  | nil =>
    intro calls tx tx' signs h he
    cases he
    exact ⟨_, h⟩
  | cons k keys ih =>
    intro calls tx tx' signs h he
    unfold signKeys at he
    obtain ⟨⟨sig, tx1⟩, e1, he⟩ := bind_ok he
    obtain ⟨⟨rest, tx2⟩, e2, he⟩ := bind_ok he
    cases he
    have hx : ∃ calls, History calls tx1 := by
      unfold signOne at e1
      split at e1
      · exact witnessSignature_history h e1
      · obtain ⟨g, _, e1⟩ := bind_ok e1
        cases e1
        exact ⟨_, h⟩
    obtain ⟨calls1, h1⟩ := hx
    exact ih h1 e2

private theorem sigHashFn_history (idx : Nat) (v : Locking.Version) (t : UInt8) :
    VMS.Keeps (fun tx => ∃ calls, History calls tx) (sigHashFn idx v t) := by
  rintro tx ⟨calls, h⟩
  unfold sigHashFn
  cases v with
  | base => exact ⟨_, h⟩
  | witnessV0 =>
    dsimp only
    split
    · rename_i d tx1 e
      exact ⟨_, .hash idx _ d h e⟩
    · exact ⟨_, h⟩
    · exact ⟨_, h⟩

private theorem verifyInputs_history (E : Ecdsa κ) (l : List (TxIn × Nat)) :
    VMS.Keeps (fun tx => ∃ calls, History calls tx) (verifyInputs E l) := by
  induction l with
  | nil => exact VMS.Keeps.lift _
  | cons p l ih =>
    obtain ⟨i, idx⟩ := p
    unfold verifyInputs
    refine VMS.Keeps.bind ?_ fun _ => ih
    unfold verifyInput
    refine VMS.Keeps.bind (VMS.Keeps.lift _) fun s => ?_
    intro tx h
    have q := VMS.verify_keeps (es := engineEnv E idx (Locking.scriptVersion s)) (fun t => sigHashFn_history idx _ t)
      i.rawUnlockingScript i.finalLockingScript VM.fresh tx h
    dsimp only
    split
    all_goals (rename_i e; rw [e] at q; exact q)

omit [Hashes] in
private theorem deserialize_caches {tx tx' : Transaction} {data rest : Bytes} (h : Tx.deserialize tx data = .ok (tx', rest)) :
    tx'.hashPrevouts = tx.hashPrevouts ∧ tx'.hashSequence = tx.hashSequence ∧ tx'.hashOutputs = tx.hashOutputs := by
  unfold Tx.deserialize at h
  obtain ⟨⟨v, b1⟩, _, h⟩ := bind_ok h
  obtain ⟨⟨m, b2⟩, _, h⟩ := bind_ok h
  dsimp only at h
  split at h
  · cases h
  · obtain ⟨⟨f, b3⟩, _, h⟩ := bind_ok h
    dsimp only at h
    split at h
    · cases h
    · obtain ⟨⟨ins, b4⟩, _, h⟩ := bind_ok h
      obtain ⟨⟨outs, b5⟩, _, h⟩ := bind_ok h
      obtain ⟨⟨ws, b6⟩, _, h⟩ := bind_ok h
      obtain ⟨⟨l, b7⟩, _, h⟩ := bind_ok h
      cases h
      exact ⟨rfl, rfl, rfl⟩

omit [Hashes] in
private theorem deserializeNoWitness_caches {tx tx' : Transaction} {data rest : Bytes}
    (h : Tx.deserializeNoWitness tx data = .ok (tx', rest)) :
    tx'.hashPrevouts = tx.hashPrevouts ∧ tx'.hashSequence = tx.hashSequence ∧ tx'.hashOutputs = tx.hashOutputs := by
  unfold Tx.deserializeNoWitness at h
  obtain ⟨a1, _, h⟩ := bind_ok h
  obtain ⟨a2, _, h⟩ := bind_ok h
  obtain ⟨a3, _, h⟩ := bind_ok h
  obtain ⟨a4, _, h⟩ := bind_ok h
  cases h
  exact ⟨rfl, rfl, rfl⟩

/-- **C42**: every object that the methods can produce has a history as in `C42_exact`. -/
theorem C42_reached (E : Ecdsa κ) (tx : Transaction) (h : Reached E tx) : ∃ calls, History calls tx := by
  induction h with
  | new => exact ⟨[], .new _ rfl rfl rfl⟩
  | setVersion v _ ih => obtain ⟨c, ih⟩ := ih; exact ⟨c, .edit ih rfl rfl rfl⟩
  | setLockTime v _ ih => obtain ⟨c, ih⟩ := ih; exact ⟨c, .edit ih rfl rfl rfl⟩
  | addInput i _ ih => obtain ⟨c, ih⟩ := ih; exact ⟨c, .edit ih rfl rfl rfl⟩
  | addOutput o _ ih => obtain ⟨c, ih⟩ := ih; exact ⟨c, .edit ih rfl rfl rfl⟩
  | setTxIn idx a s r _ he ih =>
    obtain ⟨c, ih⟩ := ih
    obtain ⟨_, _, _, _, c5, c6, c7⟩ := setTxIn_core he
    exact ⟨c, .edit ih c5 c6 c7⟩
  | witnessHash idx t d _ he ih => obtain ⟨c, ih⟩ := ih; exact ⟨_, .hash idx t d ih he⟩
  | witnessSignature idx t key sig _ he ih => obtain ⟨c, ih⟩ := ih; exact witnessSignature_history ih he
  | embed idx signs _ he ih => obtain ⟨c, ih⟩ := ih; exact ⟨c, embed_history ih he⟩
  | signIndex idx compressed t keys _ he ih =>
    obtain ⟨c, ih⟩ := ih
    unfold Tx.signIndex at he
    obtain ⟨i, _, he⟩ := bind_ok he
    split at he
    · cases he
    · obtain ⟨⟨signs, tx1⟩, e1, he⟩ := bind_ok he
      obtain ⟨c1, h1⟩ := signKeys_history keys ih e1
      exact ⟨c1, embed_history h1 he⟩
  | deserialize data rest _ he ih =>
    obtain ⟨c, ih⟩ := ih
    obtain ⟨c5, c6, c7⟩ := deserialize_caches he
    exact ⟨c, .edit ih c5 c6 c7⟩
  | deserializeNoWitness data rest _ he ih =>
    obtain ⟨c, ih⟩ := ih
    obtain ⟨c5, c6, c7⟩ := deserializeNoWitness_caches he
    exact ⟨c, .edit ih c5 c6 c7⟩
  | verify _ ih => exact verifyInputs_history E _ _ ih

end Toku.Props

namespace Toku.Props
open Toku Toku.Spec Toku.Tx

/-- The history of `C42_negation_mixed`: a hash of type NONE, then one of type ALL, in which sequences and outputs are zeros. -/
example [Hashes] : ∃ tx2, witnessSignatureHash (updateCaches exTx 2) 0 1 =
    .ok (sha256d (preimageAfter [(exTx, 2)] (updateCaches exTx 2) exTx.inputs[0] 1), tx2) := by
  obtain ⟨tx2, h2, _⟩ := C42_exact [(exTx, 2)] (updateCaches exTx 2) (.hash 0 2 _ (.new exTx rfl rfl rfl) rfl) 0 exTx.inputs[0] 1
    rfl (by decide) (by
      intro c hc o ho
      simp only [List.cons_append, List.nil_append, List.mem_cons, List.not_mem_nil, or_false] at hc
      rcases hc with rfl | rfl <;> exact exTx_encodable.out o ho)
  exact ⟨tx2, h2⟩

example : (remembered zeroOutputs (@outputsDigest modHashes) [(exTx, 2), (exTx, 1)]) = List.replicate 32 0 ∧
    (remembered zeroPrevouts (@prevoutsDigest modHashes) [(exTx, 2), (exTx, 1)]) = @prevoutsDigest modHashes exTx ∧
    @prevoutsDigest modHashes exTx ≠ List.replicate 32 0 ∧ @sequenceDigest modHashes exTx ≠ List.replicate 32 0 ∧
    @outputsDigest modHashes exTx ≠ List.replicate 32 0 := by decide +kernel

/-- A hash of type ALL, then one of type NONE after an output was added: `C42_covering_partial` applies. -/
example : ∀ o : TxOut, (∀ c ∈ [(exTx, (1 : UInt32))], CoversAll c.2 2) ∧ SameFor 2 exTx (addOutput exTx o) := by
  refine fun o => ⟨fun c hc => ?_, fun _ => rfl, fun _ => rfl, fun h => absurd rfl h⟩
  rw [List.mem_singleton] at hc
  subst hc
  exact ⟨by decide, by decide, by decide⟩

end Toku.Props
