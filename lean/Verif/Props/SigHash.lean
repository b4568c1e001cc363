import Verif.Props.Tx
/-
Properties C39 to C42: signature hashes (xcore/transaction.go:281-384).
-/
namespace Toku.Props
open Toku Toku.Spec Toku.Tx

/-! ### C39 -/

/-- **C39**, format: the SIGHASH_ALL preimage is the original Bitcoin one. -/
theorem C39_format (tx : Transaction) (h : Encodable tx) (idx : Nat) (i : TxIn) (code : Bytes)
    (hi : tx.inputs[idx]? = some i) (hc : signedScript i = .ok code) (hl : code.length < 2^62) :
    rawPreimage tx idx 1 = .ok (legacyPreimage tx idx code) := by
  apply rawPreimage_all h (by omega)
  intro j hj
  rw [hi] at hj
  cases hj
  exact hc

theorem legacy_lists {tx tx' : Transaction} (h : Encodable tx) (h' : Encodable tx') {idx idx' : Nat} {code code' : Bytes}
    (hl : code.length < 2^62) (hl' : code'.length < 2^62)
    (he : legacyPreimage tx idx code = legacyPreimage tx' idx' code') :
    tx.version = tx'.version ∧ tx.lockTime = tx'.lockTime ∧ tx.outputs = tx'.outputs ∧
    tx.inputs.zipIdx.map (fun p => (p.1.hash, p.1.index, (if p.2 = idx then code else []), p.1.sequence)) =
    tx'.inputs.zipIdx.map (fun p => (p.1.hash, p.1.index, (if p.2 = idx' then code' else []), p.1.sequence)) := by
  unfold legacyPreimage at he
  simp only [List.append_assoc] at he
  obtain ⟨e1, he⟩ := Wire.le4_prefix he
  -- rewrite both lists over the tuples that are encoded
  have conv : ∀ (l : List (TxIn × Nat)) (k : Nat) (c : Bytes),
      counted (fun p : TxIn × Nat => wireIn p.1.hash p.1.index (if p.2 = k then c else []) p.1.sequence) l =
      counted (fun q : Bytes × UInt32 × Bytes × UInt32 => wireIn q.1 q.2.1 q.2.2.1 q.2.2.2)
        (l.map (fun p => (p.1.hash, p.1.index, (if p.2 = k then c else []), p.1.sequence))) := by
    intro l k c
    unfold counted
    rw [List.length_map, List.flatMap_map]
  rw [conv, conv] at he
  have ok : ∀ (tx : Transaction), Encodable tx → ∀ (k : Nat) (c : Bytes), c.length < 2^62 →
      ∀ q ∈ tx.inputs.zipIdx.map (fun p => (p.1.hash, p.1.index, (if p.2 = k then c else []), p.1.sequence)),
      q.1.length = 32 ∧ q.2.2.1.length < 2^62 := by
    intro tx h k c hc q hq
    obtain ⟨⟨i, n⟩, hp, rfl⟩ := List.mem_map.mp hq
    have hi : i ∈ tx.inputs := List.mem_of_getElem? (List.mem_zipIdx_iff_getElem?.mp hp)
    refine ⟨h.hash i hi, ?_⟩
    show (if n = k then c else []).length < 2^62
    split
    · exact hc
    · simp
  obtain ⟨e2, he⟩ := Wire.counted_prefix (norm := fun q : Bytes × UInt32 × Bytes × UInt32 => q)
    (ok := fun q => q.1.length = 32 ∧ q.2.2.1.length < 2^62)
    (fun x y s t hx hy e => by
      obtain ⟨a, b⟩ := Wire.wireIn_prefix hx.1 hy.1 (by have := hx.2; omega) (by have := hy.2; omega) e
      exact ⟨a, b⟩)
    (by rw [List.length_map, List.length_zipIdx]; have := h.ins; omega)
    (by rw [List.length_map, List.length_zipIdx]; have := h'.ins; omega)
    (ok tx h idx code hl) (ok tx' h' idx' code' hl') he
  obtain ⟨e3, he⟩ := Wire.counted_prefix (norm := fun o : TxOut => o) (ok := fun o : TxOut => o.script.length < 2^62)
    (fun x y s t hx hy e => Wire.wireOut_prefix (by omega) (by omega) e)
    (by have := h.outs; omega) (by have := h'.outs; omega) h.out h'.out he
  obtain ⟨e4, _⟩ := Wire.le4_prefix he
  simp only [List.map_id'] at e2 e3
  exact ⟨e1, e4, e3, e2⟩

theorem map_zipIdx {α β : Type} (f : α → β) (l : List α) : l.zipIdx.map (fun p => f p.1) = l.map f := by
  have : l.zipIdx.map (fun p => f p.1) = (l.zipIdx.map Prod.fst).map f := by rw [List.map_map]; rfl
  rw [this, List.zipIdx_map_fst]

/-- **C39.** Equal SIGHASH_ALL preimages at the same index mean equal version, lock time, outpoints and sequences of
all inputs, outputs, and script code. -/
theorem C39_commits (tx tx' : Transaction) (h : Encodable tx) (h' : Encodable tx') (idx : Nat) (i i' : TxIn)
    (code code' : Bytes) (hi : tx.inputs[idx]? = some i) (hi' : tx'.inputs[idx]? = some i')
    (hc : signedScript i = .ok code) (hc' : signedScript i' = .ok code') (hl : code.length < 2^62)
    (hl' : code'.length < 2^62) (he : rawPreimage tx idx 1 = rawPreimage tx' idx 1) :
    tx.version = tx'.version ∧ tx.lockTime = tx'.lockTime ∧ tx.outputs = tx'.outputs ∧
    tx.inputs.map (fun i => (i.hash, i.index, i.sequence)) = tx'.inputs.map (fun i => (i.hash, i.index, i.sequence)) ∧
    code = code' := by
  rw [C39_format tx h idx i code hi hc hl, C39_format tx' h' idx i' code' hi' hc' hl'] at he
  simp only [Res.ok.injEq] at he
  obtain ⟨a1, a2, a3, a4⟩ := legacy_lists h h' hl hl' he
  refine ⟨a1, a2, a3, ?_, ?_⟩
  · have := congrArg (List.map (fun q : Bytes × UInt32 × Bytes × UInt32 => (q.1, q.2.1, q.2.2.2))) a4
    rw [List.map_map, List.map_map] at this
    rw [← map_zipIdx (fun i : TxIn => (i.hash, i.index, i.sequence)),
      ← map_zipIdx (fun i : TxIn => (i.hash, i.index, i.sequence))]
    exact this
  · have := congrArg (fun l => l[idx]?) a4
    simp only [List.getElem?_map, List.getElem?_zipIdx, hi, hi'] at this
    simp at this
    exact this.2.2.1

example : Encodable exTx ∧ (∃ i, exTx.inputs[1]? = some i ∧ signedScript i = .ok []) :=
  ⟨exTx_encodable, _, rfl, by decide⟩

/-! ### C40 -/

/-- **C40**, SIGHASH_ALL: equal preimages, whatever the two indices, mean that the same outpoint is spent (and the
indices are equal). The script codes are those of real coins, hence not empty. -/
theorem C40_all_partial (tx tx' : Transaction) (h : Encodable tx) (h' : Encodable tx') (idx idx' : Nat) (i i' : TxIn)
    (code code' : Bytes) (hi : tx.inputs[idx]? = some i) (hi' : tx'.inputs[idx']? = some i')
    (hc : signedScript i = .ok code) (hc' : signedScript i' = .ok code') (hl : code.length < 2^62)
    (hl' : code'.length < 2^62) (hne : code ≠ [])
    (he : rawPreimage tx idx 1 = rawPreimage tx' idx' 1) :
    idx = idx' ∧ i.hash = i'.hash ∧ i.index = i'.index ∧ code = code' := by
  rw [C39_format tx h idx i code hi hc hl, C39_format tx' h' idx' i' code' hi' hc' hl'] at he
  simp only [Res.ok.injEq] at he
  obtain ⟨_, _, _, a4⟩ := legacy_lists h h' hl hl' he
  have hx := congrArg (fun l => l[idx]?) a4
  simp only [List.getElem?_map, List.getElem?_zipIdx, hi] at hx
  by_cases hk : idx = idx'
  · subst hk
    rw [hi'] at hx
    simp at hx
    exact ⟨rfl, hx.1, hx.2.1, hx.2.2.1⟩
  · exfalso
    cases hj : tx'.inputs[idx]? with
    | none => rw [hj] at hx; simp at hx
    | some j =>
      rw [hj] at hx
      simp [hk] at hx
      exact hne hx.2.2.1

/-- **C40** for every other hash type is false in the strongest sense: the legacy hash depends on nothing but
version, lock time and hash type, so a signature made for one input is valid for every input of every transaction
with the same version and lock time (whatever it spends and pays). -/
theorem C40_other_types [Hashes] (tx tx' : Transaction) (idx idx' : Nat) (t : UInt32) (ht : t ≠ 1)
    (hv : tx.version = tx'.version) (hl : tx.lockTime = tx'.lockTime) :
    rawSignatureHash tx idx t = rawSignatureHash tx' idx' t := by
  unfold rawSignatureHash
  rw [rawPreimage_other ht, rawPreimage_other ht, hv, hl]

/-- **C40** fails: two inputs with different outpoints and the same legacy hash, for each of NONE, SINGLE and
ALL|ANYONECANPAY. -/
theorem C40_negation [Hashes] : ∃ tx : Transaction, ∃ i j, tx.inputs[0]? = some i ∧ tx.inputs[1]? = some j ∧
    i.hash ≠ j.hash ∧ ∀ t ∈ [2, 3, 0x81], rawSignatureHash tx 0 t = rawSignatureHash tx 1 t := by
  refine ⟨exTx, _, _, rfl, rfl, by decide, ?_⟩
  intro t ht
  apply C40_other_types _ _ _ _ _ _ rfl rfl
  rintro rfl
  revert ht
  decide

/-! ### C41 -/

/-- **C41**, format: on empty caches the witness hash for SIGHASH_ALL is the double SHA-256 of the BIP143 preimage. -/
theorem C41_bip143 [Hashes] (tx : Transaction) (h : Encodable tx) (idx : Nat) (i : TxIn)
    (hi : tx.inputs[idx]? = some i) (hc : ∀ c, i.witnessScriptCode = some c → c.length < 2^62)
    (h1 : tx.hashPrevouts = none) (h2 : tx.hashSequence = none) (h3 : tx.hashOutputs = none) :
    ∃ tx', witnessSignatureHash tx idx 1 = .ok (sha256d (bip143 tx idx i 1), tx') := by
  unfold witnessSignatureHash
  rw [hi]
  refine ⟨updateCaches tx 1, ?_⟩
  change Res.ok (_, _) = Res.ok (_, _)
  have hl : (i.witnessScriptCode.getD []).length < 2^64 := by
    cases hx : i.witnessScriptCode with
    | none => simp
    | some c => have := hc c hx; simp only [Option.getD_some]; omega
  rw [witnessPreimage_eq _ _ _ hl]
  unfold updateCaches cachePrevouts cacheSequence cacheOutputs bip143
  simp only [h1, h2, h3, Option.getD_none, Option.getD_some, prevouts_data, sequences_data, outputs_data h.out]
  rfl

/-- **C41**, all hash types: the code's hash is the BIP143 one for every hash type whose low five bits are 0, 1 or 2
(with or without ANYONECANPAY). -/
theorem C41_bip143_types [Hashes] (tx : Transaction) (h : Encodable tx) (idx : Nat) (i : TxIn) (t : UInt32)
    (ht : t &&& 0x1f = 0 ∨ t &&& 0x1f = 1 ∨ t &&& 0x1f = 2)
    (hi : tx.inputs[idx]? = some i) (hc : ∀ c, i.witnessScriptCode = some c → c.length < 2^62)
    (h1 : tx.hashPrevouts = none) (h2 : tx.hashSequence = none) (h3 : tx.hashOutputs = none) :
    ∃ tx', witnessSignatureHash tx idx t = .ok (sha256d (bip143 tx idx i t), tx') := by
  unfold witnessSignatureHash
  rw [hi]
  refine ⟨updateCaches tx t, ?_⟩
  change Res.ok (_, _) = Res.ok (_, _)
  have hl : (i.witnessScriptCode.getD []).length < 2^64 := by
    cases hx : i.witnessScriptCode with
    | none => simp
    | some c => have := hc c hx; simp only [Option.getD_some]; omega
  have e3 : t &&& 3 = (t &&& 0x1f) &&& 3 := by
    rw [UInt32.and_assoc]; rfl
  have e2 : t &&& 2 = (t &&& 0x1f) &&& 2 := by
    rw [UInt32.and_assoc]; rfl
  rw [witnessPreimage_eq _ _ _ hl]
  unfold updateCaches cachePrevouts cacheSequence cacheOutputs bip143
  simp only [h1, h2, h3, Option.getD_none, Option.getD_some, prevouts_data, sequences_data, outputs_data h.out, e3, e2]
  by_cases ha : t &&& 0x80 = 0
  all_goals
    rcases ht with q | q | q
    all_goals
      rw [q]
      simp only [ha, ne_eq, not_true_eq_false, not_false_eq_true, true_and, false_and, true_or, false_or, if_true,
        if_false] <;> rfl

/-- **C41**, injectivity: equal BIP143 preimages mean equal version, lock time, hash type, outpoint, script code,
amount, sequence and equal hashes of prevouts, sequences and outputs. -/
theorem C41_injective [Hashes] (tx tx' : Transaction) (i i' : TxIn) (idx idx' : Nat) (t t' : UInt32)
    (h32 : i.hash.length = 32) (h32' : i'.hash.length = 32) (c c' : Bytes) (hc : i.witnessScriptCode = some c)
    (hc' : i'.witnessScriptCode = some c') (hl : c.length < 2^62) (hl' : c'.length < 2^62)
    (he : bip143 tx idx i t = bip143 tx' idx' i' t') :
    tx.version = tx'.version ∧ tx.lockTime = tx'.lockTime ∧ t = t' ∧ i.hash = i'.hash ∧ i.index = i'.index ∧
    i.sequence = i'.sequence ∧ c = c' ∧ i.value = i'.value ∧
    (t &&& 0x80 = 0 → sha256d (tx.inputs.flatMap fun i => i.hash ++ le 4 i.index.toNat) =
      sha256d (tx'.inputs.flatMap fun i => i.hash ++ le 4 i.index.toNat)) ∧
    (t = 1 → sha256d (tx.inputs.flatMap fun i => le 4 i.sequence.toNat) =
      sha256d (tx'.inputs.flatMap fun i => le 4 i.sequence.toNat) ∧
      sha256d (tx.outputs.flatMap wireOut) = sha256d (tx'.outputs.flatMap wireOut)) := by
  unfold bip143 at he
  simp only [List.append_assoc] at he
  have z32 : (List.replicate 32 (0 : UInt8)).length = 32 := by decide
  have l1 : ∀ (tx : Transaction) (t : UInt32), (if t &&& 0x80 ≠ 0 then List.replicate 32 0 else
      sha256d (tx.inputs.flatMap fun i => i.hash ++ le 4 i.index.toNat)).length = 32 := by
    intro tx t; split
    · exact z32
    · exact sha256d_length _
  have l2 : ∀ (tx : Transaction) (t : UInt32), (if t &&& 0x80 ≠ 0 ∨ t &&& 0x1f = 3 ∨ t &&& 0x1f = 2 then
      List.replicate 32 0 else sha256d (tx.inputs.flatMap fun i => le 4 i.sequence.toNat)).length = 32 := by
    intro tx t; split
    · exact z32
    · exact sha256d_length _
  have l3 : ∀ (tx : Transaction) (k : Nat) (t : UInt32), (if t &&& 0x1f = 3 then
      (match tx.outputs[k]? with | some o => sha256d (wireOut o) | none => List.replicate 32 0)
      else if t &&& 0x1f = 2 then List.replicate 32 0 else sha256d (tx.outputs.flatMap wireOut)).length = 32 := by
    intro tx k t; split
    · split
      · exact sha256d_length _
      · exact z32
    · split
      · exact z32
      · exact sha256d_length _
  obtain ⟨e1, he⟩ := Wire.le4_prefix he
  obtain ⟨e2, he⟩ := List.append_inj he (by rw [l1, l1])
  obtain ⟨e3, he⟩ := List.append_inj he (by rw [l2, l2])
  obtain ⟨e4, he⟩ := List.append_inj he (by rw [h32, h32'])
  obtain ⟨e5, he⟩ := Wire.le4_prefix he
  rw [hc, hc'] at he
  obtain ⟨e6, he⟩ := Wire.varStr_prefix (by simp only [Option.getD_some]; omega) (by simp only [Option.getD_some]; omega) he
  obtain ⟨e7, he⟩ := Wire.le8_prefix he
  obtain ⟨e8, he⟩ := Wire.le4_prefix he
  obtain ⟨e9, he⟩ := List.append_inj he ((l3 tx idx t).trans (l3 tx' idx' t').symm)
  obtain ⟨e10, he⟩ := Wire.le4_prefix he
  rw [← List.append_nil (le 4 t.toNat), ← List.append_nil (le 4 t'.toNat)] at he
  obtain ⟨e11, _⟩ := Wire.le4_prefix he
  refine ⟨e1, e10, e11, e4, e5, e8, e6, e7, ?_, ?_⟩
  · intro ha
    rw [← e11] at e2
    simpa [ha] using e2
  · intro ht
    subst ht
    subst e11
    exact ⟨e3, e9⟩

/-- **C41** does not extend to SIGHASH_SINGLE: the hash there ignores the output that BIP143 commits to. -/
theorem C41_single_ignores_outputs [Hashes] (tx : Transaction) (outs : List TxOut) (idx : Nat) : (witnessSignatureHash tx idx 3).bind (fun p => .ok p.1) =
      (witnessSignatureHash { tx with outputs := outs } idx 3).bind (fun p => .ok p.1) := by
  unfold witnessSignatureHash
  cases tx.inputs[idx]? <;> rfl

example : ∃ tx', @witnessSignatureHash toyHashes exTx 0 1 =
    .ok (@sha256d toyHashes (@bip143 toyHashes exTx 0 exTx.inputs[0] 1), tx') :=
  @C41_bip143 toyHashes exTx exTx_encodable 0 _ rfl (by intro c hc; cases hc; decide) rfl rfl rfl

/-! ### C42 -/

/-- Hash types that make the same choices about what is covered. -/
def SameClass (t t' : UInt32) : Prop :=
  (t &&& 0x80 = 0 ↔ t' &&& 0x80 = 0) ∧
  ((t &&& 0x1f ≠ 3 ∧ t &&& 0x1f ≠ 2) ↔ (t' &&& 0x1f ≠ 3 ∧ t' &&& 0x1f ≠ 2)) ∧
  ((t &&& 3 ≠ 3 ∧ t &&& 2 ≠ 2) ↔ (t' &&& 3 ≠ 3 ∧ t' &&& 2 ≠ 2))

/-- One operation that cannot spoil the hashes of type `t`: a witness hash of a type of the same class, a change of
version or lock time, supplying a coin, storing unlocking data in an input. -/
inductive Op [Hashes] (t : UInt32) : Transaction → Transaction → Prop
  | hash (tx tx' : Transaction) (idx : Nat) (t' : UInt32) (d : Bytes) :
      SameClass t t' → witnessSignatureHash tx idx t' = .ok (d, tx') → Op t tx tx'
  | version (tx : Transaction) (v : UInt32) : Op t tx (setVersion tx v)
  | lockTime (tx : Transaction) (v : UInt32) : Op t tx (setLockTime tx v)
  | setTxIn (tx tx' : Transaction) (idx : Nat) (a : UInt64) (s : Bytes) (r : Option Bytes) :
      Tx.setTxIn tx idx a s r = .ok tx' → Op t tx tx'
  | embed (tx : Transaction) (idx : Nat) (i : TxIn) (u : Bytes) (w : List Bytes) : tx.inputs[idx]? = some i →
      Op t tx (putInput tx idx { i with rawUnlockingScript := u, witness := w })

/-- The caches are empty or what type `t` needs. -/
def CachesOk [Hashes] (t : UInt32) (tx : Transaction) : Prop :=
  let tx0 := { tx with hashPrevouts := none, hashSequence := none, hashOutputs := none }
  (∀ c, tx.hashPrevouts = some c → c = cachePrevouts tx0 t) ∧
  (∀ c, tx.hashSequence = some c → c = cacheSequence tx0 t) ∧
  (∀ c, tx.hashOutputs = some c → c = cacheOutputs tx0 t)

theorem cache_vals [Hashes] {t : UInt32} {tx : Transaction} (h : CachesOk t tx) (t' : UInt32) (hs : SameClass t t') :
    let tx0 := { tx with hashPrevouts := none, hashSequence := none, hashOutputs := none }
    cachePrevouts tx t' = cachePrevouts tx0 t ∧ cacheSequence tx t' = cacheSequence tx0 t ∧
    cacheOutputs tx t' = cacheOutputs tx0 t := by
  obtain ⟨h1, h2, h3⟩ := h
  obtain ⟨s1, s2, s3⟩ := hs
  dsimp only at h1 h2 h3 ⊢
  refine ⟨?_, ?_, ?_⟩
  · unfold cachePrevouts at h1 ⊢
    by_cases ha : t &&& 0x80 = 0
    · rw [if_pos ha] at h1 ⊢
      rw [if_pos (s1.mp ha)]
      cases hx : tx.hashPrevouts with
      | none => rfl
      | some c => rw [h1 c hx]; rfl
    · rw [if_neg ha, if_neg (fun q => ha (s1.mpr q))]
  · unfold cacheSequence at h2 ⊢
    have hiff : (t &&& 0x80 = 0 ∧ t &&& 0x1f ≠ 3 ∧ t &&& 0x1f ≠ 2) ↔
        (t' &&& 0x80 = 0 ∧ t' &&& 0x1f ≠ 3 ∧ t' &&& 0x1f ≠ 2) := and_congr s1 s2
    by_cases ha : (t &&& 0x80 = 0 ∧ t &&& 0x1f ≠ 3 ∧ t &&& 0x1f ≠ 2)
    · rw [if_pos ha] at h2 ⊢
      rw [if_pos (hiff.mp ha)]
      cases hx : tx.hashSequence with
      | none => rfl
      | some c => rw [h2 c hx]; rfl
    · rw [if_neg ha, if_neg (fun q => ha (hiff.mpr q))]
  · unfold cacheOutputs at h3 ⊢
    by_cases ha : t &&& 3 ≠ 3 ∧ t &&& 2 ≠ 2
    · rw [if_pos ha] at h3 ⊢
      rw [if_pos (s3.mp ha)]
      cases hx : tx.hashOutputs with
      | none => rfl
      | some c => rw [h3 c hx]; rfl
    · rw [if_neg ha, if_neg (fun q => ha (s3.mpr q))]

/-- The caches depend only on outpoints, sequences and outputs. -/
theorem cachesOk_congr [Hashes] {t : UInt32} {tx tx' : Transaction} (h : CachesOk t tx)
    (h1 : tx'.hashPrevouts = tx.hashPrevouts) (h2 : tx'.hashSequence = tx.hashSequence)
    (h3 : tx'.hashOutputs = tx.hashOutputs) (ho : tx'.outputs = tx.outputs)
    (hi : tx'.inputs.map (fun i => (i.hash, i.index, i.sequence)) = tx.inputs.map (fun i => (i.hash, i.index, i.sequence))) :
    CachesOk t tx' := by
  have p1 : ∀ (l l' : List TxIn), l.map (fun i => (i.hash, i.index, i.sequence)) = l'.map (fun i => (i.hash, i.index, i.sequence)) →
      ∀ b : Buffer, l.foldl (fun b i => (b.writeBytes i.hash).writeU32 i.index) b =
        l'.foldl (fun b i => (b.writeBytes i.hash).writeU32 i.index) b ∧
        l.foldl (fun b i => b.writeU32 i.sequence) b = l'.foldl (fun b i => b.writeU32 i.sequence) b := by
    intro l
    induction l with
    | nil => intro l' e b; cases l' with
      | nil => exact ⟨rfl, rfl⟩
      | cons a l' => simp at e
    | cons x l ih => intro l' e b; cases l' with
      | nil => simp at e
      | cons a l' =>
        simp only [List.map_cons, List.cons.injEq, Prod.mk.injEq] at e
        obtain ⟨⟨e1, e2, e3⟩, e⟩ := e
        simp only [List.foldl_cons, e1, e2, e3]
        exact ⟨(ih l' e _).1, (ih l' e _).2⟩
  obtain ⟨q1, q2, q3⟩ := h
  unfold CachesOk
  dsimp only at q1 q2 q3 ⊢
  rw [h1, h2, h3]
  unfold cachePrevouts cacheSequence cacheOutputs at *
  dsimp only at q1 q2 q3 ⊢
  rw [ho, (p1 _ _ hi Buffer.new).1, (p1 _ _ hi Buffer.new).2]
  exact ⟨q1, q2, q3⟩

theorem op_keeps [Hashes] {t : UInt32} {tx tx' : Transaction} (h : Op t tx tx') (hc : CachesOk t tx) : CachesOk t tx' := by
  cases h with
  | hash _ idx t' d hs he =>
    unfold witnessSignatureHash at he
    cases hi : tx.inputs[idx]? with
    | none => rw [hi] at he; cases he
    | some i =>
      rw [hi] at he
      change Res.ok _ = Res.ok _ at he
      simp only [Res.ok.injEq, Prod.mk.injEq] at he
      obtain ⟨_, rfl⟩ := he
      obtain ⟨v1, v2, v3⟩ := cache_vals hc t' hs
      refine ⟨?_, ?_, ?_⟩
      · intro c hx
        change some _ = some _ at hx
        simp only [Option.some.injEq] at hx
        rw [← hx, v1]; rfl
      · intro c hx
        change some _ = some _ at hx
        simp only [Option.some.injEq] at hx
        rw [← hx, v2]; rfl
      · intro c hx
        change some _ = some _ at hx
        simp only [Option.some.injEq] at hx
        rw [← hx, v3]; rfl
  | version v => exact hc
  | lockTime v => exact hc
  | setTxIn _ idx a s r he =>
    obtain ⟨_, _, c3, c4, c5, c6, c7⟩ := setTxIn_core he
    refine cachesOk_congr hc c5 c6 c7 c3 ?_
    have := congrArg (List.map (fun q : Bytes × UInt32 × UInt32 × List Bytes => (q.1, q.2.1, q.2.2.1))) c4
    rw [List.map_map, List.map_map] at this
    exact this
  | embed idx i u w hi =>
    refine cachesOk_congr hc rfl rfl rfl rfl ?_
    unfold putInput
    simp only
    rw [List.map_set]
    apply List.ext_getElem?
    intro k
    rw [List.getElem?_set]
    by_cases hk : idx = k
    · subst hk
      have hlt : idx < tx.inputs.length := by
        by_contra hcc
        rw [List.getElem?_eq_none (by omega)] at hi
        cases hi
      rw [if_pos rfl, List.length_map, if_pos hlt, List.getElem?_map, hi]
      rfl
    · rw [if_neg hk]

/-- **C42**, partial: starting from empty caches, after any sequence of operations that compute witness hashes of types of
the same class, set version or lock time, supply coins or store unlocking data, the witness hash is the one that a
transaction with empty caches and the same contents has. Missing: operations of another class, `AddInput` and
`AddOutput` (see the negations). -/
theorem C42_history_partial [Hashes] (t : UInt32) (tx0 tx : Transaction) (idx : Nat)
    (h1 : tx0.hashPrevouts = none) (h2 : tx0.hashSequence = none) (h3 : tx0.hashOutputs = none)
    (hist : Relation.ReflTransGen (Op t) tx0 tx) :
    (witnessSignatureHash tx idx t).bind (fun p => .ok p.1) =
    (witnessSignatureHash { tx with hashPrevouts := none, hashSequence := none, hashOutputs := none } idx t).bind
      (fun p => .ok p.1) := by
  have hc : CachesOk t tx := by
    induction hist with
    | refl =>
      refine ⟨?_, ?_, ?_⟩
      · intro c hx; rw [h1] at hx; cases hx
      · intro c hx; rw [h2] at hx; cases hx
      · intro c hx; rw [h3] at hx; cases hx
    | tail _ hop ih => exact op_keeps hop ih
  obtain ⟨v1, v2, v3⟩ := cache_vals hc t ⟨Iff.rfl, Iff.rfl, Iff.rfl⟩
  unfold witnessSignatureHash
  cases hi : tx.inputs[idx]? with
  | none => rfl
  | some i =>
    change Res.ok _ = Res.ok _
    unfold updateCaches witnessPreimage
    dsimp only at v1 v2 v3 ⊢
    rw [v1, v2, v3]

example : Relation.ReflTransGen (@Op toyHashes 1) exTx (setLockTime exTx 9) :=
  Relation.ReflTransGen.single (@Op.lockTime toyHashes 1 exTx 9)

/-- A toy hash for the example below: the bytes as a number modulo a prime. -/
@[instance_reducible] def modHashes : Hashes where
  sha256 x := le 32 (beNat (1 :: x) % (2^255 - 19))
  sha256_length x := Wire.le_length 32 _
  sha512 x := le 64 (beNat (1 :: x) % (2^255 - 19))
  sha512_length x := Wire.le_length 64 _

/-- **C42** fails, first way: computing a hash of type NONE changes a later hash of type ALL (here with a toy hash
function; the preimages contain zeros instead of the digests). -/
theorem C42_negation_mixed : ∃ (tx tx1 : Transaction) (d d1 d2 : Bytes) (tx2 tx3 : Transaction),
    @witnessSignatureHash modHashes tx 0 2 = .ok (d, tx1) ∧
    @witnessSignatureHash modHashes tx1 0 1 = .ok (d1, tx2) ∧
    @witnessSignatureHash modHashes tx 0 1 = .ok (d2, tx3) ∧ d1 ≠ d2 :=
  ⟨exTx, _, _, _, _, _, _, rfl, rfl, rfl, by decide +kernel⟩

/-- **C42** fails, second way: an output added after a hash was computed is not covered by later hashes; for all hash
functions, the new output can be anything. -/
theorem C42_negation_addOutput [Hashes] (tx tx1 : Transaction) (d : Bytes) (o : TxOut) (idx : Nat)
    (h : witnessSignatureHash tx idx 1 = .ok (d, tx1)) :
    ∃ tx2, witnessSignatureHash (addOutput tx1 o) idx 1 = .ok (d, tx2) := by
  unfold witnessSignatureHash at h
  cases hi : tx.inputs[idx]? with
  | none => rw [hi] at h; cases h
  | some i =>
    rw [hi] at h
    change Res.ok _ = Res.ok _ at h
    simp only [Res.ok.injEq, Prod.mk.injEq] at h
    obtain ⟨h1, rfl⟩ := h
    refine ⟨updateCaches (addOutput (updateCaches tx 1) o) 1, ?_⟩
    unfold witnessSignatureHash
    rw [show (addOutput (updateCaches tx 1) o).inputs[idx]? = some i from hi]
    change Res.ok (_, _) = Res.ok (_, _)
    rw [← h1]
    rfl

end Toku.Props
