import Verif.Proof.SigHash
/-
Properties C34 to C38: serialisation, identifiers and sizes of transactions (xcore/transaction.go).
-/
namespace Toku.Props
open Toku Toku.Spec Toku.Tx

/-- An example: one witness input with a two-element stack, one legacy input, one output. -/
def exTx : Transaction :=
  { version := 2, lockTime := 7,
    inputs := [{ TxIn.empty with hash := List.replicate 32 0xaa, index := 1, sequence := 0xffffffff,
                                 witness := [[1, 2], []], witnessScriptCode := some [0x51] },
               { TxIn.empty with hash := List.replicate 32 0xbb, index := 0, sequence := 5,
                                 rawUnlockingScript := [0x51, 0x52] }],
    outputs := [⟨5000, [0x6a, 0x01, 0x02]⟩], hashPrevouts := none, hashSequence := none, hashOutputs := none }

theorem exTx_encodable : Encodable exTx :=
  ⟨by decide, by decide, by decide, by decide, by decide, by decide⟩

/-! ### C34 -/

/-- **C34**, format: a transaction with a witness input is serialised in the BIP144 format. -/
theorem C34_format (tx : Transaction) (h : Encodable tx) (hw : ∃ i ∈ tx.inputs, i.witnessScriptCode ≠ none) :
    serialize tx = wireSegwit tx := by
  apply serialize_witness h
  obtain ⟨i, hi, hn⟩ := hw
  unfold hasWitness
  rw [List.any_eq_true]
  refine ⟨i, hi, ?_⟩
  unfold TxIn.hasWitness
  cases hc : i.witnessScriptCode with
  | none => exact absurd hc hn
  | some c => rfl

/-- **C34.** Deserialising the serialisation of a transaction with a witness input gives back version, outpoints,
sequences, the unlocking scripts of non-witness inputs, outputs, witness stacks and lock time, with nothing left
over. The size bound is 8 TiB. -/
theorem C34_roundtrip (tx : Transaction) (h : Encodable tx) (hw : ∃ i ∈ tx.inputs, i.witnessScriptCode ≠ none)
    (hs : (serialize tx).length < 2^43) :
    ∃ tx', deserialize Tx.new (serialize tx) = .ok (tx', []) ∧ tx'.version = tx.version ∧
      tx'.lockTime = tx.lockTime ∧ tx'.outputs = tx.outputs ∧
      List.Forall₂ (fun i i' => i'.hash = i.hash ∧ i'.index = i.index ∧ i'.sequence = i.sequence ∧
        i'.witness = i.witness ∧ (i.witnessScriptCode = none → i'.rawUnlockingScript = i.rawUnlockingScript))
        tx.inputs tx'.inputs := by
  rw [C34_format tx h hw] at hs ⊢
  refine ⟨_, deserialize_wire h hs, rfl, rfl, rfl, ?_⟩
  rw [List.forall₂_map_right_iff]
  apply List.forall₂_same.mpr
  intro i _
  refine ⟨rfl, rfl, rfl, rfl, ?_⟩
  intro hn
  show scriptSig i = _
  unfold scriptSig
  rw [if_pos hn]

example : (∃ i ∈ exTx.inputs, i.witnessScriptCode ≠ none) ∧ (serialize exTx).length < 2^43 ∧
    serialize exTx = [2, 0, 0, 0, 0, 1, 2] ++ List.replicate 32 0xaa ++ [1, 0, 0, 0, 0, 255, 255, 255, 255] ++
      List.replicate 32 0xbb ++ [0, 0, 0, 0, 2, 0x51, 0x52, 5, 0, 0, 0, 1, 0x88, 0x13, 0, 0, 0, 0, 0, 0, 3, 0x6a, 1, 2,
      2, 2, 1, 2, 0, 0, 7, 0, 0, 0] := by decide +kernel

/-! ### C35 -/

/-- **C35**, format: the no-witness serialisation is the legacy wire format. -/
theorem C35_format (tx : Transaction) (h : Encodable tx) : serializeNoWitness tx = wireLegacy tx :=
  serializeNoWitness_eq h

/-- **C35.** Deserialising the no-witness serialisation gives the same version, inputs (a witness input has an
empty script there), outputs and lock time, with nothing left over. -/
theorem C35_roundtrip (tx : Transaction) (h : Encodable tx) (hs : (serializeNoWitness tx).length < 2^43) :
    ∃ tx', deserializeNoWitness Tx.new (serializeNoWitness tx) = .ok (tx', []) ∧ tx'.version = tx.version ∧
      tx'.lockTime = tx.lockTime ∧ tx'.outputs = tx.outputs ∧
      List.Forall₂ (fun i i' => i'.hash = i.hash ∧ i'.index = i.index ∧ i'.sequence = i.sequence ∧
        i'.rawUnlockingScript = scriptSig i) tx.inputs tx'.inputs := by
  rw [C35_format tx h] at hs ⊢
  refine ⟨_, deserializeNoWitness_wire h hs, rfl, rfl, rfl, ?_⟩
  rw [List.forall₂_map_right_iff]
  apply List.forall₂_same.mpr
  intro i _
  exact ⟨rfl, rfl, rfl, rfl⟩

/-- **C35**, injectivity: transactions with equal no-witness serialisations agree in version, inputs, outputs and
lock time. -/
theorem C35_injective (tx tx' : Transaction) (h : Encodable tx) (h' : Encodable tx')
    (he : serializeNoWitness tx = serializeNoWitness tx') :
    tx.version = tx'.version ∧ tx.lockTime = tx'.lockTime ∧ tx.outputs = tx'.outputs ∧
    tx.inputs.map (fun i => (i.hash, i.index, scriptSig i, i.sequence)) =
      tx'.inputs.map (fun i => (i.hash, i.index, scriptSig i, i.sequence)) := by
  rw [C35_format tx h, C35_format tx' h'] at he
  unfold wireLegacy at he
  simp only [List.append_assoc] at he
  have ss : ∀ i : TxIn, i.rawUnlockingScript.length < 2^62 → (scriptSig i).length < 2^64 := by
    intro i hi
    unfold scriptSig
    split
    · omega
    · simp
  obtain ⟨e1, he⟩ := Wire.le4_prefix he
  obtain ⟨e2, he⟩ := Wire.counted_prefix (norm := fun i : TxIn => (i.hash, i.index, scriptSig i, i.sequence))
    (ok := fun i => i.hash.length = 32 ∧ i.rawUnlockingScript.length < 2^62)
    (fun x y s t hx hy e => Wire.wireIn_prefix hx.1 hy.1 (ss x hx.2) (ss y hy.2) e)
    (by have := h.ins; omega) (by have := h'.ins; omega) (fun i hi => ⟨h.hash i hi, h.script i hi⟩)
    (fun i hi => ⟨h'.hash i hi, h'.script i hi⟩) he
  obtain ⟨e3, he⟩ := Wire.counted_prefix (norm := id) (ok := fun o : TxOut => o.script.length < 2^62)
    (fun x y s t hx hy e => Wire.wireOut_prefix (by simp only [id]; omega) (by simp only [id]; omega) e)
    (by have := h.outs; omega) (by have := h'.outs; omega) h.out h'.out he
  rw [← List.append_nil (le 4 tx.lockTime.toNat), ← List.append_nil (le 4 tx'.lockTime.toNat)] at he
  obtain ⟨e4, _⟩ := Wire.le4_prefix he
  exact ⟨e1, e4, by simpa using e3, e2⟩

example : (serializeNoWitness exTx).length < 2^43 ∧ serializeNoWitness exTx =
    [2, 0, 0, 0, 2] ++ List.replicate 32 0xaa ++ [1, 0, 0, 0, 0, 255, 255, 255, 255] ++ List.replicate 32 0xbb ++
      [0, 0, 0, 0, 2, 0x51, 0x52, 5, 0, 0, 0, 1, 0x88, 0x13, 0, 0, 0, 0, 0, 0, 3, 0x6a, 1, 2, 7, 0, 0, 0] := by
  decide +kernel

/-! ### C36 -/

/-- **C36**, for the no-witness parser and serialiser. What the parser accepts is a legacy encoding of the parsed
transaction, and the serialisation of the result is the shortest such encoding; in particular it is the original
whenever the original is no longer than it (all its integers are in shortest form). -/
theorem C36_nowitness_partial (raw rest : Bytes) (tx : Transaction) (hraw : raw.length < 2^62)
    (h : deserializeNoWitness Tx.new raw = .ok (tx, rest)) :
    ∃ e, raw = e ++ rest ∧ IsLegacy e tx ∧ (serializeNoWitness tx).length ≤ e.length ∧
      (e.length = (serializeNoWitness tx).length → serializeNoWitness tx ++ rest = raw) := by
  obtain ⟨e, hr, hl, hb⟩ := parse_legacy hraw h
  have he := legacy_encodable hl (by rw [hr] at hraw; simp only [List.length_append] at hraw; omega) hb
  have hsh := sh_legacy hl
  rw [C35_format tx he]
  exact ⟨e, hr, hl, hsh.1, fun q => by rw [hr, hsh.2 q]⟩

/-- **C36**, witness parser. What it accepts is a BIP144 encoding of the parsed transaction (so all data, witness
stacks included, are parsed), but `Serialize` of the result is the legacy form without the witnesses. -/
theorem C36_witness_partial (raw rest : Bytes) (tx : Transaction) (hraw : raw.length < 2^62)
    (h : deserialize Tx.new raw = .ok (tx, rest)) :
    ∃ e, raw = e ++ rest ∧ IsSegwit e tx ∧ serialize tx = wireLegacy tx := by
  obtain ⟨e, hr, hl, hb⟩ := parse_segwit hraw h
  have he := segwit_encodable hl (by rw [hr] at hraw; simp only [List.length_append] at hraw; omega) hb
  refine ⟨e, hr, hl, ?_⟩
  rw [serialize_legacy, C35_format tx he]
  unfold hasWitness
  rw [List.any_eq_false]
  intro i hi
  unfold TxIn.hasWitness
  rw [hb i hi]
  simp

/-- Any sequence of `SetTxIn` calls. -/
def SetTxIns [Hashes] : Transaction → Transaction → Prop :=
  Relation.ReflTransGen (fun tx tx' => ∃ idx amount script redeem, setTxIn tx idx amount script redeem = .ok tx')

/-- **C36**, after `SetTxIn`. If a raw witness transaction is parsed and its coins are then supplied with `SetTxIn`
so that some input is a witness input, every witness input had an empty script and no other script was replaced,
then the serialisation is the original one up to the length of its integers. -/
theorem C36_after_set_partial [Hashes] (raw rest : Bytes) (tx tx2 : Transaction) (hraw : raw.length < 2^62)
    (h : deserialize Tx.new raw = .ok (tx, rest)) (hset : SetTxIns tx tx2)
    (hw : ∃ i ∈ tx2.inputs, i.witnessScriptCode ≠ none)
    (hs : tx2.inputs.map scriptSig = tx.inputs.map (·.rawUnlockingScript))
    (hs2 : ∀ i ∈ tx2.inputs, i.rawUnlockingScript.length < 2^62) :
    ∃ e, raw = e ++ rest ∧ (serialize tx2).length ≤ e.length ∧
      (e.length = (serialize tx2).length → serialize tx2 ++ rest = raw) := by
  obtain ⟨e, hr, hl, hb⟩ := parse_segwit hraw h
  have he := segwit_encodable hl (by rw [hr] at hraw; simp only [List.length_append] at hraw; omega) hb
  have hcore : tx2.version = tx.version ∧ tx2.lockTime = tx.lockTime ∧ tx2.outputs = tx.outputs ∧
      tx2.inputs.map core = tx.inputs.map core := by
    clear hw hs hs2
    induction hset with
    | refl => exact ⟨rfl, rfl, rfl, rfl⟩
    | tail _ hstep ih =>
      obtain ⟨idx, amount, script, redeem, hx⟩ := hstep
      obtain ⟨c1, c2, c3, c4, _⟩ := setTxIn_core hx
      exact ⟨c1.trans ih.1, c2.trans ih.2.1, c3.trans ih.2.2.1, c4.trans ih.2.2.2⟩
  obtain ⟨c1, c2, c3, c4⟩ := hcore
  have hlen : tx2.inputs.length = tx.inputs.length := by simpa using congrArg List.length c4
  have memcore : ∀ i ∈ tx2.inputs, ∃ j ∈ tx.inputs, core j = core i := by
    intro i hi
    have : core i ∈ tx.inputs.map core := by rw [← c4]; exact List.mem_map_of_mem hi
    obtain ⟨j, hj, e⟩ := List.mem_map.mp this
    exact ⟨j, hj, e⟩
  have he2 : Encodable tx2 := by
    refine ⟨by rw [hlen]; exact he.ins, by rw [c3]; exact he.outs, ?_, hs2, by rw [c3]; exact he.out, ?_⟩
    · intro i hi
      obtain ⟨j, hj, e⟩ := memcore i hi
      simp only [core, Prod.mk.injEq] at e
      rw [← e.1]
      exact he.hash j hj
    · intro i hi
      obtain ⟨j, hj, e⟩ := memcore i hi
      simp only [core, Prod.mk.injEq] at e
      rw [← e.2.2.2]
      exact he.wit j hj
  have hsig : tx.inputs.map scriptSig = tx2.inputs.map scriptSig := by
    rw [hs]
    apply List.map_congr_left
    intro i hi
    unfold scriptSig
    rw [if_pos (hb i hi)]
  have hz : ∀ (l l' : List TxIn), l.map core = l'.map core → l.map scriptSig = l'.map scriptSig →
      l.flatMap (fun i => wireIn i.hash i.index (scriptSig i) i.sequence) =
        l'.flatMap (fun i => wireIn i.hash i.index (scriptSig i) i.sequence) ∧
      l.flatMap (fun i => counted varStr i.witness) = l'.flatMap (fun i => counted varStr i.witness) := by
    intro l
    induction l with
    | nil => intro l' e _; cases l' with
      | nil => exact ⟨rfl, rfl⟩
      | cons a l' => simp at e
    | cons x l ih => intro l' e1 e2; cases l' with
      | nil => simp at e1
      | cons a l' =>
        simp only [List.map_cons, List.cons.injEq, core, Prod.mk.injEq] at e1 e2
        obtain ⟨i1, i2⟩ := ih l' e1.2 e2.2
        simp only [List.flatMap_cons]
        rw [i1, i2, e1.1.1, e1.1.2.1, e1.1.2.2.1, e1.1.2.2.2, e2.1]
        exact ⟨rfl, rfl⟩
  have hwire : wireSegwit tx2 = wireSegwit tx := by
    obtain ⟨z1, z2⟩ := hz _ _ c4 hsig.symm
    unfold wireSegwit counted
    unfold counted at z2
    rw [z1, z2, c1, c2, c3, hlen]
  have hsh := sh_segwit hl
  rw [C34_format tx2 he2 hw, hwire]
  exact ⟨e, hr, hsh.1, fun q => by rw [hr, hsh.2 q]⟩

/-- **C36** fails: parsing a raw witness transaction and serialising the result does not give it back, although
all its integers are in shortest form; the witness is lost. -/
theorem C36_negation : ∃ raw tx, deserialize Tx.new raw = .ok (tx, []) ∧ serialize tx ≠ raw ∧
    raw = wireSegwit tx ∧ ∃ i ∈ tx.inputs, i.witness ≠ [] := by
  refine ⟨serialize exTx, { exTx with inputs := exTx.inputs.map (fun i =>
    { i with witnessScriptCode := none }) }, ?_, ?_, ?_, ?_⟩ <;> decide +kernel

/-- **C36** fails for every raw transaction that the witness parser accepts: the serialisation of the result is never the original. It
is shorter by the marker, the flag and all witnesses, so that at least two bytes and one for every input are lost. -/
theorem C36_never (raw rest : Bytes) (tx : Transaction) (hraw : raw.length < 2^62) (h : deserialize Tx.new raw = .ok (tx, rest)) :
    serialize tx ++ rest ≠ raw ∧ (serialize tx).length + 2 + tx.inputs.length ≤ raw.length - rest.length := by
  obtain ⟨e, hr, hl, hs⟩ := C36_witness_partial raw rest tx hraw h
  have hsh := (sh_segwit hl).1
  have hw : ∀ l : List TxIn, l.length ≤ (l.flatMap fun i => counted varStr i.witness).length := by
    intro l
    induction l with
    | nil => exact Nat.le_refl 0
    | cons i l ih =>
      have h1 : 1 ≤ (counted varStr i.witness).length := by
        unfold counted
        rw [List.length_append]
        have : 1 ≤ (compactSize i.witness.length).length := by
          unfold compactSize
          repeat' split
          all_goals simp [Wire.le_length]
        omega
      rw [List.flatMap_cons, List.length_append, List.length_cons]
      omega
  have hlen : (wireSegwit tx).length = (wireLegacy tx).length + 2 + (tx.inputs.flatMap fun i => counted varStr i.witness).length := by
    unfold wireSegwit wireLegacy
    simp only [List.length_append, List.length_cons, List.length_nil]
    omega
  have := hw tx.inputs
  have hrl : raw.length = e.length + rest.length := by rw [hr, List.length_append]
  have key : (serialize tx).length + 2 + tx.inputs.length ≤ raw.length - rest.length := by
    rw [hs]
    omega
  refine ⟨fun hc => ?_, key⟩
  have := congrArg List.length hc
  rw [List.length_append] at this
  omega

/-! ### C37 -/

/-- Two transactions that differ only in witness data: same version, lock time and outputs, and inputs that agree
in outpoint, sequence, in whether they are witness inputs, and (for other inputs) in the unlocking script. -/
def SameButWitness (tx tx' : Transaction) : Prop :=
  tx.version = tx'.version ∧ tx.lockTime = tx'.lockTime ∧ tx.outputs = tx'.outputs ∧
  List.Forall₂ (fun i i' => i.hash = i'.hash ∧ i.index = i'.index ∧ i.sequence = i'.sequence ∧
    (i.witnessScriptCode = none ↔ i'.witnessScriptCode = none) ∧
    (i.witnessScriptCode = none → i.rawUnlockingScript = i'.rawUnlockingScript)) tx.inputs tx'.inputs

/-- **C37.** Transactions that differ only in witness data have the same no-witness serialisation and the same
identifier. -/
theorem C37_txid [Hashes] (tx tx' : Transaction) (h : SameButWitness tx tx') :
    serializeNoWitness tx = serializeNoWitness tx' ∧ txHash tx = txHash tx' := by
  obtain ⟨h1, h2, h3, h4⟩ := h
  have key : ∀ (b : Buffer), tx.inputs.foldl writeInput b = tx'.inputs.foldl writeInput b := by
    revert h4
    generalize tx.inputs = l
    generalize tx'.inputs = l'
    intro h4
    induction h4 with
    | nil => intro b; rfl
    | cons hx _ ih =>
      intro b
      rename_i i i' l l' _
      obtain ⟨a1, a2, a3, a4, a5⟩ := hx
      have : writeInput b i = writeInput b i' := by
        unfold writeInput TxIn.hasWitness
        rw [a1, a2, a3]
        cases hc : i.witnessScriptCode with
        | none => rw [a4.mp hc, a5 hc]
        | some c =>
          cases hc' : i'.witnessScriptCode with
          | none => rw [a4.mpr hc'] at hc; cases hc
          | some c' => rfl
      rw [List.foldl_cons, List.foldl_cons, this, ih]
  have : serializeNoWitness tx = serializeNoWitness tx' := by
    unfold serializeNoWitness writeInsOuts
    simp only
    rw [h1, h2, h3, h4.length_eq, key]
  exact ⟨this, by unfold txHash; rw [this]⟩

example : SameButWitness exTx { exTx with inputs := exTx.inputs.map (fun i => { i with witness := [[9]] }) } := by
  refine ⟨rfl, rfl, rfl, ?_⟩
  rw [List.forall₂_map_right_iff]
  apply List.forall₂_same.mpr
  intro i _
  exact ⟨rfl, rfl, rfl, Iff.rfl, fun _ => rfl⟩

/-- **C37**, the other direction: identifiers are hashes of the no-witness serialisation, so (if two transactions have
the same preimage) everything else is fixed. -/
theorem C37_preimage [Hashes] (tx : Transaction) (h : Encodable tx) : txHash tx = sha256d (wireLegacy tx) := by
  unfold txHash
  rw [C35_format tx h]

/-! ### C38 -/

/-- Bytes that `BaseSize` counts beyond the no-witness serialisation: the unlocking scripts kept in witness inputs. -/
def sizeExcess (tx : Transaction) : Nat :=
  (tx.inputs.map fun i => if i.witnessScriptCode = none then 0 else
    (varStr i.rawUnlockingScript).length - 1).sum

theorem varStr_length {b : Bytes} (h : b.length < 2^62) :
    (varStr b).length = Buffer.varIntSerializeSize (UInt64.ofNat b.length) + b.length := by
  rw [Wire.varStr_eq (by omega)]
  unfold Buffer.encVarBytes
  rw [List.length_append, Buffer.encVarInt_length]

theorem compactSize_length {n : Nat} (h : n < 2^62) :
    (compactSize n).length = Buffer.varIntSerializeSize (UInt64.ofNat n) := by
  rw [Wire.compactSize_eq (by omega), Buffer.encVarInt_length]

theorem sum_in_lengths (l : List TxIn) (h : ∀ i ∈ l, i.rawUnlockingScript.length < 2^62) :
    (l.map fun i => i.hash.length + 4 + Buffer.varIntSerializeSize (UInt64.ofNat i.rawUnlockingScript.length) +
      i.rawUnlockingScript.length + 4).sum =
    (l.flatMap fun i => wireIn i.hash i.index (scriptSig i) i.sequence).length +
      (l.map fun i => if i.witnessScriptCode = none then 0 else (varStr i.rawUnlockingScript).length - 1).sum := by
  induction l with
  | nil => rfl
  | cons i l ih =>
    have hi := h i List.mem_cons_self
    have := ih (fun j hj => h j (List.mem_cons_of_mem _ hj))
    have h1 := varStr_length hi
    have hpos : 1 ≤ Buffer.varIntSerializeSize (UInt64.ofNat i.rawUnlockingScript.length) := by
      unfold Buffer.varIntSerializeSize
      repeat' split
      all_goals decide
    simp only [List.map_cons, List.sum_cons, List.flatMap_cons, List.length_append]
    rw [this]
    unfold wireIn scriptSig
    by_cases hn : i.witnessScriptCode = none
    · rw [if_pos hn, if_pos hn]
      simp only [List.length_append, Wire.le_length]
      omega
    · rw [if_neg hn, if_neg hn]
      simp only [List.length_append, Wire.le_length, show (varStr []).length = 1 from by decide]
      omega

theorem sum_out_lengths (l : List TxOut) (h : ∀ o ∈ l, o.script.length < 2^62) :
    (l.map fun o => 8 + Buffer.varIntSerializeSize (UInt64.ofNat o.script.length) + o.script.length).sum =
    (l.flatMap wireOut).length := by
  induction l with
  | nil => rfl
  | cons o l ih =>
    have h1 := varStr_length (h o List.mem_cons_self)
    have := ih (fun j hj => h j (List.mem_cons_of_mem _ hj))
    simp only [List.map_cons, List.sum_cons, List.flatMap_cons, List.length_append]
    rw [this]
    unfold wireOut
    simp only [List.length_append, Wire.le_length]
    omega

theorem sum_wit_lengths (l : List Bytes) (h : ∀ o ∈ l, o.length < 2^62) :
    (l.map fun w => Buffer.varIntSerializeSize (UInt64.ofNat w.length) + w.length).sum = (l.flatMap varStr).length := by
  induction l with
  | nil => rfl
  | cons o l ih =>
    have h1 := varStr_length (h o List.mem_cons_self)
    have := ih (fun j hj => h j (List.mem_cons_of_mem _ hj))
    simp only [List.map_cons, List.sum_cons, List.flatMap_cons, List.length_append]
    omega

/-- **C38**, what holds for every transaction: `BaseSize` is the length of the no-witness serialisation plus the
length of the unlocking scripts kept in witness inputs; `Size` is the length of the full serialisation, plus the
same, minus the two marker bytes if there are witnesses; `Weight` is `3*BaseSize+Size`; `Vsize` is `Weight/4`
rounded down. The stated sizes hold when there are no witness inputs; rounding up is missing. -/
theorem C38_sizes_partial (tx : Transaction) (h : Encodable tx) :
    baseSize tx = (serializeNoWitness tx).length + sizeExcess tx ∧
    size tx + (if hasWitness tx then 2 else 0) = (serialize tx).length + sizeExcess tx ∧
    weight tx = 3 * baseSize tx + size tx ∧ vsize tx = weight tx / 4 := by
  have hb : baseSize tx = (serializeNoWitness tx).length + sizeExcess tx := by
    rw [C35_format tx h]
    unfold baseSize wireLegacy counted sizeExcess
    rw [sum_in_lengths _ h.script, sum_out_lengths _ h.out]
    simp only [List.length_append, Wire.le_length, compactSize_length h.ins, compactSize_length h.outs]
    omega
  refine ⟨hb, ?_, ?_, rfl⟩
  · unfold size
    by_cases hw : hasWitness tx = true
    · rw [if_pos hw, hb, C35_format tx h, serialize_witness h hw]
      unfold witnessSize
      rw [if_pos hw]
      have : ∀ l : List TxIn, (∀ i ∈ l, i.witness.length < 2^62 ∧ ∀ w ∈ i.witness, w.length < 2^62) →
          (l.map fun i => Buffer.varIntSerializeSize (UInt64.ofNat i.witness.length) +
            (i.witness.map fun w => Buffer.varIntSerializeSize (UInt64.ofNat w.length) + w.length).sum).sum =
          (l.flatMap fun i => counted varStr i.witness).length := by
        intro l
        induction l with
        | nil => intro _; rfl
        | cons i l ih =>
          intro hl
          have hi := hl i List.mem_cons_self
          simp only [List.map_cons, List.sum_cons, List.flatMap_cons, List.length_append]
          rw [ih (fun j hj => hl j (List.mem_cons_of_mem _ hj)), sum_wit_lengths _ hi.2]
          conv_rhs => rw [counted, List.length_append, compactSize_length hi.1]
      rw [this _ h.wit]
      unfold wireLegacy wireSegwit
      simp only [List.length_append, List.length_cons, List.length_nil]
      omega
    · rw [if_neg hw, hb, serialize_legacy (by simpa using hw)]
      unfold witnessSize
      rw [if_neg hw]
      rfl
  · unfold weight size
    omega

/-- **C38**, without witness inputs: both sizes are the serialised length, the weight is four times that and the
virtual size is it. -/
theorem C38_no_witness_partial (tx : Transaction) (h : Encodable tx) (hw : ∀ i ∈ tx.inputs, i.witnessScriptCode = none) :
    baseSize tx = (serializeNoWitness tx).length ∧ size tx = (serialize tx).length ∧
    weight tx = 3 * baseSize tx + size tx ∧ 4 * vsize tx = weight tx := by
  obtain ⟨h1, h2, h3, h4⟩ := C38_sizes_partial tx h
  have hno : hasWitness tx = false := by
    unfold hasWitness
    rw [List.any_eq_false]
    intro i hi
    unfold TxIn.hasWitness
    rw [hw i hi]
    simp
  have h0 : sizeExcess tx = 0 := by
    unfold sizeExcess
    have : ∀ l : List TxIn, (∀ i ∈ l, i.witnessScriptCode = none) →
        (l.map fun i => if i.witnessScriptCode = none then 0 else (varStr i.rawUnlockingScript).length - 1).sum = 0 := by
      intro l
      induction l with
      | nil => intro _; rfl
      | cons i l ih =>
        intro hl
        rw [List.map_cons, List.sum_cons, if_pos (hl i List.mem_cons_self),
          ih (fun j hj => hl j (List.mem_cons_of_mem _ hj))]
    exact this _ hw
  have hbs : size tx = baseSize tx := by
    unfold size witnessSize
    rw [hno]
    simp
  rw [hno, h0] at h2
  rw [h0] at h1
  simp only [Bool.false_eq_true, if_false, Nat.add_zero] at h1 h2
  refine ⟨h1, h2, h3, ?_⟩
  rw [h4, h3, hbs]
  omega

/-- **C38** fails: a signed witness input makes `BaseSize` too large, `Size` misses the two marker bytes, and
`Vsize` is rounded down. -/
theorem C38_negation :
    (∃ tx, Encodable tx ∧ baseSize tx ≠ (serializeNoWitness tx).length) ∧
    (∃ tx, Encodable tx ∧ baseSize tx = (serializeNoWitness tx).length ∧ size tx + 2 = (serialize tx).length) ∧
    (∃ tx, Encodable tx ∧ vsize tx < (weight tx + 3) / 4) := by
  refine ⟨⟨{ exTx with inputs := exTx.inputs.map (fun i => { i with rawUnlockingScript := [1] }) },
    ⟨by decide, by decide, by decide, by decide, by decide, by decide⟩, by decide +kernel⟩,
    ⟨exTx, exTx_encodable, by decide +kernel, by decide +kernel⟩,
    ⟨{ exTx with inputs := exTx.inputs.map (fun i => { i with witness := [[7]] }) },
    ⟨by decide, by decide, by decide, by decide, by decide, by decide⟩, by decide +kernel⟩⟩

end Toku.Props
