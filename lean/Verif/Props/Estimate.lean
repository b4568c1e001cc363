import Verif.Props.Builder
/-
Properties C48 and C85: the estimates of size and fee.
-/
namespace Toku.Props
open Toku Toku.Spec Toku.Tx

/-- Virtual size of BIP141: a quarter of (three times the length without witnesses plus the full length), rounded up. -/
def virtualSize (tx : Transaction) : ℕ := (3 * (serializeNoWitness tx).length + (serialize tx).length + 3) / 4

theorem legacy_length (tx : Transaction) (h : Encodable tx) :
    (serializeNoWitness tx).length = 4 + Buffer.varIntSerializeSize (UInt64.ofNat tx.inputs.length) +
      (tx.inputs.map fun i => 40 + (varStr (scriptSig i)).length).sum +
      Buffer.varIntSerializeSize (UInt64.ofNat tx.outputs.length) +
      (tx.outputs.map fun o => 8 + Buffer.varIntSerializeSize (UInt64.ofNat o.script.length) + o.script.length).sum + 4 := by
  rw [C35_format tx h]
  unfold wireLegacy counted
  rw [sum_out_lengths _ h.out]
  have : ∀ l : List TxIn, (∀ i ∈ l, i.hash.length = 32) →
      (l.flatMap fun i => wireIn i.hash i.index (scriptSig i) i.sequence).length =
      (l.map fun i => 40 + (varStr (scriptSig i)).length).sum := by
    intro l
    induction l with
    | nil => intro _; rfl
    | cons i l ih =>
      intro hl
      rw [List.flatMap_cons, List.length_append, List.map_cons, List.sum_cons, ih (fun j hj => hl j (List.mem_cons_of_mem _ hj))]
      unfold wireIn
      simp only [List.length_append, Wire.le_length, hl i List.mem_cons_self]
      omega
  simp only [List.length_append, Wire.le_length, compactSize_length h.ins, compactSize_length h.outs, this _ h.hash]
  omega

theorem varInt_pos (n : UInt64) : 1 ≤ Buffer.varIntSerializeSize n := by
  unfold Buffer.varIntSerializeSize
  repeat' split
  all_goals decide

theorem varInt_small {n : ℕ} (h : n < 0xfd) : Buffer.varIntSerializeSize (UInt64.ofNat n) = 1 := by
  unfold Buffer.varIntSerializeSize
  rw [if_pos]
  rw [UInt64.lt_iff_toNat_lt, UInt64.toNat_ofNat', Nat.mod_eq_of_lt (by omega)]
  exact h

theorem no_witness {ins : List TxIn} (hw : ∀ i ∈ ins, i.witnessScriptCode = none) : ins.any TxIn.hasWitness = false := by
  rw [List.any_eq_false]
  intro i hi
  unfold TxIn.hasWitness
  rw [hw i hi]
  simp

/-- **C48 (partial).** Full statement: for all standard inputs and outputs the estimate is at least the virtual size.
Proved: for P2PKH inputs with unlocking scripts of at most 107 bytes (a signature of 72 bytes with its hash type and a
compressed key, each with a length byte) and output scripts shorter than 253 bytes, the virtual size is at most the
estimate plus one byte for every output beyond the number of inputs. So the estimate is an upper bound when there
are no more outputs than inputs. It misses the length byte of every output script, and counts one byte too many for
each input. -/
theorem C48_estimate_partial (tx : Transaction) (h : Encodable tx) (hw : ∀ i ∈ tx.inputs, i.witnessScriptCode = none)
    (hu : ∀ i ∈ tx.inputs, i.rawUnlockingScript.length ≤ 107) (ho : ∀ o ∈ tx.outputs, o.script.length < 253) :
    virtualSize tx + tx.inputs.length ≤ Estimate.size tx.inputs tx.outputs + tx.outputs.length ∧
    (tx.outputs.length ≤ tx.inputs.length → virtualSize tx ≤ Estimate.size tx.inputs tx.outputs) := by
  have hs : serialize tx = serializeNoWitness tx := serialize_legacy (no_witness hw)
  have hv : virtualSize tx = (serializeNoWitness tx).length := by unfold virtualSize; rw [hs]; omega
  have he : Estimate.size tx.inputs tx.outputs = Estimate.baseSize tx.inputs tx.outputs := by
    unfold Estimate.size Estimate.witnessSize
    rw [no_witness hw]
    simp only [Bool.false_eq_true, if_false]
    omega
  have h1 : ∀ l : List TxIn, (∀ i ∈ l, i.witnessScriptCode = none) → (∀ i ∈ l, i.rawUnlockingScript.length ≤ 107) →
      (l.map fun i => 40 + (varStr (scriptSig i)).length).sum + l.length ≤
      (l.map fun i => if i.hasWitness then 0 else Estimate.inputP2PKHSize).sum := by
    intro l
    induction l with
    | nil => intro _ _; exact Nat.le_refl 0
    | cons i l ih =>
      intro a b
      have := ih (fun j hj => a j (List.mem_cons_of_mem _ hj)) (fun j hj => b j (List.mem_cons_of_mem _ hj))
      rw [List.map_cons, List.sum_cons, List.map_cons, List.sum_cons, List.length_cons]
      have hi := a i List.mem_cons_self
      have hb := b i List.mem_cons_self
      have hn : i.hasWitness = false := by unfold TxIn.hasWitness; rw [hi]; rfl
      rw [hn]
      have hsc : scriptSig i = i.rawUnlockingScript := by unfold scriptSig; rw [if_pos hi]
      rw [hsc, varStr_length (by omega), varInt_small (by omega), if_neg (by decide),
        show Estimate.inputP2PKHSize = 149 from rfl]
      rw [show Estimate.inputP2PKHSize = 149 from rfl] at this
      omega
  have h2 : ∀ l : List TxOut, (∀ o ∈ l, o.script.length < 253) →
      (l.map fun o => 8 + Buffer.varIntSerializeSize (UInt64.ofNat o.script.length) + o.script.length).sum =
      (l.map fun o => 8 + o.script.length).sum + l.length := by
    intro l
    induction l with
    | nil => intro _; rfl
    | cons o l ih =>
      intro a
      have := ih (fun j hj => a j (List.mem_cons_of_mem _ hj))
      rw [List.map_cons, List.sum_cons, List.map_cons, List.sum_cons, List.length_cons, this,
        varInt_small (a o List.mem_cons_self)]
      omega
  have h3 := h1 _ hw hu
  have h4 := h2 _ ho
  have h5 := legacy_length tx h
  rw [hv, he]
  unfold Estimate.baseSize
  constructor
  · omega
  · intro _; omega

/-- **C48 (what is exact).** For inputs without witness whose unlocking scripts are shorter than 253 bytes, and output scripts shorter
than 253 bytes, the estimate exceeds the virtual size by 108 less the length of the unlocking script for every input, less
one for every output. -/
theorem C48_exact (tx : Transaction) (h : Encodable tx) (hw : ∀ i ∈ tx.inputs, i.witnessScriptCode = none)
    (hu : ∀ i ∈ tx.inputs, i.rawUnlockingScript.length < 253) (ho : ∀ o ∈ tx.outputs, o.script.length < 253) :
    (Estimate.size tx.inputs tx.outputs : ℤ) - virtualSize tx =
      (tx.inputs.map fun i => (108 : ℤ) - i.rawUnlockingScript.length).sum - tx.outputs.length := by
  have hs : serialize tx = serializeNoWitness tx := serialize_legacy (no_witness hw)
  have hv : virtualSize tx = (serializeNoWitness tx).length := by unfold virtualSize; rw [hs]; omega
  have he : Estimate.size tx.inputs tx.outputs = Estimate.baseSize tx.inputs tx.outputs := by
    unfold Estimate.size Estimate.witnessSize
    rw [no_witness hw]
    simp only [Bool.false_eq_true, if_false]
    omega
  have h1 : ∀ l : List TxIn, (∀ i ∈ l, i.witnessScriptCode = none) → (∀ i ∈ l, i.rawUnlockingScript.length < 253) →
      (((l.map fun i => if i.hasWitness then 0 else Estimate.inputP2PKHSize).sum : ℕ) : ℤ) -
      ((l.map fun i => 40 + (varStr (scriptSig i)).length).sum : ℕ) =
      (l.map fun i => (108 : ℤ) - i.rawUnlockingScript.length).sum := by
    intro l
    induction l with
    | nil => intro _ _; rfl
    | cons i l ih =>
      intro a b
      have := ih (fun j hj => a j (List.mem_cons_of_mem _ hj)) (fun j hj => b j (List.mem_cons_of_mem _ hj))
      have hi := a i List.mem_cons_self
      have hb := b i List.mem_cons_self
      have hn : i.hasWitness = false := by unfold TxIn.hasWitness; rw [hi]; rfl
      have hsc : scriptSig i = i.rawUnlockingScript := by unfold scriptSig; rw [if_pos hi]
      simp only [List.map_cons, List.sum_cons, hn, Bool.false_eq_true, if_false]
      rw [← this, hsc, varStr_length (by omega), varInt_small hb, show Estimate.inputP2PKHSize = 149 from rfl]
      push_cast
      ring
  have h2 : ∀ l : List TxOut, (∀ o ∈ l, o.script.length < 253) →
      (l.map fun o => 8 + Buffer.varIntSerializeSize (UInt64.ofNat o.script.length) + o.script.length).sum =
      (l.map fun o => 8 + o.script.length).sum + l.length := by
    intro l
    induction l with
    | nil => intro _; rfl
    | cons o l ih =>
      intro a
      have := ih (fun j hj => a j (List.mem_cons_of_mem _ hj))
      rw [List.map_cons, List.sum_cons, List.map_cons, List.sum_cons, List.length_cons, this,
        varInt_small (a o List.mem_cons_self)]
      omega
  rw [← h1 _ hw hu, hv, he, legacy_length tx h]
  have h4 := h2 _ ho
  unfold Estimate.baseSize
  omega

/-- **C48 (what is exact).** For the unlocking scripts of 107 bytes for which the estimate is made, it is an upper bound exactly
when there are no more outputs than inputs. -/
theorem C48_bound_iff (tx : Transaction) (h : Encodable tx) (hw : ∀ i ∈ tx.inputs, i.witnessScriptCode = none)
    (hu : ∀ i ∈ tx.inputs, i.rawUnlockingScript.length = 107) (ho : ∀ o ∈ tx.outputs, o.script.length < 253) :
    virtualSize tx ≤ Estimate.size tx.inputs tx.outputs ↔ tx.outputs.length ≤ tx.inputs.length := by
  have he := C48_exact tx h hw (fun i hi => by rw [hu i hi]; decide) ho
  have h1 : ∀ l : List TxIn, (∀ i ∈ l, i.rawUnlockingScript.length = 107) →
      (l.map fun i => (108 : ℤ) - i.rawUnlockingScript.length).sum = l.length := by
    intro l
    induction l with
    | nil => intro _; rfl
    | cons i l ih =>
      intro a
      rw [List.map_cons, List.sum_cons, ih (fun j hj => a j (List.mem_cons_of_mem _ hj)), a i List.mem_cons_self, List.length_cons]
      push_cast
      ring
  rw [h1 _ hu] at he
  omega

/-- **C48.** EstimateNormalSize is EstimateSize for inputs without witness and P2PKH outputs. -/
theorem C48_normal (ins : List TxIn) (outs : List TxOut) (hw : ∀ i ∈ ins, i.witnessScriptCode = none)
    (ho : ∀ o ∈ outs, o.script.length = 25) : Estimate.size ins outs = Estimate.normalSize ins.length outs.length := by
  have he : Estimate.size ins outs = Estimate.baseSize ins outs := by
    unfold Estimate.size Estimate.witnessSize
    rw [no_witness hw]
    simp only [Bool.false_eq_true, if_false]
    omega
  have h1 : ∀ l : List TxIn, (∀ i ∈ l, i.witnessScriptCode = none) →
      (l.map fun i => if i.hasWitness then 0 else Estimate.inputP2PKHSize).sum = Estimate.inputP2PKHSize * l.length := by
    intro l
    induction l with
    | nil => intro _; rfl
    | cons i l ih =>
      intro a
      have hn : i.hasWitness = false := by unfold TxIn.hasWitness; rw [a i List.mem_cons_self]; rfl
      rw [List.map_cons, List.sum_cons, ih (fun j hj => a j (List.mem_cons_of_mem _ hj)), hn, List.length_cons,
        if_neg (by decide), Nat.mul_succ, Nat.add_comm]
  have h2 : ∀ l : List TxOut, (∀ o ∈ l, o.script.length = 25) → (l.map fun o => 8 + o.script.length).sum = (8 + 25) * l.length := by
    intro l
    induction l with
    | nil => intro _; rfl
    | cons o l ih =>
      intro a
      rw [List.map_cons, List.sum_cons, ih (fun j hj => a j (List.mem_cons_of_mem _ hj)), a o List.mem_cons_self, List.length_cons,
        Nat.mul_succ, Nat.add_comm]
  rw [he]
  unfold Estimate.baseSize Estimate.normalSize
  rw [h1 _ hw, h2 _ ho]
  omega

/-- The number of the repository's test: two inputs, two outputs. -/
example : Estimate.normalSize 2 2 = 374 := by decide

/-- **C48** fails: whenever there is at least one input and all inputs are witness inputs, the estimate is below the
virtual size, by at least 40 bytes for each input. -/
theorem C48_negation (tx : Transaction) (h : Encodable tx) (hw : ∀ i ∈ tx.inputs, i.witnessScriptCode ≠ none)
    (hne : tx.inputs ≠ []) : Estimate.size tx.inputs tx.outputs + 40 * tx.inputs.length ≤ virtualSize tx ∧
      Estimate.size tx.inputs tx.outputs < virtualSize tx := by
  have hany : hasWitness tx = true := by
    unfold hasWitness
    rw [List.any_eq_true]
    obtain ⟨i, hi⟩ := List.exists_mem_of_ne_nil _ hne
    exact ⟨i, hi, by unfold TxIn.hasWitness; exact Option.isSome_iff_ne_none.mpr (hw i hi)⟩
  have h1 : ∀ l : List TxIn, (∀ i ∈ l, i.witnessScriptCode ≠ none) →
      (l.map fun i => 40 + (varStr (scriptSig i)).length).sum = 41 * l.length ∧
      (l.map fun i => if i.hasWitness then 0 else Estimate.inputP2PKHSize).sum = 0 ∧
      (l.map fun i =>
      if i.hasWitness then Buffer.varIntSerializeSize 2 +
        Buffer.varIntSerializeSize (UInt64.ofNat Estimate.inputWitnessSignatureSize) +
        Buffer.varIntSerializeSize (UInt64.ofNat Estimate.inputWitnessPubKeySize)
      else Buffer.varIntSerializeSize 0).sum = 3 * l.length := by
    intro l
    induction l with
    | nil => intro _; exact ⟨rfl, rfl, rfl⟩
    | cons i l ih =>
      intro a
      obtain ⟨b1, b2, b3⟩ := ih (fun j hj => a j (List.mem_cons_of_mem _ hj))
      have hi := a i List.mem_cons_self
      have hn : i.hasWitness = true := by unfold TxIn.hasWitness; exact Option.isSome_iff_ne_none.mpr hi
      simp only [List.map_cons, List.sum_cons, List.length_cons, b1, b2, b3, hn]
      unfold scriptSig
      rw [if_neg hi]
      refine ⟨?_, rfl, ?_⟩
      · rw [show (varStr []).length = 1 from by decide]; omega
      · rw [if_pos trivial, show Buffer.varIntSerializeSize 2 +
          Buffer.varIntSerializeSize (UInt64.ofNat Estimate.inputWitnessSignatureSize) +
          Buffer.varIntSerializeSize (UInt64.ofNat Estimate.inputWitnessPubKeySize) = 3 from by decide]
        omega
  have h2 : ∀ l : List TxOut, (l.map fun o => 8 + o.script.length).sum ≤
      (l.map fun o => 8 + Buffer.varIntSerializeSize (UInt64.ofNat o.script.length) + o.script.length).sum := by
    intro l
    induction l with
    | nil => exact Nat.le_refl 0
    | cons o l ih => simp only [List.map_cons, List.sum_cons]; omega
  obtain ⟨b1, b2, b3⟩ := h1 _ hw
  have h4 := h2 tx.outputs
  have h5 := legacy_length tx h
  have hpos : 0 < tx.inputs.length := List.length_pos_iff.mpr hne
  have h6 : (serializeNoWitness tx).length ≤ (serialize tx).length := by
    rw [C35_format tx h, serialize_witness h hany]
    unfold wireLegacy wireSegwit
    simp only [List.length_append, List.length_cons, List.length_nil]
    omega
  have hwit : Estimate.witnessSize tx.inputs = 3 * tx.inputs.length := by
    unfold Estimate.witnessSize
    rw [if_pos (by exact hany), b3]
  have key : Estimate.size tx.inputs tx.outputs + 40 * tx.inputs.length ≤ virtualSize tx := by
    unfold Estimate.size virtualSize
    rw [hwit]
    unfold Estimate.baseSize
    rw [b2]
    rw [b1] at h5
    omega
  exact ⟨key, by omega⟩

/-- **C48 (what is exact), with witness inputs.** A witness input is missing from the estimate but for three bytes, and so are the
two bytes of marker and flag: the virtual size is the estimate, plus for every input without witness the length of its script less
108, plus 41 for every witness input, plus one for every output, plus a quarter of the witnesses with marker and flag, rounded up,
less a quarter of the three bytes for every witness input and one for every other, rounded down. -/
theorem C48_mixed (tx : Transaction) (h : Encodable tx) (hw : ∃ i ∈ tx.inputs, i.witnessScriptCode ≠ none)
    (hu : ∀ i ∈ tx.inputs, i.witnessScriptCode = none → i.rawUnlockingScript.length < 253) (ho : ∀ o ∈ tx.outputs, o.script.length < 253) :
    (virtualSize tx : ℤ) = Estimate.size tx.inputs tx.outputs +
      (tx.inputs.map fun i => if i.witnessScriptCode = none then (i.rawUnlockingScript.length : ℤ) - 108 else 41).sum + tx.outputs.length +
      (((tx.inputs.map fun i => (counted varStr i.witness).length).sum + 2 + 3) / 4 : ℕ) -
      ((tx.inputs.map fun i => if i.witnessScriptCode = none then 1 else 3).sum / 4 : ℕ) := by
  have hany : hasWitness tx = true := by
    unfold hasWitness
    rw [List.any_eq_true]
    obtain ⟨i, hi, hc⟩ := hw
    exact ⟨i, hi, by unfold TxIn.hasWitness; exact Option.isSome_iff_ne_none.mpr hc⟩
  have h1 : ∀ l : List TxIn, (∀ i ∈ l, i.witnessScriptCode = none → i.rawUnlockingScript.length < 253) →
      ((l.map fun i => 40 + (varStr (scriptSig i)).length).sum : ℕ) =
      (((l.map fun i => if i.hasWitness then 0 else Estimate.inputP2PKHSize).sum : ℕ) : ℤ) +
      (l.map fun i => if i.witnessScriptCode = none then (i.rawUnlockingScript.length : ℤ) - 108 else 41).sum := by
    intro l
    induction l with
    | nil => intro _; rfl
    | cons i l ih =>
      intro a
      have b := ih (fun j hj => a j (List.mem_cons_of_mem _ hj))
      simp only [List.map_cons, List.sum_cons]
      by_cases hn : i.witnessScriptCode = none
      · have hf : i.hasWitness = false := by unfold TxIn.hasWitness; rw [hn]; rfl
        have hl := a i List.mem_cons_self hn
        have hs : (varStr (scriptSig i)).length = 1 + i.rawUnlockingScript.length := by
          unfold scriptSig varStr
          rw [if_pos hn, List.length_append, compactSize_length (by omega), varInt_small hl]
        have h149 : Estimate.inputP2PKHSize = 149 := by decide
        rw [hs, hf, if_pos hn, if_neg (by decide)]
        omega
      · have hf : i.hasWitness = true := by unfold TxIn.hasWitness; exact Option.isSome_iff_ne_none.mpr hn
        have hs : (varStr (scriptSig i)).length = 1 := by
          unfold scriptSig
          rw [if_neg hn]
          decide
        rw [hs, hf, if_neg hn, if_pos rfl]
        push_cast at b ⊢
        omega
  have h2 : ∀ l : List TxOut, (∀ o ∈ l, o.script.length < 253) →
      (l.map fun o => 8 + Buffer.varIntSerializeSize (UInt64.ofNat o.script.length) + o.script.length).sum =
      (l.map fun o => 8 + o.script.length).sum + l.length := by
    intro l
    induction l with
    | nil => intro _; rfl
    | cons o l ih =>
      intro a
      have := ih (fun j hj => a j (List.mem_cons_of_mem _ hj))
      simp only [List.map_cons, List.sum_cons, List.length_cons, varInt_small (a o List.mem_cons_self)]
      omega
  have h3 : ∀ l : List TxIn, (l.map fun i =>
      if i.hasWitness then Buffer.varIntSerializeSize 2 +
        Buffer.varIntSerializeSize (UInt64.ofNat Estimate.inputWitnessSignatureSize) +
        Buffer.varIntSerializeSize (UInt64.ofNat Estimate.inputWitnessPubKeySize)
      else Buffer.varIntSerializeSize 0) = l.map fun i => if i.witnessScriptCode = none then 1 else 3 := by
    intro l
    apply List.map_congr_left
    intro i _
    by_cases hn : i.witnessScriptCode = none
    · have hf : i.hasWitness = false := by unfold TxIn.hasWitness; rw [hn]; rfl
      rw [hf, if_pos hn]; decide
    · have hf : i.hasWitness = true := by unfold TxIn.hasWitness; exact Option.isSome_iff_ne_none.mpr hn
      rw [hf, if_neg hn]; decide
  have h4 : (serialize tx).length = (serializeNoWitness tx).length + 2 + (tx.inputs.map fun i => (counted varStr i.witness).length).sum := by
    rw [C35_format tx h, serialize_witness h hany]
    unfold wireLegacy wireSegwit
    simp only [List.length_append, List.length_cons, List.length_nil, List.length_flatMap]
    omega
  have h5 := legacy_length tx h
  have h6 := h1 _ hu
  have h7 := h2 _ ho
  have hwit : Estimate.witnessSize tx.inputs = (tx.inputs.map fun i => if i.witnessScriptCode = none then 1 else 3).sum := by
    unfold Estimate.witnessSize
    rw [if_pos (by exact hany), h3]
  unfold Estimate.size virtualSize
  rw [hwit, h4]
  have h8 : Estimate.baseSize tx.inputs tx.outputs = 4 + Buffer.varIntSerializeSize (UInt64.ofNat tx.inputs.length) +
    (tx.inputs.map fun i => if i.hasWitness then 0 else Estimate.inputP2PKHSize).sum +
    Buffer.varIntSerializeSize (UInt64.ofNat tx.outputs.length) + (tx.outputs.map fun o => 8 + o.script.length).sum + 4 := rfl
  generalize (tx.inputs.map fun i => if i.witnessScriptCode = none then (i.rawUnlockingScript.length : ℤ) - 108 else 41).sum = a at *
  generalize (tx.inputs.map fun i => (counted varStr i.witness).length).sum = b at *
  generalize (tx.inputs.map fun i => if i.witnessScriptCode = none then 1 else 3).sum = c at *
  omega

/-- **C48 (what is exact), with witness inputs.** For `l` P2PKH inputs with scripts of 107 bytes and `w` P2WPKH inputs with
witnesses of 108 bytes, at least one, the estimate is an upper bound exactly if there are more than about 67 P2PKH inputs for every
P2WPKH input. -/
theorem C48_mixed_iff (tx : Transaction) (h : Encodable tx) (l w : ℕ) (hw : 0 < w)
    (h1 : ∀ i ∈ tx.inputs, (i.witnessScriptCode = none ∧ i.rawUnlockingScript.length = 107 ∧ i.witness = []) ∨
      (i.witnessScriptCode ≠ none ∧ (counted varStr i.witness).length = 108))
    (hl : tx.inputs.countP (fun i => i.witnessScriptCode.isNone) = l) (hcw : tx.inputs.countP (fun i => i.witnessScriptCode.isSome) = w)
    (ho : ∀ o ∈ tx.outputs, o.script.length < 253) :
    virtualSize tx ≤ Estimate.size tx.inputs tx.outputs ↔ 41 * w + tx.outputs.length + (108 * w + l + 5) / 4 ≤ l + (3 * w + l) / 4 := by
  have hex : ∃ i ∈ tx.inputs, i.witnessScriptCode ≠ none := by
    rw [← hcw] at hw
    obtain ⟨i, hi, hc⟩ := List.countP_pos_iff.mp hw
    exact ⟨i, hi, Option.isSome_iff_ne_none.mp hc⟩
  have hu : ∀ i ∈ tx.inputs, i.witnessScriptCode = none → i.rawUnlockingScript.length < 253 := by
    intro i hi hn
    rcases h1 i hi with ⟨_, hc, _⟩ | ⟨hc, _⟩
    · omega
    · exact absurd hn hc
  have key := C48_mixed tx h hex hu ho
  have sums : ∀ ls : List TxIn, (∀ i ∈ ls, (i.witnessScriptCode = none ∧ i.rawUnlockingScript.length = 107 ∧ i.witness = []) ∨
      (i.witnessScriptCode ≠ none ∧ (counted varStr i.witness).length = 108)) →
      (ls.map fun i => if i.witnessScriptCode = none then (i.rawUnlockingScript.length : ℤ) - 108 else 41).sum =
        41 * (ls.countP (fun i => i.witnessScriptCode.isSome) : ℕ) - (ls.countP (fun i => i.witnessScriptCode.isNone) : ℕ) ∧
      (ls.map fun i => (counted varStr i.witness).length).sum =
        108 * ls.countP (fun i => i.witnessScriptCode.isSome) + ls.countP (fun i => i.witnessScriptCode.isNone) ∧
      (ls.map fun i => if i.witnessScriptCode = none then 1 else 3).sum =
        3 * ls.countP (fun i => i.witnessScriptCode.isSome) + ls.countP (fun i => i.witnessScriptCode.isNone) := by
    intro ls
    induction ls with
    | nil => intro _; exact ⟨rfl, rfl, rfl⟩
    | cons i ls ih =>
      intro a
      obtain ⟨b1, b2, b3⟩ := ih (fun j hj => a j (List.mem_cons_of_mem _ hj))
      simp only [List.map_cons, List.sum_cons, List.countP_cons, b1, b2, b3]
      rcases a i List.mem_cons_self with ⟨c1, c2, c3⟩ | ⟨c1, c2⟩
      · rw [if_pos c1, if_pos c1, c1, c2, c3, show (counted varStr []).length = 1 from by decide]
        simp only [Option.isSome_none, Option.isNone_none, Bool.false_eq_true, if_false, if_true]
        push_cast
        omega
      · rw [if_neg c1, if_neg c1, c2]
        obtain ⟨x, hx⟩ := Option.ne_none_iff_exists'.mp c1
        rw [hx]
        simp only [Option.isSome_some, Option.isNone_some, Bool.false_eq_true, if_false, if_true]
        push_cast
        omega
  obtain ⟨s1, s2, s3⟩ := sums _ h1
  rw [s1, s2, s3, hl, hcw] at key
  omega

/-- A P2PKH payment with change: one input, two outputs. Also beyond the estimate, by one byte. -/
def exPay : Transaction :=
  { Tx.new with
    inputs := [{ TxIn.empty with hash := List.replicate 32 1, rawUnlockingScript := List.replicate 107 2 }]
    outputs := [⟨5, List.replicate 25 3⟩, ⟨6, List.replicate 25 4⟩] }

example : Encodable exPay ∧ (∀ i ∈ exPay.inputs, i.witnessScriptCode = none) ∧
    (∀ i ∈ exPay.inputs, i.rawUnlockingScript.length ≤ 107) ∧ (∀ o ∈ exPay.outputs, o.script.length < 253) ∧
    virtualSize exPay = Estimate.size exPay.inputs exPay.outputs + 1 := by
  refine ⟨⟨by decide, by decide, by decide, by decide, by decide, by decide⟩, by decide, by decide, by decide, ?_⟩
  decide +kernel

/-- One input of each kind, two outputs: 69 bytes short. -/
def exMixed : Transaction :=
  { Tx.new with
    inputs := [{ TxIn.empty with hash := List.replicate 32 1, rawUnlockingScript := List.replicate 107 2 },
      { TxIn.empty with hash := List.replicate 32 5, witnessScriptCode := some [], witness := [List.replicate 72 6, List.replicate 33 2] }]
    outputs := [⟨5, List.replicate 25 3⟩, ⟨6, List.replicate 25 4⟩] }

example : Encodable exMixed ∧ (∀ i ∈ exMixed.inputs, (i.witnessScriptCode = none ∧ i.rawUnlockingScript.length = 107 ∧ i.witness = []) ∨
      (i.witnessScriptCode ≠ none ∧ (counted varStr i.witness).length = 108)) ∧
    exMixed.inputs.countP (fun i => i.witnessScriptCode.isNone) = 1 ∧ exMixed.inputs.countP (fun i => i.witnessScriptCode.isSome) = 1 ∧
    (∀ o ∈ exMixed.outputs, o.script.length < 253) ∧ virtualSize exMixed = Estimate.size exMixed.inputs exMixed.outputs + 69 := by
  refine ⟨⟨by decide, by decide, by decide, by decide, by decide, by decide⟩, by decide +kernel, by decide, by decide, by decide, ?_⟩
  decide +kernel

/-- **C85.** The fee for a size and a rate per thousand bytes is within one satoshi of rate times size divided by
1000, although it is computed with floating point. -/
theorem C85_fees (s r : ℕ) (hr : 0 < r) (hs : s < 2^53) (hr' : r < 2^53) (hrs : r * s < 1000 * 2^50) :
    |Estimate.fees s r - ((r * s / 1000 : ℕ) : ℤ)| ≤ 1 := Estimate.fees_near s r hr hs hr' hrs

/-- **C85.** A rate of zero or less gives no fee. -/
theorem C85_no_rate (s r : ℤ) (hr : r ≤ 0) : Estimate.fees s r = 0 := by
  unfold Estimate.fees
  rw [if_neg (by omega)]

example : |Estimate.fees 226 1000 - 226| ≤ 1 := C85_fees 226 1000 (by norm_num) (by norm_num) (by norm_num) (by norm_num)

end Toku.Props
