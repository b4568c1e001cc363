import Verif.Props.Estimate
/-
Property C141: whether a transaction built for a relay fee pays that fee.
-/
namespace Toku.Props
open Toku Toku.Spec Toku.Tx Toku.Builder

/-- The transaction pays at least `rate` satoshi for a thousand virtual bytes. -/
def PaysRate (tx : Transaction) (rate : ℤ) : Prop := rate * virtualSize tx ≤ 1000 * ((inputTotal tx : ℤ) - outputTotal tx)

/-- The size for which the builder computes the fee: its estimate for the inputs and the payments, and the data. -/
def billedSize {κ : Type} (b : Settings κ) (ins : List TxIn) : ℕ :=
  Estimate.size ins ((payments b).map payOut) + (b.pushDatas.map List.length).sum

/-- Sizes and rates for which the fee is computed exactly to one satoshi (C85), and amounts that do not overflow. -/
structure Usual {κ : Type} (b : Settings κ) (ins : List TxIn) : Prop where
  fees : FitsInt64 b
  coins : inSum b < 2^63
  payments : outSum b < 2^63
  rate : b.relayFeePerKb < 2^53
  size : billedSize b ins < 2^53
  product : b.relayFeePerKb * billedSize b ins < 1000 * 2^50

private theorem varInt_mono {a c : ℕ} (h : a ≤ c) (hc : c < 2^62) :
    Buffer.varIntSerializeSize (UInt64.ofNat a) ≤ Buffer.varIntSerializeSize (UInt64.ofNat c) := by
  unfold Buffer.varIntSerializeSize
  simp only [UInt64.lt_iff_toNat_lt, UInt64.le_iff_toNat_le, UInt64.toNat_ofNat']
  rw [Nat.mod_eq_of_lt (show a < 2^64 by omega), Nat.mod_eq_of_lt (show c < 2^64 by omega)]
  split_ifs <;> simp_all <;> omega

/-- More outputs make the estimate greater by at least their bytes. -/
private theorem size_append (ins : List TxIn) (a c : List TxOut) (hl : (a ++ c).length < 2^62) :
    Estimate.size ins a + (c.map fun o => 8 + o.script.length).sum ≤ Estimate.size ins (a ++ c) := by
  have h1 := varInt_mono (show a.length ≤ (a ++ c).length by rw [List.length_append]; omega) hl
  unfold Estimate.size Estimate.baseSize
  rw [List.map_append, List.sum_append]
  omega

private theorem data_bytes (ds : List Bytes) :
    (ds.map List.length).sum + 9 * ds.length ≤ ((ds.map dataOut).map fun o => 8 + o.script.length).sum := by
  induction ds with
  | nil => exact Nat.le_refl 0
  | cons d ds ih =>
    have : d.length + 1 ≤ (dataOut d).script.length := by
      unfold dataOut Script.addData Script.addOp
      simp only [Buffer.writeU8, Buffer.writeBytes, Buffer.writeU16, Buffer.writeU32, Buffer.new]
      split_ifs <;> simp <;> omega
    simp only [List.map_cons, List.sum_cons, List.length_cons]
    omega

section
variable {κ : Type} [Hashes]

private theorem fee_near (E : Ecdsa κ) (b : Settings κ) (tx : Transaction) (h : build E b = .ok tx) (hu : Usual b tx.inputs)
    (hr : 0 < b.relayFeePerKb) :
    1000 * ((inputTotal tx : ℤ) - outputTotal tx) ≤ b.relayFeePerKb * billedSize b tx.inputs + 1000 ∧
    b.relayFeePerKb * billedSize b tx.inputs ≤ 1000 * ((inputTotal tx : ℤ) - outputTotal tx) + 1999 := by
  have e := (C45_conserved_partial E b hu.fees hu.coins hu.payments tx h).1
  have hf : feeOf b tx.inputs = Estimate.fees (billedSize b tx.inputs : ℕ) b.relayFeePerKb := by
    unfold feeOf billedSize
    rw [if_pos hr]
  obtain ⟨r, hr'⟩ : ∃ r : ℕ, b.relayFeePerKb = r := ⟨b.relayFeePerKb.toNat, by omega⟩
  have h1 := hu.rate
  have h2 := hu.product
  rw [hr'] at hf hr h1 h2
  have h3 := C85_fees (billedSize b tx.inputs) r (by omega) hu.size (by omega) (by exact_mod_cast h2)
  rw [← hf, abs_le] at h3
  have e' : (inputTotal tx : ℤ) - outputTotal tx = feeOf b tx.inputs := by omega
  rw [e', hr']
  have : ((r * billedSize b tx.inputs : ℕ) : ℤ) = (r : ℤ) * billedSize b tx.inputs := by push_cast; rfl
  rw [← this]
  omega

/-- The fee falls short when the estimate falls short. -/
private theorem short (E : Ecdsa κ) (b : Settings κ) (tx : Transaction) (h : build E b = .ok tx) (hu : Usual b tx.inputs)
    (k : ℕ) (hk : billedSize b tx.inputs + k ≤ virtualSize tx) (hr : 0 < b.relayFeePerKb) (hrk : 1000 < b.relayFeePerKb * k) :
    ¬ PaysRate tx b.relayFeePerKb := by
  unfold PaysRate
  have h1 := (fee_near E b tx h hu hr).1
  have h2 : b.relayFeePerKb * ((billedSize b tx.inputs : ℤ) + k) ≤ b.relayFeePerKb * virtualSize tx :=
    mul_le_mul_of_nonneg_left (by exact_mod_cast hk) hr.le
  rw [mul_add] at h2
  omega

private theorem billed_le (E : Ecdsa κ) (b : Settings κ) (tx : Transaction) (h : build E b = .ok tx) (henc : Encodable tx) :
    ∃ change, tx.outputs = (payments b).map payOut ++ change ++ b.pushDatas.map dataOut ∧
      billedSize b tx.inputs + (change.map fun o => 8 + o.script.length).sum + 9 * b.pushDatas.length ≤ Estimate.size tx.inputs tx.outputs ∧
      ChangeFor b (wrap64 (inSum b - outSum b - feeOf b tx.inputs)) change := by
  obtain ⟨_, change, ho, hc⟩ := C47_outputs E b tx h
  refine ⟨change, ho, ?_, hc⟩
  have hl := henc.outs
  have h1 := size_append tx.inputs ((payments b).map payOut) (change ++ b.pushDatas.map dataOut) (by rw [← List.append_assoc, ← ho]; exact hl)
  rw [← List.append_assoc, ← ho, List.map_append, List.sum_append] at h1
  have h2 := data_bytes b.pushDatas
  unfold billedSize
  omega

/-- **C141**, negation: with a relay fee of at least 26, no transaction that spends witness coins only pays the rate. -/
theorem C141_negation_witness (E : Ecdsa κ) (b : Settings κ) (tx : Transaction) (h : build E b = .ok tx) (hu : Usual b tx.inputs)
    (henc : Encodable tx) (hr : 26 ≤ b.relayFeePerKb) (hw : ∀ i ∈ tx.inputs, i.witnessScriptCode ≠ none) :
    ¬ PaysRate tx b.relayFeePerKb := by
  obtain ⟨change, _, hle, _⟩ := billed_le E b tx h henc
  have hne : tx.inputs ≠ [] := by
    obtain ⟨_, _, _, f, _, n1, _⟩ := build_shape h
    intro e
    have hl := f.length_eq
    rw [e] at hl
    exact n1 (List.length_eq_zero_iff.mp hl)
  have hpos := List.length_pos_iff.mpr hne
  have hn := (C48_negation tx henc hw hne).1
  exact short E b tx h hu 40 (by omega) (by omega) (by omega)

/-- **C141**, negation: with a relay fee of at least 67, no transaction that spends a witness coin, at most twenty usual legacy coins (unlocking scripts of
107 bytes or more) for each witness coin, pays the rate. -/
theorem C141_negation_mixed (E : Ecdsa κ) (b : Settings κ) (tx : Transaction) (h : build E b = .ok tx) (hu : Usual b tx.inputs)
    (henc : Encodable tx) (hr : 67 ≤ b.relayFeePerKb) (hw : ∃ i ∈ tx.inputs, i.witnessScriptCode ≠ none)
    (hs : ∀ i ∈ tx.inputs, i.witnessScriptCode = none → 107 ≤ i.rawUnlockingScript.length ∧ i.rawUnlockingScript.length < 253)
    (ho : ∀ o ∈ tx.outputs, o.script.length < 253)
    (hn : tx.inputs.countP (·.witnessScriptCode.isNone) ≤ 20 * tx.inputs.countP (·.witnessScriptCode.isSome)) :
    ¬ PaysRate tx b.relayFeePerKb := by
  obtain ⟨change, _, hle, _⟩ := billed_le E b tx h henc
  have key := C48_mixed tx henc hw (fun i hi hc => (hs i hi hc).2) ho
  have hpos : 0 < tx.inputs.countP (·.witnessScriptCode.isSome) := by
    obtain ⟨i, hi, hc⟩ := hw
    exact List.countP_pos_iff.mpr ⟨i, hi, Option.isSome_iff_ne_none.mpr hc⟩
  have sums : ∀ ls : List TxIn, (∀ i ∈ ls, i.witnessScriptCode = none → 107 ≤ i.rawUnlockingScript.length ∧ i.rawUnlockingScript.length < 253) →
      41 * (ls.countP (fun i => i.witnessScriptCode.isSome) : ℤ) - (ls.countP (fun i => i.witnessScriptCode.isNone) : ℕ) ≤
        (ls.map fun i => if i.witnessScriptCode = none then (i.rawUnlockingScript.length : ℤ) - 108 else 41).sum ∧
      (ls.map fun i => if i.witnessScriptCode = none then 1 else 3).sum =
        3 * ls.countP (fun i => i.witnessScriptCode.isSome) + ls.countP (fun i => i.witnessScriptCode.isNone) := by
    intro ls
    induction ls with
    | nil => intro _; exact ⟨le_refl _, rfl⟩
    | cons i ls ih =>
      intro a
      obtain ⟨b1, b3⟩ := ih (fun j hj => a j (List.mem_cons_of_mem _ hj))
      simp only [List.map_cons, List.sum_cons, List.countP_cons, b3]
      by_cases c1 : i.witnessScriptCode = none
      · have c2 := (a i List.mem_cons_self c1).1
        rw [if_pos c1, if_pos c1, c1]
        simp only [Option.isSome_none, Option.isNone_none, Bool.false_eq_true, if_false, if_true]
        push_cast
        omega
      · rw [if_neg c1, if_neg c1]
        obtain ⟨x, hx⟩ := Option.ne_none_iff_exists'.mp c1
        rw [hx]
        simp only [Option.isSome_some, Option.isNone_some, Bool.false_eq_true, if_false, if_true]
        push_cast
        omega
  obtain ⟨s1, s3⟩ := sums _ hs
  rw [s3] at key
  exact short E b tx h hu 15 (by omega) (by omega) (by omega)

omit [Hashes] in
/-- Usual legacy coins, no more than outputs: the estimate for all outputs is not beyond the virtual size. -/
private theorem legacy_ge (tx : Transaction) (henc : Encodable tx) (hw : ∀ i ∈ tx.inputs, i.witnessScriptCode = none)
    (hs : ∀ i ∈ tx.inputs, i.rawUnlockingScript.length = 107) (ho : ∀ o ∈ tx.outputs, o.script.length < 253)
    (hn : tx.inputs.length ≤ tx.outputs.length) : Estimate.size tx.inputs tx.outputs ≤ virtualSize tx := by
  have hx := C48_exact tx henc hw (fun i hi => by rw [hs i hi]; decide) ho
  have hsum : ∀ l : List TxIn, (∀ i ∈ l, i.rawUnlockingScript.length = 107) →
      (l.map fun i => (108 : ℤ) - i.rawUnlockingScript.length).sum = l.length := by
    intro l
    induction l with
    | nil => intro _; rfl
    | cons i l ih =>
      intro hl
      rw [List.map_cons, List.sum_cons, ih (fun j hj => hl j (List.mem_cons_of_mem _ hj)), hl i List.mem_cons_self, List.length_cons]
      push_cast
      omega
  rw [hsum _ hs] at hx
  omega

/-- **C141**, negation: with a relay fee of at least 34, no transaction that has change, and spends usual legacy coins (unlocking scripts of 107 bytes),
no more of them than it has outputs, pays the rate. -/
theorem C141_negation_change (E : Ecdsa κ) (b : Settings κ) (tx : Transaction) (h : build E b = .ok tx) (hu : Usual b tx.inputs)
    (henc : Encodable tx) (hr : 34 ≤ b.relayFeePerKb) (hw : ∀ i ∈ tx.inputs, i.witnessScriptCode = none)
    (hs : ∀ i ∈ tx.inputs, i.rawUnlockingScript.length = 107) (ho : ∀ o ∈ tx.outputs, o.script.length < 253)
    (hch : 0 < wrap64 (inSum b - outSum b - feeOf b tx.inputs))
    (ha : ∀ a, b.change = some (some a) → a.hash.length = hashSize a.kind) (hn : tx.inputs.length ≤ tx.outputs.length) :
    ¬ PaysRate tx b.relayFeePerKb := by
  obtain ⟨change, _, hle, hc⟩ := billed_le E b tx h henc
  have h30 : 30 ≤ (change.map fun o => 8 + o.script.length).sum := by
    rcases hc with ⟨e, _⟩ | ⟨_, a, e, rfl⟩
    · omega
    · have hl : 22 ≤ (Address.lockingScript a).length := by
        rw [show Address.lockingScript a = standardScript a.kind a.hash from Locking.rawLocking_eq (ha a e)]
        have := ha a e
        generalize a.kind = k at this
        cases k <;> simp only [hashSize] at this <;> simp [standardScript, this]
      simp
      omega
  have hx := legacy_ge tx henc hw hs ho hn
  exact short E b tx h hu 30 (by omega) (by omega) (by omega)

/-- **C141**, negation: the same for data in place of change, from a rate of 112. The script and the amount of a data output are not counted. -/
theorem C141_negation_data (E : Ecdsa κ) (b : Settings κ) (tx : Transaction) (h : build E b = .ok tx) (hu : Usual b tx.inputs)
    (henc : Encodable tx) (hr : 112 ≤ b.relayFeePerKb) (hw : ∀ i ∈ tx.inputs, i.witnessScriptCode = none)
    (hs : ∀ i ∈ tx.inputs, i.rawUnlockingScript.length = 107) (ho : ∀ o ∈ tx.outputs, o.script.length < 253)
    (hd : b.pushDatas ≠ []) (hn : tx.inputs.length ≤ tx.outputs.length) : ¬ PaysRate tx b.relayFeePerKb := by
  obtain ⟨change, _, hle, _⟩ := billed_le E b tx h henc
  have hx := legacy_ge tx henc hw hs ho hn
  have := List.length_pos_iff.mpr hd
  exact short E b tx h hu 9 (by omega) (by omega) (by omega)

/-- **C141 (partial).** Full statement: a transaction built with SetRelayFeePerKb(rate) pays at least the rate. Proved, to two satoshi, for legacy inputs
with unlocking scripts of at most 107 bytes, without change and data, and no more payments than inputs. Missing: it is false for witness coins
(`C141_negation_witness`, `C141_negation_mixed`), with change (`C141_negation_change`) and with data (`C141_negation_data`). -/
theorem C141_legacy_partial (E : Ecdsa κ) (b : Settings κ) (tx : Transaction) (h : build E b = .ok tx) (hu : Usual b tx.inputs)
    (henc : Encodable tx) (hr : 0 < b.relayFeePerKb) (hw : ∀ i ∈ tx.inputs, i.witnessScriptCode = none)
    (hs : ∀ i ∈ tx.inputs, i.rawUnlockingScript.length ≤ 107) (ho : ∀ o ∈ tx.outputs, o.script.length < 253)
    (hch : wrap64 (inSum b - outSum b - feeOf b tx.inputs) = 0) (hd : b.pushDatas = []) (hn : (payments b).length ≤ tx.inputs.length) :
    b.relayFeePerKb * virtualSize tx ≤ 1000 * ((inputTotal tx : ℤ) - outputTotal tx) + 1999 := by
  obtain ⟨_, change, hout, hc⟩ := C47_outputs E b tx h
  have he : tx.outputs = (payments b).map payOut := by
    rcases hc with ⟨_, rfl⟩ | ⟨hp, _⟩
    · rw [hout, hd]
      simp
    · omega
  have hle := (C48_estimate_partial tx henc hw hs ho).2 (by rw [he, List.length_map]; exact hn)
  have hb : billedSize b tx.inputs = Estimate.size tx.inputs tx.outputs := by
    unfold billedSize
    rw [he, hd]
    rfl
  have h1 := (fee_near E b tx h hu hr).2
  have h2 : b.relayFeePerKb * (virtualSize tx : ℤ) ≤ b.relayFeePerKb * billedSize b tx.inputs :=
    mul_le_mul_of_nonneg_left (by rw [hb]; exact_mod_cast hle) hr.le
  omega

end

/-- A coin of 10000 with the given script, 6000 to be paid, the rate 1000, the change given. -/
def rateCalls (script : Bytes) : List (Call UInt8) :=
  [.addCoin (some ⟨List.replicate 64 0x31, 0, 10000, Id.hexEncode script⟩), .addKeys (some [7]),
   .to (some exAddr) 6000, .setChange (some exAddr), .setRelayFeePerKb 1000, .sign]

/-- Signatures of 71 bytes and keys of 33, as usual in Bitcoin. -/
def longEcdsa : Ecdsa UInt8 := ⟨fun k _ => k :: List.replicate 32 2, fun _ _ => .ok (List.replicate 71 9), fun _ _ _ => .ok ()⟩

/-- A P2WPKH coin: 131 virtual bytes with the short signatures of the example, for which 40 satoshi are paid where 131 are due. -/
example : (@build _ modHashes toyEcdsa (run (rateCalls (standardScript .p2wpkh (@hash160 modHashes (toyEcdsa.pub 7 true)))))).bind
      (fun tx => .ok (virtualSize tx, (inputTotal tx : ℤ) - outputTotal tx,
        billedSize (run (rateCalls (standardScript .p2wpkh (@hash160 modHashes (toyEcdsa.pub 7 true))))) tx.inputs,
        tx.inputs.all (·.witnessScriptCode.isSome))) = .ok (131, 40, 40, true) := by
  decide +kernel

/-- A P2PKH coin with change, and a script of 107 bytes. -/
example : (@build _ modHashes longEcdsa (run (rateCalls (standardScript .p2pkh (@hash160 modHashes (longEcdsa.pub 7 true)))))).bind
      (fun tx => .ok (virtualSize tx, (inputTotal tx : ℤ) - outputTotal tx, tx.outputs.length,
        tx.inputs.map (·.rawUnlockingScript.length), tx.inputs.all (·.witnessScriptCode.isNone))) = .ok (220, 189, 2, [107], true) := by
  decide +kernel

/-- The same with a payment of 9811, which leaves no change: 189 virtual bytes, 189 satoshi. -/
example : (@build _ modHashes longEcdsa (run (rateCalls (standardScript .p2pkh (@hash160 modHashes (longEcdsa.pub 7 true))) ++
      [.to (some exAddr) 9811]))).bind
      (fun tx => .ok (virtualSize tx, (inputTotal tx : ℤ) - outputTotal tx, tx.outputs.length,
        tx.inputs.map (·.rawUnlockingScript.length))) = .ok (189, 189, 1, [107]) := by
  decide +kernel

/-- A P2WPKH coin and a P2PKH coin of 10000 each: 289 virtual bytes, and 190 satoshi. -/
example : (@build _ modHashes longEcdsa (run ([.addCoin (some ⟨List.replicate 64 0x32, 0, 10000, Id.hexEncode
        (standardScript .p2wpkh (@hash160 modHashes (longEcdsa.pub 7 true)))⟩), .addKeys (some [7]), .then_] ++
      rateCalls (standardScript .p2pkh (@hash160 modHashes (longEcdsa.pub 7 true)))))).bind
      (fun tx => .ok (virtualSize tx, (inputTotal tx : ℤ) - outputTotal tx,
        tx.inputs.map fun i => (i.witnessScriptCode.isSome, i.rawUnlockingScript.length))) = .ok (289, 190, [(true, 107), (false, 107)]) := by
  decide +kernel

/-- The payment of 9811 less the fee for three bytes of data: 203 virtual bytes, 192 satoshi. -/
example : (@build _ modHashes longEcdsa (run (rateCalls (standardScript .p2pkh (@hash160 modHashes (longEcdsa.pub 7 true))) ++
      [.to (some exAddr) 9808, .addPushData [1, 2, 3]]))).bind
      (fun tx => .ok (virtualSize tx, (inputTotal tx : ℤ) - outputTotal tx, tx.outputs.length,
        tx.inputs.map (·.rawUnlockingScript.length))) = .ok (203, 192, 2, [107]) := by
  decide +kernel

end Toku.Props
