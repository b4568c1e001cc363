import Verif.Spec.Check
import Verif.Props.Amounts
import Verif.Props.Tx
/-
Property C140: the checks of CheckTransaction on a built transaction.
-/
namespace Toku.Props
open Toku Toku.Spec Toku.Tx Toku.Builder

/-- The outpoints that the inputs of a transaction name. -/
def outpointsOf (tx : Transaction) : List (Bytes × UInt32) := tx.inputs.map fun i => (i.hash, i.index)

/-- A transaction passes the checks. -/
def Passes (tx : Transaction) : Prop :=
  Checked (outpointsOf tx) (tx.outputs.map fun o => o.value.toNat) (serializeNoWitness tx).length

private theorem le_total {l : List ℕ} : ∀ a ∈ l, a ≤ l.sum := fun _ h => List.single_le_sum (fun _ _ => Nat.zero_le _) _ h

section
variable {κ : Type} [Hashes]

/-- **C140 (partial).** Full statement: a built transaction passes the checks that need no coins. Proved: exactly when it does. The coins have to be
different and real, the outputs may not total more than all the money, and the size has its limit; that there are inputs and outputs is checked by
the builder, the rest is not (`C140_negation_twice` and the others). -/
theorem C140_passes_iff_partial (E : Ecdsa κ) (b : Settings κ) (tx : Transaction) (h : build E b = .ok tx) :
    Passes tx ↔ ((spends b).map fun p => (Id.fromString p.1.txID, p.1.n)).Nodup ∧
      (∀ p ∈ spends b, ¬ (Id.fromString p.1.txID = .ok (List.replicate 32 0) ∧ p.1.n = 0xffffffff)) ∧
      outputTotal tx ≤ maxMoney ∧ (serializeNoWitness tx).length ≤ 1000000 := by
  obtain ⟨he, hd⟩ := C131_built E b tx h
  obtain ⟨change, _, _, f, ho, n1, n2, _⟩ := build_shape h
  have hcoins : noCoin ∉ outpointsOf tx ↔
      ∀ p ∈ spends b, ¬ (Id.fromString p.1.txID = .ok (List.replicate 32 0) ∧ p.1.n = 0xffffffff) := by
    have e1 : noCoin ∈ outpointsOf tx ↔ ((Res.ok (List.replicate 32 0), 0xffffffff) : Res Bytes × UInt32) ∈
        tx.inputs.map (fun i => (Res.ok i.hash, i.index)) := by
      unfold outpointsOf noCoin
      simp only [List.mem_map, Prod.mk.injEq, Res.ok.injEq]
    rw [e1, he]
    simp only [List.mem_map, Prod.mk.injEq]
    constructor
    · intro hn p hp hq
      exact hn ⟨p, hp, hq⟩
    · rintro hn ⟨p, hp, hq⟩
      exact hn p hp hq
  rw [← hd, ← hcoins]
  constructor
  · intro c
    have := c.size
    exact ⟨c.once, c.coins, c.total, by omega⟩
  · rintro ⟨h1, h2, h3, h4⟩
    refine ⟨?_, ?_, by omega, fun a ha => (le_total a ha).trans h3, h3, h1, h2⟩
    · unfold outpointsOf
      intro e
      have hl := f.length_eq
      rw [List.map_eq_nil_iff.mp e] at hl
      exact n1 (List.length_eq_zero_iff.mp hl)
    · rw [ho]
      intro e
      rw [List.map_eq_nil_iff, List.append_eq_nil_iff, List.append_eq_nil_iff, List.map_eq_nil_iff] at e
      exact n2 e.1.1

/-- **C140 (partial).** With different, real coins of at most all the money, payments below 2^63, a fee that is not negative and at most a million
bytes, the built transaction passes. -/
theorem C140_real_coins_partial (E : Ecdsa κ) (b : Settings κ) (hb : FitsInt64 b) (h1 : inSum b ≤ maxMoney) (h2 : outSum b < 2^63)
    (hf : b.relayFeePerKb ≤ 0 → 0 ≤ b.sendFees) (hd : ((spends b).map fun p => (Id.fromString p.1.txID, p.1.n)).Nodup)
    (hn : ∀ p ∈ spends b, ¬ (Id.fromString p.1.txID = .ok (List.replicate 32 0) ∧ p.1.n = 0xffffffff))
    (tx : Transaction) (h : build E b = .ok tx) (hs : (serializeNoWitness tx).length ≤ 1000000) : Passes tx := by
  have hm : inSum b < 2^63 := lt_of_le_of_lt h1 (by decide)
  have := (C46_fee_cap_partial E b hb hm h2 hf tx h).1
  rw [build_inputTotal h] at this
  exact (C140_passes_iff_partial E b tx h).mpr ⟨hd, hn, by omega, hs⟩

/-- **C140**, negation: a coin given twice. -/
theorem C140_negation_twice (E : Ecdsa κ) (b : Settings κ) (tx : Transaction) (h : build E b = .ok tx)
    (hd : ¬ ((spends b).map fun p => (Id.fromString p.1.txID, p.1.n)).Nodup) : ¬ Passes tx :=
  fun hp => hd ((C140_passes_iff_partial E b tx h).mp hp).1

/-- **C140**, negation: a piece of data of a million bytes is put into the transaction, and no node takes it. -/
theorem C140_negation_size (E : Ecdsa κ) (b : Settings κ) (tx : Transaction) (h : build E b = .ok tx) (henc : Encodable tx)
    (d : Bytes) (hm : d ∈ b.pushDatas) (hl : 1000000 ≤ d.length) : ¬ Passes tx := by
  intro hp
  have hs := ((C140_passes_iff_partial E b tx h).mp hp).2.2.2
  obtain ⟨change, _, _, _, ho, _⟩ := build_shape h
  have hmem : dataOut d ∈ tx.outputs := by
    rw [ho]
    exact List.mem_append_right _ (List.mem_map_of_mem hm)
  have hlen : 1000000 ≤ (dataOut d).script.length := by
    unfold dataOut Script.addData Script.addOp
    simp only [Buffer.writeU8, Buffer.writeBytes, Buffer.writeU16, Buffer.writeU32, Buffer.new]
    split_ifs <;> first | (exfalso; omega) | (simp; omega)
  rw [C35_format tx henc] at hs
  have hout : ∀ l : List TxOut, dataOut d ∈ l → (dataOut d).script.length ≤ (l.flatMap wireOut).length := by
    intro l
    induction l with
    | nil => intro h; cases h
    | cons o l ih =>
      intro h
      rw [List.flatMap_cons, List.length_append]
      rcases List.mem_cons.mp h with h | h
      · rw [← h]
        unfold wireOut varStr
        simp only [List.length_append]
        omega
      · have := ih h
        omega
  have := hout _ hmem
  unfold wireLegacy counted at hs
  simp only [List.length_append] at hs
  have h4 : (le 4 tx.version.toNat).length = 4 := rfl
  omega

end

/-- The payment of 6000 from the coin of 10000 passes; the coin of 5000 that is given twice does not; nor does the outpoint that stands for no coin. -/
example : (∃ tx, @build _ modHashes toyEcdsa (run (exCalls 10000 6000 500)) = .ok tx ∧ Passes tx) ∧
    (∃ tx, @build _ modHashes toyEcdsa (run twiceCalls) = .ok tx ∧ ¬ Passes tx) ∧
    ∃ tx, @build _ modHashes toyEcdsa (run (exCalls 10000 6000 500 ++ [.addCoin (some { exCoin 10000 with n := 0xffffffff })])) = .ok tx ∧
      ¬ Passes tx := by
  refine ⟨?_, ?_, ?_⟩
  · obtain ⟨tx, e, h⟩ := Res.bind_eq_ok.mp (show (@build _ modHashes toyEcdsa (run (exCalls 10000 6000 500))).bind
      (fun tx => .ok (outputTotal tx, (serializeNoWitness tx).length)) = .ok (9500, 130) by decide +kernel)
    injection h with h
    refine ⟨tx, e, (@C140_passes_iff_partial _ modHashes toyEcdsa _ tx e).mpr ⟨by decide +kernel, ?_, ?_, ?_⟩⟩
    · decide +kernel
    · rw [(Prod.mk.inj h).1]; decide
    · rw [(Prod.mk.inj h).2]; decide
  · obtain ⟨tx, e, _⟩ := C131_negation_twice
    exact ⟨tx, e, @C140_negation_twice _ modHashes toyEcdsa _ tx e (by decide +kernel)⟩
  · obtain ⟨tx, e, _⟩ := Res.bind_eq_ok.mp (show (@build _ modHashes toyEcdsa (run (exCalls 10000 6000 500 ++
      [.addCoin (some { exCoin 10000 with n := 0xffffffff })]))).bind (fun tx => .ok (outputTotal tx)) = .ok 9500 by decide +kernel)
    refine ⟨tx, e, fun hp => ?_⟩
    have := ((@C140_passes_iff_partial _ modHashes toyEcdsa _ tx e).mp hp).2.1
    revert this
    decide +kernel

/-- **C140**, negation: nothing keeps the outputs within all the money there is. With a fee of 500, a coin of 500 more than that is spent by a
transaction that passes; one satoshi more is paid out as readily, and no node takes it. -/
theorem C140_negation_money : (∃ tx, @build _ modHashes toyEcdsa (run (exCalls 2100000000000500 6000 500)) = .ok tx ∧ Passes tx) ∧
    ∃ tx, @build _ modHashes toyEcdsa (run (exCalls 2100000000000501 6000 500)) = .ok tx ∧ ¬ Passes tx := by
  constructor
  · obtain ⟨tx, e, h⟩ := Res.bind_eq_ok.mp (show (@build _ modHashes toyEcdsa (run (exCalls 2100000000000500 6000 500))).bind
      (fun tx => .ok (outputTotal tx, (serializeNoWitness tx).length)) = .ok (2100000000000000, 130) by decide +kernel)
    injection h with h
    refine ⟨tx, e, (@C140_passes_iff_partial _ modHashes toyEcdsa _ tx e).mpr ⟨by decide +kernel, by decide +kernel, ?_, ?_⟩⟩
    · rw [(Prod.mk.inj h).1]
      decide
    · rw [(Prod.mk.inj h).2]
      decide
  · obtain ⟨tx, e, h⟩ := Res.bind_eq_ok.mp (show (@build _ modHashes toyEcdsa (run (exCalls 2100000000000501 6000 500))).bind
      (fun tx => .ok (outputTotal tx)) = .ok 2100000000000001 by decide +kernel)
    injection h with h
    refine ⟨tx, e, fun hp => ?_⟩
    have := ((@C140_passes_iff_partial _ modHashes toyEcdsa _ tx e).mp hp).2.2.1
    rw [h] at this
    exact absurd this (by decide)

end Toku.Props
