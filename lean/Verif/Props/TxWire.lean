import Verif.Props.TxSign
import Verif.Props.Tx
/-
Property C84: a signed transaction still verifies after it was sent over the wire.
-/
namespace Toku.Props
open Toku Toku.Spec Toku.Tx Toku.Locking Toku.Script

variable {κ : Type} [Hashes]

/-- SetTxIn for one input after another, with the amounts, locking scripts and redeem scripts of the given
inputs. -/
def supplyCoins : List TxIn → Nat → Transaction → Res Transaction
  | [], _, tx => .ok tx
  | i :: is, n, tx => do
    let tx ← setTxIn tx n i.value i.rawLockingScript i.redeemScript
    supplyCoins is (n + 1) tx

/-- what the receiver knows of an input -/
def received (i : TxIn) : TxIn := { parsedIn i with witness := i.witness }

theorem supplyCoins_restores (todo : List TxIn) : ∀ (done : List TxIn) (tx : Transaction),
    (∀ i ∈ todo, Restores i ∧ ∀ s, parse i.rawLockingScript = .ok s → Recognised s i.redeemScript) →
    tx.inputs = done ++ todo.map received →
    supplyCoins todo done.length tx = .ok { tx with inputs := done ++ todo } := by
  induction todo with
  | nil =>
    intro done tx _ h
    simp only [List.map_nil, List.append_nil] at h
    simp only [supplyCoins, List.append_nil]
    rw [← h]
  | cons i todo ih =>
    intro done tx hr h
    obtain ⟨⟨s, p1, p2, p3, p4, p5, p6⟩, hrec⟩ := hr i (by simp)
    obtain ⟨u, hu, hu2⟩ := p6 (hrec s p1)
    have hset : setTxIn tx done.length i.value i.rawLockingScript i.redeemScript = .ok (putInput tx done.length i) := by
      unfold setTxIn
      have hg : tx.inputs[done.length]? = some (received i) := by
        rw [h, List.getElem?_append_right (le_refl _)]; simp
      rw [hg, show Res.ofIdx (some (received i)) = .ok (received i) from rfl, Res.ok_bind, p1, Res.ok_bind]
      rw [show (received i).witness = i.witness from rfl, hu, Res.ok_bind]
      rw [show (received i).rawUnlockingScript = scriptSig i from rfl, hu2, ← p2, ← p3, ← p4]
      rfl
    simp only [supplyCoins]
    rw [hset, Res.ok_bind]
    have := ih (done ++ [i]) (putInput tx done.length i) (fun j hj => hr j (by simp [hj])) (by
      unfold putInput
      simp only
      rw [h]
      simp)
    rw [List.length_append, List.length_singleton] at this
    rw [this]
    simp [putInput]

/-- **C84.** A transaction signed as in C43 (P2WSH scripts with at most 16 keys) and serialised, is parsed by the
receiver, and after SetTxIn with the coins of its inputs Verify accepts it. A transaction without witness inputs is
parsed with DeserializeNoWitness. -/
theorem C84_signed_wire_verifies (E : Ecdsa κ) (hE : Lawful E) (tx tx' : Transaction) (calls : List (SignCall κ)) (t0 : UInt32)
    (h1 : tx.hashPrevouts = none) (h2 : tx.hashSequence = none) (h3 : tx.hashOutputs = none)
    (hcoin : ∀ i ∈ tx.inputs, FromCoin i)
    (hall : ∀ idx < tx.inputs.length, ∃ c ∈ calls, c.idx = idx)
    (hkeys : ∀ c ∈ calls, ∀ i s, tx.inputs[c.idx]? = some i → parse i.rawLockingScript = .ok s →
      RightKeys E s i.redeemScript c.compressed c.keys)
    (htype : ∀ c ∈ calls, c.hashType < 256)
    (hclass : ∀ c ∈ calls, ∀ i, tx.inputs[c.idx]? = some i → i.hasWitness = true → SameClass t0 c.hashType)
    (hsign : signAll E tx calls = .ok tx')
    (hsmall : ∀ i ∈ tx.inputs, ∀ h, parse i.rawLockingScript = .ok ⟨.p2wsh, h⟩ → ∃ (m : Nat) (pubs : List Bytes) (r : Bytes),
      i.redeemScript = some r ∧ genMultiSig m pubs = .ok r ∧ m ≤ pubs.length ∧ 1 ≤ pubs.length ∧ pubs.length ≤ 16 ∧ r.length < 2^62 ∧
      ∀ p ∈ pubs, p.length = 33 ∨ p.length = 65)
    (henc : Encodable tx') (hsize : (serialize tx').length < 2^43) :
    ∃ txd tx2, (if hasWitness tx' then deserialize Tx.new (serialize tx') else deserializeNoWitness Tx.new (serialize tx')) =
        .ok (txd, []) ∧ supplyCoins tx'.inputs 0 txd = .ok tx2 ∧ (verify E tx2).1 = .ok () := by
  obtain ⟨hinv, hr⟩ := signAll_ready E hE tx tx' calls t0 h1 h2 h3 hcoin hall hkeys htype hclass hsign
  have hready : ∀ i ∈ tx'.inputs, Restores i ∧ ∀ s, parse i.rawLockingScript = .ok s → Recognised s i.redeemScript := by
    intro i hi
    obtain ⟨idx, hidx⟩ := List.mem_iff_getElem?.mp hi
    refine ⟨(hr idx i hidx).2, fun s hs => ?_⟩
    intro hk
    obtain ⟨i0, hi0, hb⟩ := hinv.1.get hidx
    obtain ⟨b1, b2, _, _⟩ := bare_fields hb
    obtain ⟨kind, hash⟩ := s
    dsimp only at hk
    subst hk
    rw [b2] at hs
    obtain ⟨m, pubs, r, e, hg, q1, q2, q3, q4, q5⟩ := hsmall i0 (List.mem_of_getElem? hi0) hash hs
    rw [b1, e]
    exact C30_recognised m pubs q1 q2 q3 q5 r hg q4
  have main : ∀ txd : Transaction, txd.version = tx'.version → txd.lockTime = tx'.lockTime → txd.outputs = tx'.outputs →
      txd.hashPrevouts = none → txd.hashSequence = none → txd.hashOutputs = none → txd.inputs = tx'.inputs.map received →
      ∃ tx2, supplyCoins tx'.inputs 0 txd = .ok tx2 ∧ (verify E tx2).1 = .ok () := by
    intro txd a1 a2 a3 a4 a5 a6 a7
    refine ⟨_, supplyCoins_restores tx'.inputs [] txd hready (by rw [a7]; rfl), ?_⟩
    apply verify_ready (t0 := t0) (tx0 := tx)
    · refine ⟨⟨a1.trans hinv.1.version, a2.trans hinv.1.lockTime, a3.trans hinv.1.outputs, hinv.1.inputs⟩, ?_, ?_, ?_⟩
      · intro c hx; change txd.hashPrevouts = _ at hx; rw [a4] at hx; cases hx
      · intro c hx; change txd.hashSequence = _ at hx; rw [a5] at hx; cases hx
      · intro c hx; change txd.hashOutputs = _ at hx; rw [a6] at hx; cases hx
    · intro idx i hi
      exact (hr idx i hi).1
  by_cases hw : hasWitness tx' = true
  · rw [if_pos hw]
    rw [serialize_witness henc hw] at hsize ⊢
    have hd := deserialize_wire henc hsize
    obtain ⟨tx2, e1, e2⟩ := main { Tx.new with
      version := tx'.version, lockTime := tx'.lockTime, inputs := tx'.inputs.map received, outputs := tx'.outputs }
      rfl rfl rfl rfl rfl rfl rfl
    exact ⟨_, tx2, hd, e1, e2⟩
  · rw [if_neg hw]
    have hw' : hasWitness tx' = false := by simpa using hw
    rw [serialize_legacy hw', C35_format tx' henc] at hsize ⊢
    have hd := deserializeNoWitness_wire henc hsize
    obtain ⟨tx2, e1, e2⟩ := main { Tx.new with
      version := tx'.version, lockTime := tx'.lockTime, inputs := tx'.inputs.map parsedIn, outputs := tx'.outputs }
      rfl rfl rfl rfl rfl rfl (by
        simp only
        apply List.map_congr_left
        intro i hi
        obtain ⟨⟨s, _, _, _, _, p5, _⟩, _⟩ := hready i hi
        have hn : i.witnessScriptCode = none := by
          unfold hasWitness at hw'
          rw [List.any_eq_false] at hw'
          have := hw' i hi
          unfold TxIn.hasWitness at this
          simpa using this
        unfold received
        rw [p5 hn]
        rfl)
    exact ⟨_, tx2, hd, e1, e2⟩

/-- The whole trip for two P2WPKH coins and for a 2-of-3 P2WSH coin. -/
example : ∀ r ∈ [toySigned 1 1, toySigned2 [7, 9]], (r.bind fun tx => (deserialize Tx.new (serialize tx)).bind fun p =>
    (@supplyCoins modHashes tx.inputs 0 p.1).bind fun tx2 => (@verify _ modHashes toyEcdsa tx2).1) = .ok () := by
  decide +kernel

end Toku.Props
