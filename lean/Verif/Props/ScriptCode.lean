import Verif.Props.TxSign
/-
Properties C40 and C41: which script a signature covers, for each kind of output.
-/
namespace Toku.Props
open Toku Toku.Spec Toku.Tx Toku.Locking

variable [Hashes]

/-- The script that BIP143 has signed for an output script: the P2PKH script of the same hash for P2WPKH, the
witness script for P2WSH, none for the other two. -/
def bip143Code : Locking.Kind → Bytes → Option Bytes → Option Bytes
  | .p2wpkh, h, _ => some ([0x76, 0xa9, 0x14] ++ h ++ [0x88, 0xac])
  | .p2wsh, _, witnessScript => witnessScript
  | _, _, _ => none

omit [Hashes] in
theorem standard_short (k : Locking.Kind) (h : Bytes) (hh : h.length = hashSize k) : (standardScript k h).length < 2^62 := by
  cases k <;> simp only [hashSize] at hh <;> simp [standardScript, hh]

omit [Hashes] in
theorem parse_standard (k : Locking.Kind) (h : Bytes) (hh : h.length = hashSize k) : parse (standardScript k h) = .ok ⟨k, h⟩ :=
  (C29_parse_iff _ (standard_short k h hh) ⟨k, h⟩).mpr ⟨hh, rfl⟩

/-- **C41.** An input made for a standard output has the script code of BIP143, and keeps the output script. -/
theorem C41_script_code (txid : Bytes) (n : UInt32) (v : UInt64) (k : Locking.Kind) (h : Bytes) (hh : h.length = hashSize k)
    (redeem : Option Bytes) : ∃ i, newTxIn txid n v (standardScript k h) redeem = .ok i ∧
      i.witnessScriptCode = bip143Code k h redeem ∧ i.rawLockingScript = standardScript k h ∧ i.hash = txid ∧ i.index = n ∧
      i.value = v ∧ i.sequence = 0xffffffff ∧ i.redeemScript = redeem := by
  have hp := parse_standard k h hh
  unfold newTxIn
  rw [hp, Res.ok_bind]
  refine ⟨_, rfl, ?_, C29_build k h hh, rfl, rfl, rfl, rfl, rfl⟩
  cases k
  · rfl
  · rfl
  · exact congrArg some (C29_build .p2pkh h hh)
  · rfl

/-- **C41.** The same after `SetTxIn`, which supplies the output spent to a parsed transaction. -/
theorem C41_script_code_set (tx tx' : Transaction) (idx : ℕ) (v : UInt64) (k : Locking.Kind) (h : Bytes)
    (hh : h.length = hashSize k) (redeem : Option Bytes)
    (e : setTxIn tx idx v (standardScript k h) redeem = .ok tx') :
    ∃ i i', tx.inputs[idx]? = some i ∧ tx'.inputs = tx.inputs.set idx i' ∧ i'.witnessScriptCode = bip143Code k h redeem ∧
      i'.rawLockingScript = standardScript k h ∧ i'.value = v ∧ i'.redeemScript = redeem ∧ i'.hash = i.hash ∧
      i'.index = i.index ∧ i'.sequence = i.sequence ∧ i'.witness = i.witness := by
  have hp := parse_standard k h hh
  unfold setTxIn at e
  obtain ⟨i, e1, e⟩ := Res.bind_eq_ok.mp e
  rw [hp, Res.ok_bind] at e
  obtain ⟨un, _, e⟩ := Res.bind_eq_ok.mp e
  have hi : tx.inputs[idx]? = some i := by
    cases hx : tx.inputs[idx]? with
    | none => rw [hx] at e1; cases e1
    | some j => rw [hx] at e1; cases e1; rfl
  cases e
  refine ⟨i, _, hi, rfl, ?_, C29_build k h hh, rfl, rfl, rfl, rfl, rfl, rfl⟩
  cases k
  · rfl
  · rfl
  · exact congrArg some (C29_build .p2pkh h hh)
  · rfl

/-- **C40.** The script covered by a legacy signature: the output script for P2PKH, the redeem script for P2SH. -/
theorem C40_signed_script (txid : Bytes) (n : UInt32) (v : UInt64) (h : Bytes) (hh : h.length = 20) (i : TxIn) :
    (newTxIn txid n v (standardScript .p2pkh h) none = .ok i → signedScript i = .ok ([0x76, 0xa9, 0x14] ++ h ++ [0x88, 0xac])) ∧
    (∀ r, newTxIn txid n v (standardScript .p2sh h) (some r) = .ok i → signedScript i = .ok r) := by
  constructor
  · intro e
    have hp := parse_standard .p2pkh h hh
    unfold newTxIn at e
    rw [hp, Res.ok_bind] at e
    cases e
    change Script.removeOpcode (rawLocking ⟨.p2pkh, h⟩) 0xab = _
    rw [C29_build .p2pkh h hh]
    exact C20_codeseparator_kept _ (standard_short .p2pkh h hh)
  · intro r e
    have hp := parse_standard .p2sh h hh
    unfold newTxIn at e
    rw [hp, Res.ok_bind] at e
    cases e
    rfl

omit [Hashes] in
/-- A P2WPKH input: the script code is the P2PKH script. -/
example : (@newTxIn modHashes (List.replicate 32 7) 1 5000 ([0x00, 0x14] ++ List.replicate 20 9) none).bind
    (fun i => .ok i.witnessScriptCode) = .ok (some ([0x76, 0xa9, 0x14] ++ List.replicate 20 9 ++ [0x88, 0xac])) := by
  decide +kernel

end Toku.Props
