import Verif.Spec.Final
import Verif.Props.BuilderCalls
import Verif.Props.TxSign
import Verif.Props.Tx
/-
Property C137: a lock time set with the builder.
-/
namespace Toku.Props
open Toku Toku.Spec Toku.Tx Toku.Builder

section
variable {κ : Type} [Hashes]

/-- The sequence numbers of a transaction. -/
def sequencesOf (tx : Transaction) : List UInt32 := tx.inputs.map (·.sequence)

/-- The lock time that the calls ask for: the last one set, none being 0. -/
def askedLockTime (cs : List (Call κ)) : UInt32 := (lastOf (fun | .setLockTime t => some t | _ => none) cs).getD 0

omit [Hashes] in
private theorem frozen_sequences {a b : Transaction} (h : Frozen a b) : sequencesOf b = sequencesOf a := by
  have e := congrArg (List.map (·.sequence)) h.inputs
  rw [List.map_map, List.map_map] at e
  exact e

private theorem input_sequence {p : Coin × Builder.Group κ} {i : TxIn} (h : InputFor p (bare i)) : i.sequence = 0xffffffff := by
  obtain ⟨txid, script, _, _, h⟩ := h
  unfold newTxIn at h
  obtain ⟨s, _, h⟩ := Res.bind_eq_ok.mp h
  injection h with h
  exact (congrArg TxIn.sequence h).symm

/-- **C137 (partial).** Full statement: a transaction built after SetLockTime waits for that time. Proved: the lock time of the
transaction is the last one set, and there is an input for it to apply to. The waiting is false: `C137_negation`. -/
theorem C137_field_partial (E : Ecdsa κ) (cs : List (Call κ)) (tx : Transaction) (h : build E (run cs) = .ok tx) :
    tx.lockTime = askedLockTime cs ∧ tx.inputs ≠ [] ∧ sequencesOf tx = List.replicate tx.inputs.length 0xffffffff := by
  obtain ⟨_, _, hl, f, _, hne, _⟩ := build_shape h
  refine ⟨hl.trans (C47_calls cs).lockTime, ?_, ?_⟩
  · intro e
    rw [e] at f
    cases f' : spends (run cs) with
    | nil => exact hne f'
    | cons => rw [f'] at f; cases f
  · rw [List.eq_replicate_iff]
    refine ⟨List.length_map _, ?_⟩
    intro s hs
    obtain ⟨i, hi, rfl⟩ := List.mem_map.mp hs
    obtain ⟨n, hn, rfl⟩ := List.getElem_of_mem hi
    exact input_sequence (f.get (by rw [f.length_eq]; exact hn) hn)

/-- **C137**, negation, for every builder configuration and every lock time: the built transaction may be put into a block of any
height and time, as its sequence numbers are all at the maximum. -/
theorem C137_negation (E : Ecdsa κ) (cs : List (Call κ)) (tx : Transaction) (h : build E (run cs) = .ok tx) (height time : ℕ) :
    FinalAt tx.lockTime (sequencesOf tx) height time := by
  obtain ⟨_, _, e⟩ := C137_field_partial E cs tx h
  refine .inr (.inr ?_)
  rw [e]
  intro s hs
  exact List.eq_of_mem_replicate hs

/-- No transaction of the builder waits for its lock time. -/
theorem C137_negation_never (E : Ecdsa κ) (cs : List (Call κ)) (tx : Transaction) (h : build E (run cs) = .ok tx) :
    ¬ Waits tx.lockTime (sequencesOf tx) := by
  intro w
  have := w 0 0 (C137_negation E cs tx h 0 0)
  split at this <;> exact Nat.not_lt_zero _ this

/-- **C137 (partial).** A transaction put together by hand waits exactly if it has a lock time and an input whose sequence number
was lowered (the field is exported); signing changes neither. -/
theorem C137_by_hand_partial (E : Ecdsa κ) (tx tx' : Transaction) (t : UInt32) (calls : List (SignCall κ))
    (h : Props.signAll E (setLockTime tx t) calls = .ok tx') :
    Waits tx'.lockTime (sequencesOf tx') ↔ t ≠ 0 ∧ ∃ i ∈ tx.inputs, i.sequence ≠ 0xffffffff := by
  have hf : ∀ (calls : List (SignCall κ)) (a b : Transaction), Props.signAll E a calls = .ok b → Frozen a b := by
    intro calls
    induction calls with
    | nil => intro a b h; cases h; exact Frozen.refl _
    | cons c cs ih =>
      intro a b h
      obtain ⟨a1, h1, h⟩ := Res.bind_eq_ok.mp h
      exact Frozen.trans' (signIndex_frozen h1) (ih _ _ h)
  have fr := hf _ _ _ h
  rw [frozen_sequences fr, fr.lockTime]
  show Waits t (sequencesOf tx) ↔ _
  constructor
  · intro w
    constructor
    · rintro rfl
      exact absurd (w 0 0 (.inl rfl)) (by decide)
    · by_contra hn
      push Not at hn
      have := w 0 0 (.inr (.inr fun s hs => by
        obtain ⟨i, hi, rfl⟩ := List.mem_map.mp hs
        exact hn i hi))
      split at this <;> exact Nat.not_lt_zero _ this
  · rintro ⟨h0, i, hi, hs⟩ height time (e | e | e)
    · exact absurd e h0
    · exact e
    · exact absurd (e _ (List.mem_map.mpr ⟨i, hi, rfl⟩)) hs

omit [Hashes] in
private theorem same_sequences {R : TxIn → TxIn → Prop} (hR : ∀ i j, R i j → j.sequence = i.sequence) {a b : Transaction}
    (f : List.Forall₂ R a.inputs b.inputs) : sequencesOf b = sequencesOf a := by
  unfold sequencesOf
  revert f
  generalize a.inputs = l
  generalize b.inputs = m
  intro f
  induction f with
  | nil => rfl
  | cons h1 _ ih => rw [List.map_cons, List.map_cons, ih, hR _ _ h1]

omit [Hashes] in
/-- **C137 (partial).** Whether the transaction waits is the same after sending it: what a reader makes of the bytes, with witnesses or
without, is final in the same blocks. -/
theorem C137_sent_partial (tx : Transaction) (h : Encodable tx) :
    ((serializeNoWitness tx).length < 2^43 → ∃ tx', deserializeNoWitness Tx.new (serializeNoWitness tx) = .ok (tx', []) ∧
      ∀ height time, FinalAt tx'.lockTime (sequencesOf tx') height time ↔ FinalAt tx.lockTime (sequencesOf tx) height time) ∧
    ((∃ i ∈ tx.inputs, i.witnessScriptCode ≠ none) → (serialize tx).length < 2^43 →
      ∃ tx', deserialize Tx.new (serialize tx) = .ok (tx', []) ∧
      ∀ height time, FinalAt tx'.lockTime (sequencesOf tx') height time ↔ FinalAt tx.lockTime (sequencesOf tx) height time) := by
  constructor
  · intro hs
    obtain ⟨tx', e, _, hl, _, f⟩ := C35_roundtrip tx h hs
    refine ⟨tx', e, ?_⟩
    rw [hl, same_sequences (fun _ _ r => r.2.2.1) f]
    exact fun _ _ => Iff.rfl
  · intro hw hs
    obtain ⟨tx', e, _, hl, _, f⟩ := C34_roundtrip tx h hw hs
    refine ⟨tx', e, ?_⟩
    rw [hl, same_sequences (fun _ _ r => r.2.2.1) f]
    exact fun _ _ => Iff.rfl

end

/-- A payment of 6000 from a coin of 10000 with the lock time 800000, replaced by 900000: the transaction carries 900000 and its only input
has the maximal sequence number, so that it may go into the very next block. -/
example : (@build _ modHashes toyEcdsa (run (exCalls 10000 6000 500 ++ [.setLockTime 800000, .setLockTime 900000]))).bind
      (fun tx => .ok (tx.lockTime, sequencesOf tx)) = .ok (900000, [0xffffffff]) ∧
    askedLockTime (exCalls 10000 6000 500 ++ [.setLockTime 800000, .setLockTime 900000]) = 900000 ∧
    FinalAt 900000 [0xffffffff] 800001 0 ∧ ¬ FinalAt 900000 [0xfffffffe] 900000 1700000000 ∧ FinalAt 900000 [0xfffffffe] 900001 0 ∧
    ¬ FinalAt 1700000000 [0xffffffff, 0] 900000 1700000000 ∧ Waits 900000 [0xffffffff, 0] := by
  refine ⟨by decide +kernel, by decide +kernel, .inr (.inr (by decide)), ?_, .inr (.inl (by decide)), ?_, ?_⟩
  · rintro (h | h | h) <;> revert h <;> decide
  · rintro (h | h | h) <;> revert h <;> decide
  · rintro height time (h | h | h)
    · exact absurd h (by decide)
    · exact h
    · exact absurd h (by decide)

end Toku.Props
