import Verif.Proof.Invalid
import Verif.Props.BuilderCalls
/-
Property C139: who can spend the payments that the builder makes.
-/
namespace Toku.Props
open Toku Toku.Spec Toku.Tx Toku.Builder Toku.VM
open Toku.Spec.Bitcoin (BTx ValidInput IsWitnessProgram checkSig legacyHash witnessHash isCond Truthy EvalScript Rules)

section
variable {κ : Type} [Hashes]

/-- Everyone can spend the coin: by the rules of Bitcoin every transaction may, with the unlocking script OP_1. -/
def FreeForAll (coin : TxOut) : Prop :=
  ∀ (tx : BTx) (idx : ℕ) (i : Bitcoin.In), tx.ins[idx]? = some i → i.scriptSig = [0x51] → i.witness = [] → ValidInput tx idx coin

/-- What the owner of an address has: a key with the hash and its signature of the transaction, or a script with the hash. -/
def Authorised (tx : BTx) (idx : ℕ) (v : UInt64) : Locking.Kind → Bytes → Prop
  | .p2pkh, h => ∃ key sig, hash160 key = h ∧ checkSig (legacyHash tx idx (standardScript .p2pkh h)) sig key = some true
  | .p2wpkh, h => ∃ i key sig, tx.ins[idx]? = some i ∧ hash160 key = h ∧
      checkSig (witnessHash tx idx i v (standardScript .p2pkh h)) sig key = some true
  | .p2sh, h => ∃ script, hash160 script = h
  | .p2wsh, h => ∃ script, Hashes.sha256 script = h

private theorem free_empty (v : UInt64) : FreeForAll ⟨v, []⟩ := by
  intro tx idx i hi hs hw
  refine ⟨i, hi, .inl ⟨?_, hw, [⟨0x51, []⟩], [], ?_, hs, rfl, [[1]], [1], [], ⟨fun _ => by decide, 0, ?_⟩, ⟨fun _ => by decide, 0, .nil _⟩, ?_, ?_⟩⟩
  · rintro ⟨w, p, e, h2, _⟩
    have := congrArg List.length e
    simp at this
  · intro t ht
    rw [List.append_nil, List.mem_singleton] at ht
    subst ht
    unfold Token.Valid
    decide
  · refine .cons _ _ _ _ _ [[1]] _ 0 _ (.run _ _ _ _ _ (by decide) (by intro b h; cases h) (.num _ _ (by decide) (by decide))) ?_ (.nil _)
    exact fun _ => by decide
  · exact .inr ⟨1, rfl, by decide, by decide⟩
  · rintro ⟨h, _, e⟩
    cases e

omit [Hashes] in
/-- What the script of P2SH asks of the stack it is run on. -/
private theorem lock_p2sh {R : Rules} {hash : Bytes → Bytes} {check : Bytes → Bytes → Option Bool} {p : Bytes} {s s' : List Bytes} {x : Bytes}
    (h : EvalScript R hash check (Locking.standardTokens .p2sh p) s (x :: s')) (hx : Truthy x) : ∃ script, hash script = p := by
  obtain ⟨_, n, h⟩ := h
  unfold Locking.standardTokens at h
  obtain ⟨_, _, o2, _, h⟩ := eval_op (show ¬ isCond 0xa9 by decide) h
  obtain ⟨_, _, o3, _, h⟩ := eval_op (show ¬ isCond 0x14 by decide) h
  obtain ⟨_, _, o5, _, h⟩ := eval_op (show ¬ isCond 0x87 by decide) h
  have e := congrArg Bitcoin.State.stack (eval_nil h)
  obtain ⟨b, r', rfl, rfl, _⟩ := op_hash o2 rfl
  obtain ⟨rfl, _⟩ := op_push o3 (show (0x14 : UInt8).toNat ≤ 0x4e by decide)
  obtain ⟨c, d, r, h1, rfl, _⟩ := op_equal o5 rfl
  dsimp only at e
  obtain ⟨h2, h3⟩ := List.cons.inj h1
  obtain ⟨h3, _⟩ := List.cons.inj h3
  obtain ⟨e1, _⟩ := List.cons.inj e
  by_cases hcd : c = d
  · exact ⟨b, by rw [h3, ← hcd, ← h2]⟩
  · rw [e1, decide_eq_false hcd] at hx
    exact absurd hx truthy_nil

/-- A valid input for a coin of an address shows what the owner has. -/
private theorem needs_owner {tx : BTx} {idx : ℕ} {v : UInt64} {k : Locking.Kind} {h : Bytes} (hh : h.length = hashSize k)
    (hv : ValidInput tx idx ⟨v, standardScript k h⟩) : Authorised tx idx v k h := by
  obtain ⟨i, hi, hv⟩ := hv
  have toks : ∀ {u l : List Token}, (∀ t ∈ u ++ l, t.Valid) → standardScript k h = encTokens l → l = Locking.standardTokens k h := by
    intro u l hv hl
    refine tokens_unique (fun t ht => hv t (List.mem_append_right _ ht)) (Locking.standard_valid hh) ?_ ?_
    · rw [← hl]; exact standard_short k h hh
    · rw [← hl, Locking.standard_enc]
  cases k with
  | p2pkh =>
    rcases hv with ⟨_, _, u, l, hv, hu, hl, s1, x, s2, _, h2, hx, _⟩ | ⟨q, _, e, _⟩ | ⟨q, _, _, e, _⟩
    · obtain rfl := toks hv hl
      obtain ⟨key, sig, _, hk, hs⟩ := lock_p2pkh h2 hx
      refine ⟨key, sig, hk, ?_⟩
      unfold Bitcoin.legacyCheck at hs
      split at hs
      · cases hs
      · rwa [Locking.standard_enc] at hs
    · cases e
    · cases e
  | p2sh =>
    rcases hv with ⟨_, _, u, l, hv, hu, hl, s1, x, s2, _, h2, hx, _⟩ | ⟨q, _, e, _⟩ | ⟨q, _, _, e, _⟩
    · obtain rfl := toks hv hl
      exact lock_p2sh h2 hx
    · cases e
    · cases e
  | p2wpkh =>
    rcases hv with ⟨hn, _⟩ | ⟨q, _, e, _, sig, key, x, _, _, h2, hx⟩ | ⟨q, _, _, e, _⟩
    · refine absurd ⟨[0], h, ?_, ?_, ?_, .inl rfl⟩ hn
      · rw [hh]; rfl
      · rw [hh]; decide
      · rw [hh]; decide
    · obtain rfl : h = q := List.append_cancel_left e
      obtain ⟨key', sig', _, hk, hs⟩ := lock_p2pkh h2 hx
      exact ⟨i, key', sig', hi, hk, hs⟩
    · cases e
  | p2wsh =>
    rcases hv with ⟨hn, _⟩ | ⟨q, _, e, _⟩ | ⟨q, _, _, e, _, _, items, rts, x, _, _, h2, _⟩
    · refine absurd ⟨[0], h, ?_, ?_, ?_, .inl rfl⟩ hn
      · rw [hh]; rfl
      · rw [hh]; decide
      · rw [hh]; decide
    · cases e
    · obtain rfl : h = q := List.append_cancel_left e
      exact ⟨_, h2⟩

private theorem paid (E : Ecdsa κ) (b : Settings κ) (tx : Transaction) (h : build E b = .ok tx) (o : Output) (ho : o ∈ payments b) :
    payOut o ∈ tx.outputs := by
  obtain ⟨_, change, e, _⟩ := C47_outputs E b tx h
  rw [e]
  exact List.mem_append_left _ (List.mem_append_left _ (List.mem_map_of_mem ho))

/-- **C139 (partial).** Full statement: a payment made by the builder can be spent by its receiver only. Proved for payments to an address: there is an
output of the amount, and every input that may spend it by the rules of Bitcoin shows a key with the hash of the address and a signature by it, or a
script with that hash. Missing: payments to a nil address, where it is false (`C139_negation_nil`). -/
theorem C139_addressed_partial (E : Ecdsa κ) (b : Settings κ) (tx : Transaction) (h : build E b = .ok tx) (a : Address.Addr) (v : UInt64)
    (ho : ⟨some a, v⟩ ∈ payments b) (ha : a.hash.length = hashSize a.kind) :
    ∃ o ∈ tx.outputs, o.value = v ∧ ∀ (later : BTx) (idx : ℕ), ValidInput later idx o → Authorised later idx v a.kind a.hash := by
  have hp := paid E b tx h _ ho
  refine ⟨_, hp, rfl, fun later idx hv => needs_owner ha ?_⟩
  rwa [show payOut ⟨some a, v⟩ = ⟨v, standardScript a.kind a.hash⟩ from
    congrArg (TxOut.mk v) (Locking.rawLocking_eq ha)] at hv

/-- **C139**, negation: a payment to a nil address is built without an error, and everyone can spend it. -/
theorem C139_negation_nil (E : Ecdsa κ) (b : Settings κ) (tx : Transaction) (h : build E b = .ok tx) (v : UInt64)
    (ho : ⟨none, v⟩ ∈ payments b) : ∃ o ∈ tx.outputs, o.value = v ∧ FreeForAll o :=
  ⟨_, paid E b tx h _ ho, rfl, free_empty v⟩

/-- **C139**, negation: the constructors of addresses return nil for a hash of the wrong length, without an error. Whatever the other calls, `To` with
an address made so gives the amount to everyone. -/
theorem C139_negation_hash (E : Ecdsa κ) (cs : List (Call κ)) (k : Locking.Kind) (hash : Bytes) (v : UInt64)
    (hl : hash.length ≠ hashSize k) (tx : Transaction) (h : build E (run (cs ++ [.to (Address.make k hash) v])) = .ok tx) :
    ∃ o ∈ tx.outputs, o.value = v ∧ FreeForAll o := by
  apply C139_negation_nil E _ tx h v
  have hm : Address.make k hash = none := by
    unfold Address.make
    rw [if_neg]
    cases k <;> exact hl
  rw [hm]
  unfold Builder.run payments Settings.groups
  rw [List.foldl_append]
  exact List.mem_filterMap.mpr ⟨_, List.mem_append_right _ (List.mem_singleton.mpr rfl), rfl⟩

end

/-- The SHA-256 of a script, 32 bytes, taken for the hash of a P2SH address: 6000 of the coin of 10000 for everyone. With a hash of 20 bytes the
output has the 23 bytes of a P2SH script. -/
example : (@build _ modHashes toyEcdsa (run (exCalls 10000 7000 500 ++ [.to (Address.make .p2sh (List.replicate 32 7)) 6000]))).bind
      (fun tx => .ok (tx.outputs.map fun o => (o.value, o.script.length))) = .ok [(6000, 0), (3500, 22), (0, 5)] ∧
    (@build _ modHashes toyEcdsa (run (exCalls 10000 7000 500 ++ [.to (Address.make .p2sh (List.replicate 20 7)) 6000]))).bind
      (fun tx => .ok (tx.outputs.map fun o => (o.value, o.script.length))) = .ok [(6000, 23), (3500, 22), (0, 5)] := by
  decide +kernel

end Toku.Props
