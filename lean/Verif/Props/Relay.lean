import Verif.Spec.Relay
import Verif.Proof.Locking
import Verif.Props.Builder
/-
Property C138: which built transactions have outputs that nodes pass on.
-/
namespace Toku.Props
open Toku Toku.Spec Toku.Tx Toku.Builder Toku.Script Toku.VM

/-- The least amount of an output to an address of each kind: 546, 540, 294 and 330 satoshi. -/
def leastFor : Locking.Kind → ℕ
  | .p2pkh => 546
  | .p2sh => 540
  | .p2wpkh => 294
  | .p2wsh => 330

/-- Amounts and scripts of outputs. -/
def amounts (outs : List TxOut) : List (ℕ × Bytes) := outs.map fun o => (o.value.toNat, o.script)

private theorem dust_standard {k : Locking.Kind} {h : Bytes} (hh : h.length = hashSize k) :
    dustLimit (standardScript k h) = leastFor k ∧ isData (standardScript k h) = false := by
  cases k <;> simp only [hashSize] at hh
  · constructor
    · have : isProgram (standardScript .p2pkh h) = false := by simp [standardScript, isProgram]
      unfold dustLimit
      rw [this]
      simp [standardScript, hh, leastFor]
    · simp [isData, standardScript]
  · constructor
    · have : isProgram (standardScript .p2sh h) = false := by simp [standardScript, isProgram]
      unfold dustLimit
      rw [this]
      simp [standardScript, hh, leastFor]
    · simp [isData, standardScript]
  · constructor
    · have : isProgram (standardScript .p2wpkh h) = true := by simp [standardScript, isProgram, hh]
      unfold dustLimit
      rw [this]
      simp [standardScript, hh, leastFor]
    · simp [isData, standardScript]
  · constructor
    · have : isProgram (standardScript .p2wsh h) = true := by simp [standardScript, isProgram, hh]
      unfold dustLimit
      rw [this]
      simp [standardScript, hh, leastFor]
    · simp [isData, standardScript]

private theorem data_head (d : Bytes) : ∃ r, (dataOut d).script = 0x6a :: r := by
  unfold dataOut addData addOp
  simp only [Buffer.writeU8, Buffer.writeBytes, Buffer.writeU16, Buffer.writeU32, Buffer.new]
  split_ifs <;> exact ⟨_, rfl⟩

private theorem data_length (d : Bytes) : (dataOut d).script.length ≤ 83 ↔ d.length ≤ 80 := by
  unfold dataOut addData addOp
  simp only [Buffer.writeU8, Buffer.writeBytes, Buffer.writeU16, Buffer.writeU32, Buffer.new]
  split_ifs <;> simp <;> omega

private theorem data_push {d : Bytes} (hd : d.length ≤ 80) : PushOnly (pushToken d) := by
  by_cases h : d = [0x81]
  · subst h
    unfold PushOnly
    decide
  · obtain ⟨⟨_, hv⟩, hl⟩ := Locking.pushToken_isPush (show d.length < 2^32 by omega) h
    exact ⟨UInt8.le_iff_toNat_le.mpr hl, hv⟩

/-- A data output has a form that is passed on exactly if it holds at most 80 bytes. -/
private theorem data_form (d : Bytes) : RelayedForm (dataOut d).script ↔ d.length ≤ 80 := by
  constructor
  · rintro (⟨k, h, hh, e⟩ | ⟨_, _, _, hl⟩)
    · obtain ⟨r, hr⟩ := data_head d
      have := (dust_standard hh).2
      rw [← e, hr] at this
      cases this
    · exact (data_length d).mp hl
  · intro hd
    refine .inr ⟨[pushToken d], ?_, ?_, (data_length d).mpr hd⟩
    · show (addData (addOp Buffer.new 0x6a) d).data = _
      rw [addData_data _ _ (by omega)]
      simp [encTokens, addOp, Buffer.writeU8, Buffer.new]
    · intro t ht
      rw [List.mem_singleton] at ht
      subst ht
      exact data_push hd

private theorem form_nil : ¬ RelayedForm [] := by
  rintro (⟨k, h, _, e⟩ | ⟨_, e, _⟩)
  · cases k <;> cases e
  · cases e

/-- Addresses as the constructors make them: with a hash of the length of their kind. -/
def SoundAddr (a : Address.Addr) : Prop := a.hash.length = hashSize a.kind

private theorem addr_script {a : Address.Addr} (h : SoundAddr a) : Address.lockingScript a = standardScript a.kind a.hash :=
  Locking.rawLocking_eq h

section
variable {κ : Type} [Hashes]

/-- **C138 (partial).** Full statement: the outputs of a built transaction are passed on by nodes. Proved: exactly when they are. Every payment
needs an address and the least amount for its kind, the change too if there is any, there may be one data output only, and of at most 80 bytes.
The builder checks none of this (`C138_negation_change` and the others). -/
theorem C138_relayed_iff_partial (E : Ecdsa κ) (b : Settings κ) (tx : Transaction) (h : build E b = .ok tx)
    (hp : ∀ o ∈ payments b, ∀ a, o.addr = some a → SoundAddr a) (hc : ∀ a, b.change = some (some a) → SoundAddr a) :
    Relayed (amounts tx.outputs) ↔
      (∀ o ∈ payments b, ∃ a, o.addr = some a ∧ leastFor a.kind ≤ o.value.toNat) ∧
      (∀ a, b.change = some (some a) → 0 < wrap64 (inSum b - outSum b - feeOf b tx.inputs) →
        (leastFor a.kind : ℤ) ≤ wrap64 (inSum b - outSum b - feeOf b tx.inputs)) ∧
      b.pushDatas.length ≤ 1 ∧ ∀ d ∈ b.pushDatas, d.length ≤ 80 := by
  obtain ⟨_, change, ho, hch⟩ := C47_outputs E b tx h
  have hlt := wrap64_lt (inSum b - outSum b - feeOf b tx.inputs)
  revert hch hlt
  generalize wrap64 (inSum b - outSum b - feeOf b tx.inputs) = x
  intro hch hlt
  have hd : ∀ d, isData (dataOut d).script = true := by
    intro d
    obtain ⟨r, hr⟩ := data_head d
    rw [hr]
    rfl
  have hpd : ∀ o ∈ payments b, isData (payOut o).script = false := by
    intro o hm
    unfold payOut
    cases e : o.addr with
    | none => rfl
    | some a =>
      show isData (Address.lockingScript a) = false
      rw [addr_script (hp o hm a e)]
      exact (dust_standard (hp o hm a e)).2
  have hcd : ∀ o ∈ change, isData o.script = false := by
    rcases hch with ⟨_, rfl⟩ | ⟨_, a, ha, rfl⟩
    · intro o hm; cases hm
    · intro o hm
      rw [List.mem_singleton] at hm
      subst hm
      show isData (Address.lockingScript a) = false
      rw [addr_script (hc a ha)]
      exact (dust_standard (hc a ha)).2
  have hcount : ((amounts tx.outputs).filter fun o => isData o.2).length = b.pushDatas.length := by
    rw [ho]
    unfold amounts
    rw [List.map_append, List.map_append, List.filter_append, List.filter_append]
    rw [List.filter_eq_nil_iff.mpr, List.filter_eq_nil_iff.mpr, List.filter_eq_self.mpr]
    · simp
    · intro o hm
      rw [List.map_map] at hm
      obtain ⟨d, _, rfl⟩ := List.mem_map.mp hm
      exact hd d
    · intro o hm
      obtain ⟨c, hc', rfl⟩ := List.mem_map.mp hm
      rw [hcd c hc']
      exact Bool.false_ne_true
    · intro o hm
      rw [List.map_map] at hm
      obtain ⟨c, hc', rfl⟩ := List.mem_map.mp hm
      show ¬ isData (payOut c).script = true
      rw [hpd c hc']
      exact Bool.false_ne_true
  have mem : ∀ o, o ∈ tx.outputs ↔ (∃ p ∈ payments b, payOut p = o) ∨ o ∈ change ∨ ∃ d ∈ b.pushDatas, dataOut d = o := by
    intro o
    rw [ho, List.mem_append, List.mem_append, List.mem_map, List.mem_map, or_assoc]
  constructor
  · intro hr
    have form : ∀ o ∈ tx.outputs, RelayedForm o.script := fun o hm => hr.form _ (List.mem_map.mpr ⟨o, hm, rfl⟩)
    have dust : ∀ o ∈ tx.outputs, isData o.script = false → dustLimit o.script ≤ o.value.toNat :=
      fun o hm => hr.dust _ (List.mem_map.mpr ⟨o, hm, rfl⟩)
    refine ⟨?_, ?_, ?_, ?_⟩
    · intro o hm
      have hm' := (mem (payOut o)).mpr (.inl ⟨o, hm, rfl⟩)
      have hf := form _ hm'
      have hdu := dust _ hm' (hpd o hm)
      unfold payOut at hf hdu
      cases e : o.addr with
      | none => rw [e] at hf; exact absurd hf form_nil
      | some a =>
        rw [e] at hdu
        refine ⟨a, rfl, ?_⟩
        change dustLimit (Address.lockingScript a) ≤ _ at hdu
        rw [addr_script (hp o hm a e), (dust_standard (hp o hm a e)).1] at hdu
        exact hdu
    · intro a ha hx
      rcases hch with ⟨h0, _⟩ | ⟨_, a', ha', rfl⟩
      · omega
      · rw [ha] at ha'
        cases ha'
        have hdu := dust _ ((mem _).mpr (.inr (.inl (List.mem_singleton.mpr rfl)))) (hcd _ (List.mem_singleton.mpr rfl))
        change dustLimit (Address.lockingScript a) ≤ _ at hdu
        rw [addr_script (hc a ha), (dust_standard (hc a ha)).1] at hdu
        rw [← ofNat_toNat hx hlt]
        exact_mod_cast hdu
    · rw [← hcount]; exact hr.data
    · intro d hm
      exact (data_form d).mp (form _ ((mem _).mpr (.inr (.inr ⟨d, hm, rfl⟩))))
  · rintro ⟨h1, h2, h3, h4⟩
    have key : ∀ o ∈ tx.outputs, RelayedForm o.script ∧ (isData o.script = false → dustLimit o.script ≤ o.value.toNat) := by
      intro o hmo
      rcases (mem o).mp hmo with ⟨p, hm, rfl⟩ | hm | ⟨d, hm, rfl⟩
      · obtain ⟨a, e, hl⟩ := h1 p hm
        have hs := hp p hm a e
        have es : (payOut p).script = standardScript a.kind a.hash := by
          unfold payOut
          rw [e]
          exact addr_script hs
        rw [es, (dust_standard hs).1]
        exact ⟨.inl ⟨_, _, hs, rfl⟩, fun _ => hl⟩
      · rcases hch with ⟨_, rfl⟩ | ⟨hx, a, ha, rfl⟩
        · cases hm
        · rw [List.mem_singleton] at hm
          subst hm
          have hs := hc a ha
          have hl := h2 a ha hx
          rw [← ofNat_toNat hx hlt] at hl
          show RelayedForm (Address.lockingScript a) ∧ (_ → dustLimit (Address.lockingScript a) ≤ _)
          rw [addr_script hs, (dust_standard hs).1]
          exact ⟨.inl ⟨_, _, hs, rfl⟩, fun _ => by exact_mod_cast hl⟩
      · exact ⟨(data_form d).mpr (h4 d hm), fun hf => by rw [hd d] at hf; cases hf⟩
    refine ⟨?_, ?_, by rw [hcount]; exact h3⟩
    · intro o hm
      obtain ⟨c, hc', rfl⟩ := List.mem_map.mp hm
      exact (key c hc').1
    · intro o hm
      obtain ⟨c, hc', rfl⟩ := List.mem_map.mp hm
      exact (key c hc').2

/-- **C138**, negation: change below the least amount is paid out all the same, and no node passes the transaction on. -/
theorem C138_negation_change (E : Ecdsa κ) (b : Settings κ) (tx : Transaction) (h : build E b = .ok tx)
    (hp : ∀ o ∈ payments b, ∀ a, o.addr = some a → SoundAddr a) (hc : ∀ a, b.change = some (some a) → SoundAddr a)
    (a : Address.Addr) (ha : b.change = some (some a)) (h0 : 0 < wrap64 (inSum b - outSum b - feeOf b tx.inputs))
    (hlow : wrap64 (inSum b - outSum b - feeOf b tx.inputs) < leastFor a.kind) : ¬ Relayed (amounts tx.outputs) := by
  intro hr
  have := ((C138_relayed_iff_partial E b tx h hp hc).mp hr).2.1 a ha h0
  omega

/-- **C138**, negation: so with a payment below the least amount. -/
theorem C138_negation_payment (E : Ecdsa κ) (b : Settings κ) (tx : Transaction) (h : build E b = .ok tx)
    (hp : ∀ o ∈ payments b, ∀ a, o.addr = some a → SoundAddr a) (hc : ∀ a, b.change = some (some a) → SoundAddr a)
    (a : Address.Addr) (v : UInt64) (hm : ⟨some a, v⟩ ∈ payments b) (hlow : v.toNat < leastFor a.kind) :
    ¬ Relayed (amounts tx.outputs) := by
  intro hr
  obtain ⟨a', e, hl⟩ := ((C138_relayed_iff_partial E b tx h hp hc).mp hr).1 _ hm
  cases e
  change leastFor a.kind ≤ v.toNat at hl
  omega

/-- **C138**, negation: so with two pieces of data, or one of more than 80 bytes. -/
theorem C138_negation_data (E : Ecdsa κ) (b : Settings κ) (tx : Transaction) (h : build E b = .ok tx)
    (hp : ∀ o ∈ payments b, ∀ a, o.addr = some a → SoundAddr a) (hc : ∀ a, b.change = some (some a) → SoundAddr a)
    (hd : 2 ≤ b.pushDatas.length ∨ ∃ d ∈ b.pushDatas, 80 < d.length) : ¬ Relayed (amounts tx.outputs) := by
  intro hr
  obtain ⟨_, _, h1, h2⟩ := (C138_relayed_iff_partial E b tx h hp hc).mp hr
  rcases hd with hd | ⟨d, hm, hd⟩
  · omega
  · have := h2 d hm
    omega

end

/-- A payment of 6000 from a coin of 10000 with change of 3500 is passed on; with the fee 3999 the builder makes change of one satoshi. -/
example : ∃ tx tx', @build _ modHashes toyEcdsa (run (exCalls 10000 6000 500)) = .ok tx ∧ Relayed (amounts tx.outputs) ∧
    @build _ modHashes toyEcdsa (run (exCalls 10000 6000 3999)) = .ok tx' ∧ ¬ Relayed (amounts tx'.outputs) := by
  have sound : ∀ f, (∀ o ∈ payments (run (exCalls 10000 6000 f)), ∀ a, o.addr = some a → SoundAddr a) ∧
      ∀ a, (run (exCalls 10000 6000 f)).change = some (some a) → SoundAddr a := by
    intro f
    constructor
    · intro o hm a e
      change o ∈ [_] at hm
      rw [List.mem_singleton] at hm
      subst hm
      cases e
      rfl
    · intro a e
      cases e
      rfl
  obtain ⟨tx, e, h⟩ := Res.bind_eq_ok.mp (show (@build _ modHashes toyEcdsa (run (exCalls 10000 6000 500))).bind
    (fun tx => .ok (wrap64 (inSum (run (exCalls 10000 6000 500)) - outSum (run (exCalls 10000 6000 500)) -
      feeOf (run (exCalls 10000 6000 500)) tx.inputs))) = .ok 3500 by decide +kernel)
  obtain ⟨tx', e', h'⟩ := Res.bind_eq_ok.mp (show (@build _ modHashes toyEcdsa (run (exCalls 10000 6000 3999))).bind
    (fun tx => .ok (wrap64 (inSum (run (exCalls 10000 6000 3999)) - outSum (run (exCalls 10000 6000 3999)) -
      feeOf (run (exCalls 10000 6000 3999)) tx.inputs))) = .ok 1 by decide +kernel)
  injection h with h
  injection h' with h'
  refine ⟨tx, tx', e, ?_, e', ?_⟩
  · rw [@C138_relayed_iff_partial _ modHashes toyEcdsa _ tx e (sound 500).1 (sound 500).2, h]
    refine ⟨?_, ?_, by decide, ?_⟩
    · intro o hm
      change o ∈ [_] at hm
      rw [List.mem_singleton] at hm
      subst hm
      exact ⟨_, rfl, by decide⟩
    · intro a ha _
      cases ha
      decide
    · intro d hm
      change d ∈ [_] at hm
      rw [List.mem_singleton] at hm
      subst hm
      decide
  · exact @C138_negation_change _ modHashes toyEcdsa _ tx' e' (sound 3999).1 (sound 3999).2 exAddr rfl (by rw [h']; decide)
      (by rw [h']; decide)

end Toku.Props
