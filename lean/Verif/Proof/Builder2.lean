import Verif.Proof.Builder
import Verif.Proof.TxSign
/-
What BuildTransaction returns.
-/
namespace Toku.Builder
open Toku.Tx Toku.Spec Toku.Props

variable {κ : Type} [Hashes]

omit [Hashes] in
theorem Frozen.trans' {a b c : Transaction} (h1 : Frozen a b) (h2 : Frozen b c) : Frozen a c :=
  ⟨h2.version.trans h1.version, h2.lockTime.trans h1.lockTime, h2.outputs.trans h1.outputs, h2.inputs.trans h1.inputs⟩

theorem witnessHash_frozen' {tx tx' : Transaction} {idx : ℕ} {t : UInt32} {d : Bytes}
    (h : witnessSignatureHash tx idx t = .ok (d, tx')) : Frozen tx tx' ∧ tx'.inputs = tx.inputs := by
  unfold witnessSignatureHash at h
  cases hi : tx.inputs[idx]? with
  | none => rw [hi] at h; cases h
  | some i =>
    rw [hi] at h
    change Res.ok (_, _) = Res.ok (_, _) at h
    simp only [Res.ok.injEq, Prod.mk.injEq] at h
    rw [← h.2]
    exact ⟨⟨rfl, rfl, rfl, rfl⟩, rfl⟩

theorem signOne_frozen {E : Ecdsa κ} {tx tx' : Transaction} {idx : ℕ} {t : UInt32} {w : Bool} {key : κ} {s : Bytes}
    (h : signOne E tx idx t w key = .ok (s, tx')) : Frozen tx tx' ∧ tx'.inputs = tx.inputs := by
  unfold signOne at h
  cases w with
  | false =>
    simp only [Bool.false_eq_true, if_false] at h
    obtain ⟨a, _, h⟩ := Res.bind_eq_ok.mp h
    cases h
    exact ⟨Frozen.refl _, rfl⟩
  | true =>
    simp only [if_true] at h
    unfold witnessSignature at h
    split at h
    · cases h
    · obtain ⟨i, _, h⟩ := Res.bind_eq_ok.mp h
      obtain ⟨sc, _, h⟩ := Res.bind_eq_ok.mp h
      cases hv : Locking.scriptVersion sc <;> rw [hv] at h <;> dsimp only at h
      · cases h
      · obtain ⟨⟨d, tx1⟩, h1, h⟩ := Res.bind_eq_ok.mp h
        dsimp only at h
        obtain ⟨sig, _, h⟩ := Res.bind_eq_ok.mp h
        cases h
        exact witnessHash_frozen' h1

theorem signKeys_frozen {E : Ecdsa κ} {idx : ℕ} {c : Bool} {t : UInt32} {w : Bool} (keys : List κ) :
    ∀ {tx tx' : Transaction} {s : List Locking.PubKeySign}, signKeys E idx c t w keys tx = .ok (s, tx') →
      Frozen tx tx' ∧ tx'.inputs = tx.inputs := by
  induction keys with
  | nil => intro tx tx' s h; cases h; exact ⟨Frozen.refl _, rfl⟩
  | cons k keys ih =>
    intro tx tx' s h
    simp only [signKeys] at h
    obtain ⟨⟨a, tx1⟩, h1, h⟩ := Res.bind_eq_ok.mp h
    dsimp only at h
    obtain ⟨⟨b, tx2⟩, h2, h⟩ := Res.bind_eq_ok.mp h
    cases h
    have f1 := signOne_frozen h1
    have f2 := ih h2
    exact ⟨Frozen.trans' f1.1 f2.1, f2.2.trans f1.2⟩

omit [Hashes] in
theorem putInput_frozen {tx : Transaction} {idx : ℕ} {i j : TxIn} (hi : tx.inputs[idx]? = some i) (h : bare j = bare i) :
    Frozen tx (putInput tx idx j) := by
  refine ⟨rfl, rfl, rfl, ?_⟩
  unfold putInput
  simp only
  rw [List.map_set]
  apply List.ext_getElem?
  intro k
  rw [List.getElem?_set]
  by_cases hk : idx = k
  · subst hk
    have hlt : idx < tx.inputs.length := by
      by_contra hcc
      rw [List.getElem?_eq_none (by omega)] at hi
      cases hi
    rw [if_pos rfl, List.length_map, if_pos hlt, List.getElem?_map, hi, h]
    rfl
  · rw [if_neg hk]

theorem embed_frozen {tx tx' : Transaction} {idx : ℕ} {s : List Locking.PubKeySign} (h : embed tx idx s = .ok tx') : Frozen tx tx' := by
  unfold embed at h
  cases hi : tx.inputs[idx]? with
  | none => rw [hi] at h; cases h
  | some i =>
    rw [hi] at h
    change (if s.length > 1 ∧ i.redeemScript = none then _ else _) = _ at h
    split at h
    · cases h
    · obtain ⟨sc, _, h⟩ := Res.bind_eq_ok.mp h
      split at h
      · cases h
      · cases h; exact putInput_frozen hi rfl
      · obtain ⟨w, _, h⟩ := Res.bind_eq_ok.mp h
        cases h
        exact putInput_frozen hi rfl

theorem signIndex_frozen {E : Ecdsa κ} {tx tx' : Transaction} {idx : ℕ} {c : Bool} {t : UInt32} {keys : List κ}
    (h : signIndex E tx idx c t keys = .ok tx') : Frozen tx tx' := by
  unfold signIndex at h
  obtain ⟨i, _, h⟩ := Res.bind_eq_ok.mp h
  split at h
  · cases h
  · obtain ⟨⟨s, tx1⟩, h1, h⟩ := Res.bind_eq_ok.mp h
    exact Frozen.trans' (signKeys_frozen keys h1).1 (embed_frozen h)

theorem signAll_frozen {E : Ecdsa κ} (gs : List (Builder.Group κ)) : ∀ {n : ℕ} {tx tx' : Transaction},
    signAll E gs n tx = .ok tx' → Frozen tx tx' := by
  induction gs with
  | nil => intro n tx tx' h; cases h; exact Frozen.refl _
  | cons g gs ih =>
    intro n tx tx' h
    simp only [signAll] at h
    split at h
    · cases h
    · obtain ⟨tx1, h1, h⟩ := Res.bind_eq_ok.mp h
      exact Frozen.trans' (signIndex_frozen h1) (ih h)

/-- the unsigned transaction for given inputs and change -/
def unsigned (b : Settings κ) (ins : List TxIn) (change : List TxOut) : Transaction :=
  { Tx.new with
    lockTime := b.lockTime
    inputs := ins
    outputs := (payments b).map payOut ++ change ++ b.pushDatas.map dataOut }

/-- what remains after the fee, as computed -/
def remainder (b : Settings κ) (fee : ℤ) : ℤ := wrap64 (wrap64 (wrap64 (inSum b) - wrap64 (outSum b)) - fee)

omit [Hashes] in
theorem changeOutput_ok {b : Settings κ} {r : ℤ} {outs : List TxOut} (hr : 0 ≤ r) :
    changeOutput b r = .ok outs ↔ ChangeFor b r outs := by
  unfold changeOutput ChangeFor
  by_cases h : r > 0
  · rw [if_pos h]
    constructor
    · intro e
      right
      refine ⟨h, ?_⟩
      split at e
      · cases e
      · cases e
      · rename_i a ha
        exact ⟨a, ha, (Res.ok.inj e).symm⟩
    · rintro (⟨h0, _⟩ | ⟨_, a, ha, rfl⟩)
      · omega
      · rw [ha]
  · rw [if_neg h]
    constructor
    · intro e; left; exact ⟨by omega, (Res.ok.inj e).symm⟩
    · rintro (⟨_, rfl⟩ | ⟨h0, _⟩)
      · rfl
      · exact absurd h0 h

theorem collect_groups (b : Settings κ) (acc' : Acc κ) : collect b.groups ⟨[], [], 0, 0⟩ = .ok acc' ↔
    ∃ ins, List.Forall₂ InputFor (spends b) ins ∧ acc' = ⟨ins.zip ((spends b).map (·.2)), (payments b).map payOut,
        wrap64 (inSum b), wrap64 (outSum b)⟩ := by
  have hcol := collect_ok b.groups ⟨[], [], 0, 0⟩ acc' (by change wrap64 0 = 0; decide) (by change wrap64 0 = 0; decide)
  simp only [List.nil_append, Int.zero_add] at hcol
  exact hcol

theorem build_eq (E : Ecdsa κ) {b : Settings κ} {ins : List TxIn} (f : List.Forall₂ InputFor (spends b) ins) :
    build E b = (if ins.length = 0 then .err errFromEmpty else if (payments b).length = 0 then .err errSendEmpty
      else if feeOf b ins > b.maxFees then .err errFeeTooHigh
      else if wrap64 (outSum b) > wrap64 (inSum b) then .err errAmount
      else if remainder b (feeOf b ins) < 0 then .err errMinFee
      else changeOutput b (remainder b (feeOf b ins)) >>= fun change =>
        if b.sign then signAll E ((spends b).map (·.2)) 0 (unsigned b ins change) else .ok (unsigned b ins change)) := by
  unfold build
  rw [(collect_groups b _).mpr ⟨ins, f, rfl⟩, Res.ok_bind]
  dsimp only
  have hfee : decideFees b ⟨ins.zip ((spends b).map (·.2)), (payments b).map payOut, wrap64 (inSum b), wrap64 (outSum b)⟩ =
      feeOf b ins := by
    unfold decideFees feeOf
    rw [List.map_fst_zip (by rw [List.length_map, f.length_eq])]
  rw [hfee]
  have l1 : (ins.zip ((spends b).map (·.2))).length = ins.length := by
    rw [List.length_zip, List.length_map, f.length_eq, Nat.min_self]
  have l2 : ((payments b).map payOut).length = (payments b).length := List.length_map _
  have l3 : (ins.zip ((spends b).map (·.2))).map (·.1) = ins := List.map_fst_zip (by rw [List.length_map, f.length_eq])
  have l4 : (ins.zip ((spends b).map (·.2))).map (·.2) = (spends b).map (·.2) :=
    List.map_snd_zip (by rw [List.length_map, f.length_eq])
  rw [l1, l2, l3, l4]
  rfl

theorem build_ok {E : Ecdsa κ} {b : Settings κ} {tx : Transaction} :
    build E b = .ok tx ↔ ∃ ins change, List.Forall₂ InputFor (spends b) ins ∧ ins ≠ [] ∧ payments b ≠ [] ∧
      feeOf b ins ≤ b.maxFees ∧ wrap64 (outSum b) ≤ wrap64 (inSum b) ∧ 0 ≤ remainder b (feeOf b ins) ∧
      ChangeFor b (remainder b (feeOf b ins)) change ∧
      (if b.sign then signAll E ((spends b).map (·.2)) 0 (unsigned b ins change) else .ok (unsigned b ins change)) = .ok tx := by
  constructor
  · intro h
    have h0 := h
    unfold build at h0
    obtain ⟨acc, hc, _⟩ := Res.bind_eq_ok.mp h0
    obtain ⟨ins, f, _⟩ := (collect_groups b acc).mp hc
    rw [build_eq E f] at h
    split at h
    · cases h
    rename_i n1
    split at h
    · cases h
    rename_i n2
    split at h
    · cases h
    rename_i n3
    split at h
    · cases h
    rename_i n4
    split at h
    · cases h
    rename_i n5
    obtain ⟨change, hch, h⟩ := Res.bind_eq_ok.mp h
    refine ⟨ins, change, f, ?_, ?_, by omega, by omega, by omega, (changeOutput_ok (by omega)).mp hch, h⟩
    · rintro rfl; simp at n1
    · intro e; rw [e] at n2; simp at n2
  · rintro ⟨ins, change, f, n1, n2, n3, n4, n5, hch, h⟩
    rw [build_eq E f, if_neg (by simpa using n1), if_neg (by simpa using n2), if_neg (by omega), if_neg (by omega), if_neg (by omega),
      (changeOutput_ok n5).mpr hch, Res.ok_bind]
    exact h

theorem inputFor_value {p : Coin × Builder.Group κ} {i : TxIn} (h : InputFor p i) : i.value = p.1.value ∧ bare i = i := by
  obtain ⟨txid, script, _, _, h⟩ := h
  unfold newTxIn at h
  obtain ⟨s, _, h⟩ := Res.bind_eq_ok.mp h
  cases h
  exact ⟨rfl, rfl⟩


omit [Hashes] in
theorem feeOf_bare (b : Settings κ) {l l' : List TxIn} (h : l.map bare = l'.map bare) : feeOf b l = feeOf b l' := by
  have hw : l.map TxIn.hasWitness = l'.map TxIn.hasWitness := by
    have e := congrArg (List.map TxIn.hasWitness) h
    rw [List.map_map, List.map_map] at e
    exact e
  have hs : ∀ (m : List TxIn) (outs : List TxOut), Estimate.size m outs =
      (let ws := m.map TxIn.hasWitness
       let base := 4 + Buffer.varIntSerializeSize (UInt64.ofNat ws.length) +
        (ws.map fun w => if w then 0 else Estimate.inputP2PKHSize).sum +
        Buffer.varIntSerializeSize (UInt64.ofNat outs.length) + (outs.map fun o => 8 + o.script.length).sum + 4
       let wit := if ws.any id then (ws.map fun w => if w then Buffer.varIntSerializeSize 2 +
        Buffer.varIntSerializeSize (UInt64.ofNat Estimate.inputWitnessSignatureSize) +
        Buffer.varIntSerializeSize (UInt64.ofNat Estimate.inputWitnessPubKeySize)
        else Buffer.varIntSerializeSize 0).sum else 0
       (base * (4 - 1) + (base + wit)) / 4) := by
    intro m outs
    unfold Estimate.size Estimate.baseSize Estimate.witnessSize
    simp only [List.map_map, List.length_map, List.any_map]
    rfl
  unfold feeOf
  rw [hs l, hs l', hw]

end Toku.Builder
