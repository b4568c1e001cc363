import Verif.Proof.Builder2
import Verif.Props.TxSign
/-
Properties C45 to C48 and C85: the transaction builder and its estimates.
-/
namespace Toku.Props
open Toku Toku.Spec Toku.Tx Toku.Builder

variable {κ : Type} [Hashes]

/-- Total amount of the inputs and of the outputs of a transaction. -/
def inputTotal (tx : Transaction) : ℕ := (tx.inputs.map fun i => i.value.toNat).sum
def outputTotal (tx : Transaction) : ℕ := (tx.outputs.map fun o => o.value.toNat).sum

/-- `sendFees` is an `int64`. -/
def FitsInt64 (b : Settings κ) : Prop := -2^63 ≤ b.sendFees ∧ b.sendFees < 2^63

omit [Hashes] in
theorem wrap64_lt (x : ℤ) : wrap64 x < 2^63 := by unfold wrap64; omega

omit [Hashes] in
theorem wrap64_ge (x : ℤ) : -2^63 ≤ wrap64 x := by unfold wrap64; omega

omit [Hashes] in
theorem ofNat_toNat {x : ℤ} (h : 0 < x) (h' : x < 2^63) : ((UInt64.ofNat x.toNat).toNat : ℤ) = x := by
  rw [UInt64.toNat_ofNat', Nat.mod_eq_of_lt (by omega)]
  omega

/-- Every configuration reached by the setters has it. -/
theorem run_fits (calls : List (Call κ)) : FitsInt64 (run calls) := by
  unfold run
  have : ∀ (cs : List (Call κ)) (b : Settings κ), FitsInt64 b → FitsInt64 (cs.foldl step b) := by
    intro cs
    induction cs with
    | nil => intro b h; exact h
    | cons c cs ih =>
      intro b h
      refine ih _ ?_
      cases c with
      | sendFees v => exact ⟨wrap64_ge _, wrap64_lt _⟩
      | _ => exact h
  refine this calls new ?_
  change (-2^63 : ℤ) ≤ 1000 ∧ (1000 : ℤ) < 2^63
  decide

theorem feeOf_range {b : Settings κ} (hb : FitsInt64 b) (ins : List TxIn) : -2^63 ≤ feeOf b ins ∧ feeOf b ins < 2^63 := by
  unfold feeOf
  split
  · unfold Estimate.fees
    split
    · unfold F64.toInt64
      dsimp only
      split
      all_goals split
      all_goals first | assumption | omega
    · omega
  · exact hb

/-- What the inputs and outputs of a built transaction are, and their totals. -/
theorem build_shape {E : Ecdsa κ} {b : Settings κ} {tx : Transaction} (h : build E b = .ok tx) :
    ∃ change, tx.version = 1 ∧ tx.lockTime = b.lockTime ∧
      List.Forall₂ (fun p i => InputFor p (bare i)) (spends b) tx.inputs ∧
      tx.outputs = (payments b).map payOut ++ change ++ b.pushDatas.map dataOut ∧
      spends b ≠ [] ∧ payments b ≠ [] ∧ feeOf b tx.inputs ≤ b.maxFees ∧ wrap64 (outSum b) ≤ wrap64 (inSum b) ∧
      0 ≤ remainder b (feeOf b tx.inputs) ∧ ChangeFor b (remainder b (feeOf b tx.inputs)) change := by
  obtain ⟨ins, change, f, n1, n2, n3, n4, n5, n6, h⟩ := build_ok.mp h
  have hfr : Frozen (unsigned b ins change) tx := by
    split at h
    · exact signAll_frozen _ h
    · cases h; exact Frozen.refl _
  have hbare : ins.map bare = ins := by
    clear n1 n3 n5 n6 h hfr
    revert f
    generalize spends b = l
    intro f
    induction f with
    | nil => rfl
    | cons h1 _ ih => rw [List.map_cons, ih, (inputFor_value h1).2]
  have hin : tx.inputs.map bare = ins := hfr.inputs.trans hbare
  have hfee : feeOf b tx.inputs = feeOf b ins := feeOf_bare b (hin.trans hbare.symm)
  rw [hfee]
  refine ⟨change, hfr.version, hfr.lockTime, ?_, hfr.outputs, ?_, n2, n3, n4, n5, n6⟩
  · rw [← hin] at f
    exact List.forall₂_map_right_iff.mp f
  · intro e
    rw [e] at f
    cases f
    exact n1 rfl

theorem build_inputTotal {E : Ecdsa κ} {b : Settings κ} {tx : Transaction} (h : build E b = .ok tx) : inputTotal tx = inSum b := by
  obtain ⟨_, _, _, f, _⟩ := build_shape h
  unfold inputTotal inSum
  clear h
  revert f
  generalize spends b = l
  generalize tx.inputs = m
  intro f
  induction f with
  | nil => rfl
  | cons h1 _ ih =>
    rw [List.map_cons, List.map_cons, List.sum_cons, List.sum_cons, ih]
    have := (inputFor_value h1).1
    rw [← this]
    rfl

theorem build_outputTotal {E : Ecdsa κ} {b : Settings κ} {tx : Transaction} (h : build E b = .ok tx) :
    (outputTotal tx : ℤ) = outSum b + remainder b (feeOf b tx.inputs) := by
  obtain ⟨change, _, _, _, ho, _, _, _, _, n5, n6⟩ := build_shape h
  unfold outputTotal outSum
  rw [ho]
  simp only [List.map_append, List.sum_append, List.map_map]
  have h1 : ((fun o : TxOut => o.value.toNat) ∘ payOut) = fun o => o.value.toNat := by
    funext o; simp only [Function.comp_apply, payOut]
  have h2 : (List.map ((fun o => o.value.toNat) ∘ dataOut) b.pushDatas).sum = 0 := by
    induction b.pushDatas with
    | nil => rfl
    | cons d ds ih =>
      rw [List.map_cons, List.sum_cons, ih]
      simp only [Function.comp_apply, dataOut, UInt64.toNat_zero]
  have h3 : (((change.map fun o => o.value.toNat).sum : ℕ) : ℤ) = remainder b (feeOf b tx.inputs) := by
    have hlt : remainder b (feeOf b tx.inputs) < 2^63 := by unfold remainder; exact wrap64_lt _
    revert hlt n5 n6
    generalize remainder b (feeOf b tx.inputs) = x
    intro n5 n6 hlt
    rcases n6 with ⟨e, rfl⟩ | ⟨hp, a, _, rfl⟩
    · rw [e]; simp
    · rw [List.map_cons, List.map_nil, List.sum_cons, List.sum_nil, Nat.add_zero]
      exact ofNat_toNat hp hlt
  rw [h1, h2]
  rw [Nat.cast_add, Nat.cast_add, h3, Nat.cast_zero, Int.add_zero]

/-- **C45**, always: inputs and outputs plus the decided fee agree modulo 2^64. -/
theorem C45_conserved_mod (E : Ecdsa κ) (b : Settings κ) (tx : Transaction) (h : build E b = .ok tx) :
    (inputTotal tx : ℤ) % 2^64 = (outputTotal tx + feeOf b tx.inputs) % 2^64 := by
  rw [build_inputTotal h, build_outputTotal h]
  unfold remainder wrap64
  omega

/-- **C45 (partial).** Full statement: without the bounds on the totals. Proved: when coins and payments each total
less than 2^63, inputs equal outputs plus the decided fee, and with a fee that is not negative the outputs do not
exceed the inputs. -/
theorem C45_conserved_partial (E : Ecdsa κ) (b : Settings κ) (hb : FitsInt64 b) (h1 : inSum b < 2^63) (h2 : outSum b < 2^63)
    (tx : Transaction) (h : build E b = .ok tx) :
    (inputTotal tx : ℤ) = outputTotal tx + feeOf b tx.inputs ∧
    (0 ≤ feeOf b tx.inputs → outputTotal tx ≤ inputTotal tx) := by
  have hr := feeOf_range hb tx.inputs
  obtain ⟨_, _, _, _, _, _, _, _, n4, n5, _⟩ := build_shape h
  have e : (inputTotal tx : ℤ) = outputTotal tx + feeOf b tx.inputs := by
    rw [build_inputTotal h, build_outputTotal h]
    unfold remainder wrap64 at *
    omega
  exact ⟨e, by omega⟩

/-- **C46 (partial).** Full statement: without the bounds. Proved: when coins and payments each total less than 2^63
and a fixed fee is below 2^63 (so that it is not taken for a negative number), the fee paid lies between zero and
the maximum. -/
theorem C46_fee_cap_partial (E : Ecdsa κ) (b : Settings κ) (hb : FitsInt64 b) (h1 : inSum b < 2^63) (h2 : outSum b < 2^63)
    (hf : b.relayFeePerKb ≤ 0 → 0 ≤ b.sendFees) (tx : Transaction) (h : build E b = .ok tx) :
    0 ≤ (inputTotal tx : ℤ) - outputTotal tx ∧ (inputTotal tx : ℤ) - outputTotal tx ≤ b.maxFees := by
  obtain ⟨e, _⟩ := C45_conserved_partial E b hb h1 h2 tx h
  obtain ⟨_, _, _, _, _, _, _, n3, n4, n5, _⟩ := build_shape h
  have hfee : 0 ≤ feeOf b tx.inputs := by
    by_cases hr : 0 < b.relayFeePerKb
    · have : feeOf b tx.inputs = Estimate.fees (Estimate.size tx.inputs ((payments b).map payOut) +
          (b.pushDatas.map List.length).sum : ℕ) b.relayFeePerKb := by
        unfold feeOf; rw [if_pos hr]
      rcases Estimate.fees_range (Estimate.size tx.inputs ((payments b).map payOut) +
          (b.pushDatas.map List.length).sum : ℕ) b.relayFeePerKb (Int.natCast_nonneg _) with q | q
      · rw [this]; exact q
      · exfalso
        rw [this, q] at n5
        unfold remainder wrap64 at *
        omega
    · unfold feeOf; rw [if_neg hr]; exact hf (by omega)
  omega

/-! ### C47 -/

/-- **C47.** A built transaction has exactly the coins as inputs, in order, and the payments, at most one change
output and the data outputs, in order. The change output exists exactly when the remainder, in the 64-bit
arithmetic of the builder, is positive; it goes to the change address. -/
theorem C47_outputs (E : Ecdsa κ) (b : Settings κ) (tx : Transaction) (h : build E b = .ok tx) :
    List.Forall₂ (fun p i => InputFor p { i with rawUnlockingScript := [], witness := [] }) (spends b) tx.inputs ∧
    ∃ change, tx.outputs = (payments b).map payOut ++ change ++ b.pushDatas.map dataOut ∧
      ChangeFor b (wrap64 (inSum b - outSum b - feeOf b tx.inputs)) change := by
  obtain ⟨change, _, _, f, ho, _, _, _, n4, n5, n6⟩ := build_shape h
  have e : remainder b (feeOf b tx.inputs) = wrap64 (inSum b - outSum b - feeOf b tx.inputs) := by
    have sub_left : ∀ a c : ℤ, wrap64 (wrap64 a - c) = wrap64 (a - c) := by intro a c; unfold wrap64; omega
    have sub_right : ∀ a c : ℤ, wrap64 (a - wrap64 c) = wrap64 (a - c) := by intro a c; unfold wrap64; omega
    unfold remainder
    rw [sub_left, show wrap64 (inSum b) - wrap64 (outSum b) - feeOf b tx.inputs =
      wrap64 (inSum b) - feeOf b tx.inputs - wrap64 (outSum b) by omega, sub_right,
      show wrap64 (inSum b) - feeOf b tx.inputs - outSum b = wrap64 (inSum b) - (feeOf b tx.inputs + outSum b) by omega,
      sub_left, show (inSum b : ℤ) - (feeOf b tx.inputs + outSum b) = inSum b - outSum b - feeOf b tx.inputs by omega]
  rw [e] at n6
  exact ⟨f, change, ho, n6⟩

/-- **C47 (partial).** The remainder that decides about the change is the exact one when coins and payments each
total less than 2^63. -/
theorem C47_change_partial (E : Ecdsa κ) (b : Settings κ) (hb : FitsInt64 b) (h1 : inSum b < 2^63) (h2 : outSum b < 2^63)
    (tx : Transaction) (h : build E b = .ok tx) :
    List.Forall₂ (fun p i => InputFor p { i with rawUnlockingScript := [], witness := [] }) (spends b) tx.inputs ∧
    ∃ change, tx.outputs = (payments b).map payOut ++ change ++ b.pushDatas.map dataOut ∧
      ChangeFor b (inSum b - outSum b - feeOf b tx.inputs) change := by
  obtain ⟨change, _, _, f, ho, _, _, _, n4, n5, n6⟩ := build_shape h
  have hr := feeOf_range hb tx.inputs
  have e : remainder b (feeOf b tx.inputs) = inSum b - outSum b - feeOf b tx.inputs := by
    unfold remainder wrap64 at *
    omega
  rw [e] at n6
  exact ⟨f, change, ho, n6⟩

/-- The input made for a coin names the coin: outpoint, amount, locking script and redeem script. -/
theorem C47_input_is_coin (p : Coin × Builder.Group κ) (i : TxIn) (h : InputFor p i) (hl : p.1.script.length < 2^62) :
    Id.fromString p.1.txID = .ok i.hash ∧ i.index = p.1.n ∧ i.value = p.1.value ∧
      Id.hexDecode p.1.script = .ok i.rawLockingScript ∧ i.redeemScript = p.2.redeemScript := by
  obtain ⟨txid, script, e1, e2, h⟩ := h
  have hlen : script.length ≤ p.1.script.length := by
    have : ∀ (n : ℕ) (s r : Bytes), s.length ≤ n → Id.hexDecode s = .ok r → r.length ≤ s.length := by
      intro n
      induction n with
      | zero => intro s r hs e; cases s with
        | nil => cases e; simp
        | cons => simp at hs
      | succ n ih =>
        intro s r hs e
        match s, e with
        | [], e => cases e; simp
        | [_], e => cases e
        | a :: c :: rest, e =>
          unfold Id.hexDecode at e
          split at e
          · obtain ⟨r', e', e⟩ := Res.bind_eq_ok.mp e
            cases e
            have := ih rest r' (by simp at hs; omega) e'
            simp; omega
          · cases e
    exact this _ _ _ (le_refl _) e2
  unfold newTxIn at h
  obtain ⟨s, hs, h⟩ := Res.bind_eq_ok.mp h
  have := C29_build_parse script (by omega) s hs
  cases h
  exact ⟨e1, rfl, rfl, by rw [e2, ← this], rfl⟩

/-- **C47 (partial:** totals below 2^63). Without signing, a transaction is built exactly when every coin parses, there is a coin and a payment, the
fee respects the maximum, the coins cover payments and fee, and there is a change address if something remains. -/
theorem C47_succeeds_iff_partial (E : Ecdsa κ) (b : Settings κ) (hb : FitsInt64 b) (h1 : inSum b < 2^63) (h2 : outSum b < 2^63)
    (hs : b.sign = false) (hf : 0 ≤ b.sendFees) (ins : List TxIn) (f : List.Forall₂ InputFor (spends b) ins)
    (hc : b.change ≠ some none) :
    (∃ tx, build E b = .ok tx) ↔ spends b ≠ [] ∧ payments b ≠ [] ∧ feeOf b ins ≤ b.maxFees ∧ outSum b ≤ inSum b ∧
      0 ≤ feeOf b ins ∧ (outSum b : ℤ) + feeOf b ins ≤ inSum b ∧
      ((outSum b : ℤ) + feeOf b ins < inSum b → b.change ≠ none) := by
  have hr := feeOf_range hb ins
  have hbare : ∀ {l : List (Coin × Builder.Group κ)} {m : List TxIn}, List.Forall₂ InputFor l m → m.map bare = m := by
    intro l m f
    induction f with
    | nil => rfl
    | cons h1 _ ih => rw [List.map_cons, ih, (inputFor_value h1).2]
  have uniq : ∀ {l : List (Coin × Builder.Group κ)} {m m' : List TxIn}, List.Forall₂ InputFor l m →
      List.Forall₂ InputFor l m' → m = m' := by
    intro l m m' f
    induction f generalizing m' with
    | nil => intro g; cases g; rfl
    | cons h1 _ ih =>
      intro g
      cases g with
      | cons g1 g2 =>
        rw [ih g2]
        obtain ⟨t1, s1, a1, a2, a3⟩ := h1
        obtain ⟨t2, s2, b1, b2, b3⟩ := g1
        rw [a1] at b1; cases b1
        rw [a2] at b2; cases b2
        rw [a3] at b3; cases b3
        rfl
  have hfee : feeOf b ins = -2^63 ∨ 0 ≤ feeOf b ins := by
    unfold feeOf
    split
    · rcases Estimate.fees_range (Estimate.size ins ((payments b).map payOut) +
          (b.pushDatas.map List.length).sum : ℕ) b.relayFeePerKb (Int.natCast_nonneg _) with q | q
      · exact Or.inr q
      · exact Or.inl q
    · exact Or.inr hf
  constructor
  · rintro ⟨tx, h⟩
    obtain ⟨change, _, _, g, ho, n1, n2, n3, n4, n5, n6⟩ := build_shape h
    have hin : tx.inputs.map bare = ins := uniq (List.forall₂_map_right_iff.mpr g) f
    have e : feeOf b tx.inputs = feeOf b ins := feeOf_bare b (hin.trans (hbare f).symm)
    rw [e] at n3 n5 n6
    have q0 : 0 ≤ feeOf b ins := by
      rcases hfee with q | q
      · exfalso
        rw [q] at n5
        unfold remainder wrap64 at *
        omega
      · exact q
    have er : remainder b (feeOf b ins) = inSum b - outSum b - feeOf b ins := by
      unfold remainder wrap64 at *
      omega
    rw [er] at n5 n6
    refine ⟨n1, n2, n3, by unfold wrap64 at n4; omega, q0, by omega, ?_⟩
    intro hlt
    rcases n6 with ⟨q, _⟩ | ⟨_, a, ha, _⟩
    · omega
    · rw [ha]; simp
  · rintro ⟨n1, n2, n3, n4, n5, n6, n7⟩
    have er : remainder b (feeOf b ins) = inSum b - outSum b - feeOf b ins := by
      unfold remainder wrap64 at *
      omega
    have hch : ∃ change, ChangeFor b (remainder b (feeOf b ins)) change := by
      by_cases q : (outSum b : ℤ) + feeOf b ins < inSum b
      · cases hcc : b.change with
        | none => exact absurd hcc (n7 q)
        | some a =>
          cases a with
          | none => exact absurd hcc hc
          | some a => exact ⟨_, Or.inr ⟨by omega, a, hcc, rfl⟩⟩
      · exact ⟨[], Or.inl ⟨by omega, rfl⟩⟩
    obtain ⟨change, hch⟩ := hch
    refine ⟨unsigned b ins change, build_ok.mpr ⟨ins, change, f, ?_, n2, n3, ?_, by omega, hch, ?_⟩⟩
    · rintro rfl
      cases hsp : spends b with
      | nil => exact n1 hsp
      | cons => rw [hsp] at f; cases f
    · unfold wrap64; omega
    · rw [hs]; rfl

/-- **C47 (partial:** totals below 2^63). A shortfall is an error, and so is a remainder without change address. -/
theorem C47_errors_partial (E : Ecdsa κ) (b : Settings κ) (h1 : inSum b < 2^63) (h2 : outSum b < 2^63)
    (ins : List TxIn) (f : List.Forall₂ InputFor (spends b) ins) (hfee : 0 ≤ feeOf b ins) (hfee' : feeOf b ins < 2^63)
    (hbad : (inSum b : ℤ) < outSum b + feeOf b ins ∨ ((outSum b : ℤ) + feeOf b ins < inSum b ∧ b.change = none)) :
    ∃ e, build E b = .err e := by
  rw [build_eq E f]
  split
  · exact ⟨_, rfl⟩
  split
  · exact ⟨_, rfl⟩
  split
  · exact ⟨_, rfl⟩
  split
  · exact ⟨_, rfl⟩
  rename_i n4
  split
  · exact ⟨_, rfl⟩
  rename_i n5
  have er : remainder b (feeOf b ins) = inSum b - outSum b - feeOf b ins := by
    unfold remainder wrap64 at *
    omega
  rcases hbad with q | ⟨q, hc⟩
  · omega
  · refine ⟨errChangeEmpty, ?_⟩
    unfold changeOutput
    rw [if_pos (by omega), hc]
    rfl

/-! ### examples and counterexamples -/

/-- a coin of the given value, P2PKH -/
def exCoin (v : UInt64) : Coin :=
  ⟨List.replicate 64 0x30, 0, v, [0x37, 0x36, 0x61, 0x39, 0x31, 0x34] ++ List.replicate 40 0x31 ++ [0x38, 0x38, 0x61, 0x63]⟩

def exAddr : Address.Addr := ⟨.p2wpkh, List.replicate 20 9⟩

/-- coin, payment, fee; change to `exAddr` -/
def exCalls (coin pay fee : UInt64) : List (Call UInt8) :=
  [.addCoin (some (exCoin coin)), .to (some ⟨.p2pkh, List.replicate 20 3⟩) pay, .sendFees fee, .setChange (some exAddr),
   .addPushData [1, 2, 3]]

omit [Hashes] in
/-- 10000 in, 6000 to pay, 500 fee, 3500 change. -/
example : (@build _ modHashes toyEcdsa (run (exCalls 10000 6000 500))).bind (fun tx => .ok (inputTotal tx, tx.outputs)) =
    .ok (10000, [⟨6000, Address.lockingScript ⟨.p2pkh, List.replicate 20 3⟩⟩, ⟨3500, Address.lockingScript exAddr⟩,
      ⟨0, [0x6a, 3, 1, 2, 3]⟩]) := by decide +kernel

omit [Hashes] in
theorem totals_of {r : Res Transaction} {i o : ℕ} (h : (r.bind fun tx => .ok (inputTotal tx, outputTotal tx)) = .ok (i, o)) :
    ∃ tx, r = .ok tx ∧ inputTotal tx = i ∧ outputTotal tx = o := by
  obtain ⟨tx, e, h⟩ := Res.bind_eq_ok.mp h
  injection h with h
  exact ⟨tx, e, (Prod.mk.inj h).1, (Prod.mk.inj h).2⟩

omit [Hashes] in
/-- **C45**, negation: a payment of 2^64-1 is taken for -1; a transaction paying out far more than its coin of 10000 is
built. -/
theorem C45_negation : ∃ tx, @build _ modHashes toyEcdsa (run (exCalls 10000 18446744073709551615 1000)) = .ok tx ∧
    inputTotal tx = 10000 ∧ outputTotal tx = 18446744073709551615 + 9001 :=
  totals_of (by decide +kernel)

omit [Hashes] in
/-- **C46**, negation: a fee of 2^64-1 is taken for -1, which passes the cap; the outputs exceed the inputs by one. -/
theorem C46_negation : ∃ tx, @build _ modHashes toyEcdsa (run (exCalls 10000 6000 18446744073709551615)) = .ok tx ∧
    inputTotal tx = 10000 ∧ outputTotal tx = 10001 :=
  totals_of (by decide +kernel)

end Toku.Props
