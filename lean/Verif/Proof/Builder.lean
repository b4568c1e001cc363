import Verif.Spec.Builder
import Verif.Proof.F64
/-
The transaction builder.
-/
namespace Toku.Builder
open Toku.Tx Toku.Spec

theorem wrap64_range (x : ℤ) : -2^63 ≤ wrap64 x ∧ wrap64 x < 2^63 := by unfold wrap64; omega
theorem wrap64_add_left (a b : ℤ) : wrap64 (wrap64 a + b) = wrap64 (a + b) := by unfold wrap64; omega
theorem wrap64_add_right (a b : ℤ) : wrap64 (a + wrap64 b) = wrap64 (a + b) := by unfold wrap64; omega
theorem wrap64_wrap64 (a : ℤ) : wrap64 (wrap64 a) = wrap64 a := by unfold wrap64; omega
theorem wrap64_mod (a : ℤ) : wrap64 a % 2^64 = a % 2^64 := by unfold wrap64; omega

theorem forall₂_split {α β : Type} {R : α → β → Prop} {a b : List α} {c : List β} (h : List.Forall₂ R (a ++ b) c) :
    ∃ c1 c2, List.Forall₂ R a c1 ∧ List.Forall₂ R b c2 ∧ c = c1 ++ c2 := by
  induction a generalizing c with
  | nil => exact ⟨[], c, .nil, h, rfl⟩
  | cons x a ih =>
    cases h with
    | cons h1 h2 =>
      obtain ⟨c1, c2, f1, f2, rfl⟩ := ih h2
      exact ⟨_ :: c1, c2, .cons h1 f1, f2, rfl⟩

variable {κ : Type}

/-- the spends and payments of some groups -/
def spendsOf (gs : List (Builder.Group κ)) : List (Coin × Builder.Group κ) := gs.filterMap fun g => g.coin.map fun c => (c, g)
def paymentsOf (gs : List (Builder.Group κ)) : List Output := gs.filterMap (·.output)
def coinSum (l : List (Coin × Builder.Group κ)) : ℕ := (l.map fun p => p.1.value.toNat).sum
def paySum (l : List Output) : ℕ := (l.map fun o => o.value.toNat).sum

theorem outs_eq (o : Output) : (⟨o.value, (o.addr.map Address.lockingScript).getD []⟩ : TxOut) = payOut o := by
  unfold payOut
  cases o.addr <;> rfl

variable [Hashes]

theorem addInput_ok {acc acc' : Acc κ} {g : Builder.Group κ} :
    addInput acc g = .ok acc' ↔ ∃ ins, List.Forall₂ InputFor (spendsOf [g]) ins ∧
      acc' = { acc with ins := acc.ins ++ ins.map (fun i => (i, g)),
                        totalIn := if g.coin = none then acc.totalIn else wrap64 (acc.totalIn + coinSum (spendsOf [g])) } := by
  unfold addInput spendsOf
  cases hc : g.coin with
  | none =>
    simp only [List.filterMap_cons, hc, Option.map_none, List.filterMap_nil]
    constructor
    · intro h
      cases h
      exact ⟨[], .nil, by simp⟩
    · rintro ⟨ins, h, rfl⟩
      cases h
      simp
  | some c =>
    simp only [List.filterMap_cons, hc, Option.map_some, List.filterMap_nil]
    constructor
    · intro h
      obtain ⟨txid, h1, h⟩ := Res.bind_eq_ok.mp h
      obtain ⟨script, h2, h⟩ := Res.bind_eq_ok.mp h
      obtain ⟨i, h3, h⟩ := Res.bind_eq_ok.mp h
      cases h
      refine ⟨[i], .cons ⟨txid, script, h1, h2, h3⟩ .nil, ?_⟩
      simp only [coinSum, List.map_cons, List.map_nil, List.sum_cons, List.sum_nil, Nat.add_zero, reduceCtorEq, if_false]
      unfold intOfU64
      rw [wrap64_add_right]
    · rintro ⟨ins, h, rfl⟩
      cases h with
      | cons h1 h2 =>
        cases h2
        obtain ⟨txid, script, e1, e2, e3⟩ := h1
        rw [e1, Res.ok_bind, e2, Res.ok_bind, e3, Res.ok_bind]
        simp only [coinSum, List.map_cons, List.map_nil, List.sum_cons, List.sum_nil, Nat.add_zero, reduceCtorEq, if_false]
        unfold intOfU64
        rw [wrap64_add_right]
        rfl

theorem collect_ok (gs : List (Builder.Group κ)) : ∀ (acc acc' : Acc κ), wrap64 acc.totalIn = acc.totalIn → wrap64 acc.totalOut = acc.totalOut →
    (collect gs acc = .ok acc' ↔ ∃ ins, List.Forall₂ InputFor (spendsOf gs) ins ∧
      acc' = { ins := acc.ins ++ ins.zip ((spendsOf gs).map (·.2)), outs := acc.outs ++ (paymentsOf gs).map payOut,
               totalIn := wrap64 (acc.totalIn + coinSum (spendsOf gs)),
               totalOut := wrap64 (acc.totalOut + paySum (paymentsOf gs)) }) := by
  induction gs with
  | nil =>
    intro acc acc' h1 h2
    simp only [collect, spendsOf, paymentsOf, coinSum, paySum, List.filterMap_nil, List.map_nil, List.sum_nil, List.append_nil]
    constructor
    · intro h
      cases h
      exact ⟨[], .nil, by simp [h1, h2]⟩
    · rintro ⟨ins, h, rfl⟩
      cases h
      simp [h1, h2]
  | cons g gs ih =>
    intro acc acc' w1 w2
    simp only [collect]
    rw [Res.bind_eq_ok]
    have hsp : spendsOf (g :: gs) = spendsOf [g] ++ spendsOf gs := by
      unfold spendsOf
      rw [show g :: gs = [g] ++ gs from rfl, List.filterMap_append]
    have hpay : paymentsOf (g :: gs) = paymentsOf [g] ++ paymentsOf gs := by
      unfold paymentsOf
      rw [show g :: gs = [g] ++ gs from rfl, List.filterMap_append]
    have hadd : ∀ a : Acc κ, wrap64 a.totalOut = a.totalOut →
        addOutput a g = { a with outs := a.outs ++ (paymentsOf [g]).map payOut, totalOut := wrap64 (a.totalOut + paySum (paymentsOf [g])) } := by
      intro a ha
      unfold addOutput paymentsOf
      cases ho : g.output with
      | none => simp [ho, paySum, ha]
      | some o =>
        simp only [List.filterMap_cons, ho, List.filterMap_nil, List.map_cons, List.map_nil, paySum, List.sum_cons, List.sum_nil, Nat.add_zero]
        unfold intOfU64
        rw [wrap64_add_right, outs_eq]
    have hone : ∀ ins1 : List TxIn, List.Forall₂ InputFor (spendsOf [g]) ins1 →
        ins1.map (fun i => (i, g)) = ins1.zip ((spendsOf [g]).map (·.2)) := by
      intro ins1 h
      unfold spendsOf at h ⊢
      cases hc : g.coin with
      | none => simp only [List.filterMap_cons, hc, Option.map_none, List.filterMap_nil] at h ⊢; cases h; rfl
      | some c =>
        simp only [List.filterMap_cons, hc, Option.map_some, List.filterMap_nil] at h ⊢
        cases h with
        | cons _ h => cases h; rfl
    have htot : ∀ a : ℤ, wrap64 a = a → (if g.coin = none then a else wrap64 (a + coinSum (spendsOf [g]))) =
        wrap64 (a + coinSum (spendsOf [g])) := by
      intro a ha
      split
      · rename_i hc
        simp [spendsOf, hc, coinSum, ha]
      · rfl
    constructor
    · rintro ⟨acc1, e1, h⟩
      obtain ⟨ins1, f1, rfl⟩ := addInput_ok.mp e1
      have h := (congrArg (collect gs) (hadd { acc with
        ins := acc.ins ++ ins1.map (fun i => (i, g)),
        totalIn := if g.coin = none then acc.totalIn else wrap64 (acc.totalIn + coinSum (spendsOf [g])) } w2)).symm.trans h
      obtain ⟨ins2, f2, rfl⟩ := (ih _ _ (by rw [htot _ w1]; exact wrap64_wrap64 _) (wrap64_wrap64 _)).mp h
      refine ⟨ins1 ++ ins2, by rw [hsp]; exact List.rel_append f1 f2, ?_⟩
      rw [hsp, hpay, htot _ w1]
      simp only [coinSum, paySum, List.map_append, List.sum_append, wrap64_add_left, List.append_assoc, Nat.cast_add, Int.add_assoc]
      rw [hone _ f1, List.zip_append (by simpa using f1.length_eq.symm)]
    · rintro ⟨ins, f, rfl⟩
      rw [hsp] at f
      obtain ⟨ins1, ins2, f1, f2, rfl⟩ := forall₂_split f
      refine ⟨_, addInput_ok.mpr ⟨ins1, f1, rfl⟩, ?_⟩
      refine (congrArg (collect gs) (hadd { acc with
        ins := acc.ins ++ ins1.map (fun i => (i, g)),
        totalIn := if g.coin = none then acc.totalIn else wrap64 (acc.totalIn + coinSum (spendsOf [g])) } w2)).trans ?_
      refine (ih _ _ (by rw [htot _ w1]; exact wrap64_wrap64 _) (wrap64_wrap64 _)).mpr ⟨ins2, f2, ?_⟩
      rw [hsp, hpay, htot _ w1]
      simp only [coinSum, paySum, List.map_append, List.sum_append, wrap64_add_left, List.append_assoc, Nat.cast_add, Int.add_assoc]
      rw [hone _ f1, List.zip_append (by simpa using f1.length_eq.symm)]

end Toku.Builder
