import Verif.Props.MpcSchnorr
import Verif.Proof.Order
/-
Property C133: what phase 5 of a Schnorr party reports.
-/
namespace Toku.Props
open Toku Toku.Spec Toku.Curve Toku.Mpc Toku.Schnorr

section

variable [Hashes]

omit [Hashes] in
theorem foldl_sum (sigs : List Bytes) (a : ℕ) : sigs.foldl (fun a sig => a + natOfBE sig) a = a + (sigs.map beNat).sum := by
  induction sigs generalizing a with
  | nil => rfl
  | cons x xs ih =>
    rw [List.foldl_cons, ih, List.map_cons, List.sum_cons, Nat.add_assoc]
    rfl

omit [Hashes] in
/-- One of a point and its opposite has a residue for y. -/
theorem residue_side {X : Pt} (hX : X ≠ 0) : ∃ R, (R = X ∨ R = -X) ∧ R ≠ 0 ∧ Residue (coords R).2 ∧ (coords R).1 = (coords X).1 := by
  by_cases h : Residue (coords X).2
  · exact ⟨X, Or.inl rfl, hX, h, rfl⟩
  · refine ⟨-X, Or.inr rfl, neg_ne_zero.mpr hX, ?_, by rw [coords_neg' hX]⟩
    have hy : (((coords X).2 : ℤ) : ZMod P) ≠ 0 := by
      rw [Ne, cast_zero_iff (p := P) (coords_on hX).2.1]; exact y_ne hX
    rw [coords_neg' hX]
    refine (residue_congr ?_).mpr (residue_neg hy h)
    push_cast
    simp

/-- **C133.** Whatever byte strings are passed to phase 5, of whatever number and lengths, it returns 64 bytes and no error. They are accepted
exactly if the sum of the numbers passed, times G, is the shared point (or its opposite, whichever has a residue for y) plus the challenge
times the shared key. -/
theorem C133_exact (party : SchnorrParty) (X : Pt) (hX : X ≠ 0) (q : Pt) (hq : q ≠ 0) (hash : Bytes) (e : ℕ)
    (he : Challenge q hash (coords X).1 e) (he0 : e ≠ 0) (sigs : List Bytes) :
    ∃ sig R, party.phase5 (scalarOf X) sigs = .ok sig ∧ sig.length = 64 ∧ (R = X ∨ R = -X) ∧ Residue (coords R).2 ∧
      (schnorrVerify (keyOf q) hash sig = .ok () ∧ (sigs.map beNat).sum • G = R + e • q ∨
       schnorrVerify (keyOf q) hash sig = .err Schnorr.errVerify ∧ (sigs.map beNat).sum • G ≠ R + e • q) := by
  obtain ⟨R, hRX, hR0, hRr, hRx⟩ := residue_side hX
  have hP : P < 256 ^ 32 := by decide +kernel
  have hN : N < 256 ^ 32 := by decide +kernel
  have hlt := (coords_on hX).1.2
  obtain ⟨rn, hrn⟩ := Int.eq_ofNat_of_zero_le (coords_on hX).1.1
  obtain ⟨rb, er, hrb, nr⟩ := intToByte_ok (n := rn) (by omega)
  have hsum : (sigs.map beNat).sum % N < N := Nat.mod_lt _ (by decide +kernel)
  obtain ⟨sb, es, hsb, ns⟩ := intToByte_ok (n := (sigs.map beNat).sum % N) (by omega)
  refine ⟨rb ++ sb, R, ?_, by rw [List.length_append, hrb.1, hsb.1], hRX, hRr, ?_⟩
  · unfold SchnorrParty.phase5
    dsimp only
    rw [foldl_sum, Nat.zero_add, show (scalarOf X).x = (coords X).1 from rfl, hrn, er, Res.ok_bind, es]
    rfl
  have hv : verify (keyOf q) hash (natOfBE rb : ℕ) (natOfBE sb : ℕ) = .ok (decision q e (rn : ℕ) ((sigs.map beNat).sum % N : ℕ)) := by
    rw [ns, nr]
    exact verify_ok hq hash (by omega) (by omega) (by rw [hrn] at he; exact he) he0
  have hdec : decision q e (rn : ℕ) ((sigs.map beNat).sum % N : ℕ) = true ↔ (sigs.map beNat).sum • G = R + e • q := by
    rw [decision_iff]
    unfold SchnorrEquation
    have hg : ∀ g : Pt, coords g = (Gx, Gy) ↔ g = G := by
      intro g
      rw [← coords_G]
      exact ⟨coords_inj, fun h => h ▸ rfl⟩
    simp only [hg, exists_eq_left]
    have hm : (((sigs.map beNat).sum % N : ℕ) : ℤ) • G = (sigs.map beNat).sum • G := by
      rw [← natCast_zsmul]
      refine zsmul_congr ?_
      push_cast
      simp
    have hpt : (sigs.map beNat).sum • G - e • q = R + ((sigs.map beNat).sum • G - (R + e • q)) := by abel
    have hrn' : ((rn : ℕ) : ℤ) = (coords R).1 := by rw [hRx]; exact hrn.symm
    rw [hm, hpt, hrn', equation_iff hR0 hRr, sub_eq_zero]
  unfold schnorrVerify deserialize
  rw [if_neg (by rw [List.length_append, hrb.1]; omega), Res.ok_bind]
  dsimp only
  rw [List.take_left' hrb.1, List.drop_left' hrb.1, hv, Res.ok_bind]
  cases hd : decision q e (rn : ℕ) ((sigs.map beNat).sum % N : ℕ) with
  | true => exact Or.inl ⟨rfl, hdec.mp hd⟩
  | false => exact Or.inr ⟨rfl, fun h => by rw [hdec.mpr h] at hd; cases hd⟩

/-- **C133**, negation: whatever the party's own number, one of the two answers "no bytes" and "the byte 1" makes it report a signature that
is refused. The counterpart needs no knowledge at all. -/
theorem C133_negation (party : SchnorrParty) (X : Pt) (hX : X ≠ 0) (q : Pt) (hq : q ≠ 0) (hash : Bytes) (e : ℕ)
    (he : Challenge q hash (coords X).1 e) (he0 : e ≠ 0) (own : Bytes) :
    ∃ answer sig, (answer = [] ∨ answer = [1]) ∧ party.phase5 (scalarOf X) [own, answer] = .ok sig ∧
      schnorrVerify (keyOf q) hash sig = .err Schnorr.errVerify := by
  obtain ⟨sig, R, h, _, hR, hr, a | a⟩ := C133_exact party X hX q hq hash e he he0 [own, []]
  swap
  · exact ⟨[], sig, Or.inl rfl, h, a.1⟩
  obtain ⟨sig', R', h', _, hR', hr', a' | a'⟩ := C133_exact party X hX q hq hash e he he0 [own, [1]]
  swap
  · exact ⟨[1], sig', Or.inr rfl, h', a'.1⟩
  exfalso
  have hRR : R' = R := by
    have opp : Residue (coords X).2 → Residue (coords (-X)).2 → False := fun h1 h2 => by
      rw [coords_neg' hX] at h2
      refine residue_not_both h1 ((residue_congr ?_).mp h2)
      push_cast
      simp
    rcases hR with rfl | rfl <;> rcases hR' with rfl | rfl
    · rfl
    · exact (opp hr hr').elim
    · exact (opp hr' hr).elim
    · rfl
  have e0 : ([own, []].map beNat).sum = beNat own := by simp [beNat]
  have e1 : ([own, [1]].map beNat).sum = beNat own + 1 := by simp [beNat]
  have := a'.2
  rw [hRR, ← a.2, e0, e1, add_smul, one_nsmul] at this
  exact G_ne (add_eq_left.mp this)

end

/-- The hypotheses can be met: a hash function with value 1, hash 0x07, and G for shared key and shared point; the challenge is 1. -/
example : @Challenge oneHash G [7] (coords G).1 1 := by
  let _ := oneHash
  obtain ⟨rn, hrn⟩ := Int.eq_ofNat_of_zero_le (coords_on G_ne).1.1
  have hlt := (coords_on G_ne).1.2
  have hP : P < 256 ^ 32 := by decide +kernel
  obtain ⟨rb, er, hrb, _⟩ := intToByte_ok (n := rn) (by omega)
  obtain ⟨e, _, hch, _⟩ := getE_ok G_ne [7] hrb
  have he : e = 1 := by
    obtain ⟨_, _, _, _, rfl⟩ := hch
    show beNat (List.replicate 31 0 ++ [1]) % N = 1
    decide +kernel
  rw [hrn, ← he]
  exact hch

end Toku.Props
