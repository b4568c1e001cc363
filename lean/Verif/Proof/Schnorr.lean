import Verif.Model.Schnorr
import Verif.Spec.Schnorr
import Verif.Proof.Order
import Verif.Proof.Ecdsa
import Mathlib.NumberTheory.LegendreSymbol.Basic
/-
Residues, and the Schnorr equation.
-/
namespace Toku.Schnorr
open Toku.Spec Toku.Curve Toku.Keys

/-- Euler's criterion. -/
theorem jacobi_iff (y : ℤ) : jacobi y = 1 ↔ Residue y := by
  have h0 : 0 ≤ y % P := (mod_range (p := P) y).1
  have hp : Num.powMod P 256 (y % P).toNat ((P - 1) / 2) = (y % P).toNat ^ ((P - 1) / 2) % P := by
    rw [powMod_eq, Primes.powMod_eq _ _ _ _ (by decide +kernel)]
  have hc : ((Num.powMod P 256 (y % P).toNat ((P - 1) / 2) : ℕ) : ZMod P) = (y : ZMod P) ^ (P / 2) := by
    rw [hp, ZMod.natCast_mod, Nat.cast_pow]
    have e1 : (((y % P).toNat : ℕ) : ZMod P) = (y : ZMod P) := by
      rw [← Int.cast_natCast, Int.toNat_of_nonneg h0, ZMod.intCast_mod]
    have e2 : (P - 1) / 2 = P / 2 := by decide +kernel
    rw [e1, e2]
  have hlt : Num.powMod P 256 (y % P).toNat ((P - 1) / 2) < P := by rw [hp]; exact Nat.mod_lt _ P_pos
  unfold jacobi
  dsimp only
  revert hc hlt
  generalize Num.powMod P 256 (y % P).toNat ((P - 1) / 2) = r
  intro hc hlt
  have h1 : r = 1 ↔ (y : ZMod P) ^ (P / 2) = 1 := by
    rw [← hc, show (1 : ZMod P) = ((1 : ℕ) : ZMod P) from Nat.cast_one.symm, ZMod.natCast_eq_natCast_iff', Nat.mod_eq_of_lt hlt, Nat.mod_eq_of_lt (by decide +kernel)]
  have hl : (if r = 0 then (0 : ℤ) else if r = 1 then 1 else -1) = 1 ↔ r = 1 := by
    split
    · rename_i hz; rw [hz]; simp
    · split
      · rename_i h; simp [h]
      · rename_i h; simp [h]
  rw [hl, h1]
  unfold Residue
  constructor
  · intro h
    have hne : (y : ZMod P) ≠ 0 := by
      intro e
      rw [e, zero_pow (by decide +kernel)] at h
      exact zero_ne_one h
    obtain ⟨z, hz⟩ := (ZMod.euler_criterion P hne).mpr h
    exact ⟨hne, z, hz.symm⟩
  · rintro ⟨hne, z, hz⟩
    exact (ZMod.euler_criterion P hne).mp ⟨z, hz.symm⟩

/-- Exactly one of y and -y is a residue, for P is 3 modulo 4. -/
theorem residue_neg {y : ℤ} (h : (y : ZMod P) ≠ 0) (hn : ¬ Residue y) : Residue (-y) := by
  have hne : ((-y : ℤ) : ZMod P) ≠ 0 := by rw [Int.cast_neg]; exact neg_ne_zero.mpr h
  have h1 : (y : ZMod P) ^ (P / 2) ≠ 1 := by
    intro e
    obtain ⟨z, hz⟩ := (ZMod.euler_criterion P h).mpr e
    exact hn ⟨h, z, hz.symm⟩
  have h2 := (ZMod.pow_div_two_eq_neg_one_or_one P h).resolve_left h1
  have h3 : ((-y : ℤ) : ZMod P) ^ (P / 2) = 1 := by
    rw [Int.cast_neg, Odd.neg_pow (by decide +kernel), h2, neg_neg]
  obtain ⟨z, hz⟩ := (ZMod.euler_criterion P hne).mpr h3
  exact ⟨hne, z, hz.symm⟩

theorem residue_congr {a b : ℤ} (h : (a : ZMod P) = b) : Residue a ↔ Residue b := by
  unfold Residue; rw [h]

/-! ### bytes -/

/-- 32-byte forms. -/
theorem intToByte_ok {n : ℕ} (h : n < 256 ^ 32) : ∃ b, intToByte n = .ok b ∧ Is32 b n ∧ natOfBE b = n := by
  have hl : (natToBE n).length ≤ 32 := natToBE_length_le h
  refine ⟨List.replicate (32 - (natToBE n).length) 0 ++ natToBE n, ?_, ⟨?_, ?_⟩, ?_⟩
  · unfold intToByte
    dsimp only
    rw [intBytes_nat, if_neg (by omega)]
  · rw [List.length_append, List.length_replicate]; omega
  · change ((natOfBE _ : ℕ) : ℤ) = n
    rw [natOfBE_replicate, natOfBE_natToBE]
  · rw [natOfBE_replicate, natOfBE_natToBE]

theorem intToByte_inv {x : ℤ} {b : Bytes} (h : intToByte x = .ok b) : b.length = 32 ∧ natOfBE b = x.natAbs := by
  unfold intToByte at h
  dsimp only at h
  split at h
  · cases h
  cases h
  refine ⟨?_, ?_⟩
  · rw [List.length_append, List.length_replicate]; omega
  · rw [natOfBE_replicate, intBytes, natOfBE_natToBE]

variable [Hashes]

/-- The challenge, for a finite public key. -/
theorem getE_ok {q : Pt} (hq : q ≠ 0) (m : Bytes) {r : ℤ} {rb : Bytes} (hr : Is32 rb r) :
    ∃ e, getE m (coords q).1 (coords q).2 rb = .ok e ∧ Challenge q m r e ∧ e < N := by
  obtain ⟨mb, em, hm⟩ := secMarshal_ok (coords_on hq).1 (coords q).2
  refine ⟨natOfBE (Hashes.sha256 (rb ++ ((if (coords q).2 % 2 = 1 then 3 else 2) :: mb) ++ m)) % N, ?_,
    ⟨rb, _, hr, ⟨mb, hm, rfl⟩, rfl⟩, Nat.mod_lt _ (by decide +kernel)⟩
  unfold getE
  rw [em, Res.ok_bind]
  rfl

theorem challenge_unique {q : Pt} {m : Bytes} {r : ℤ} {e1 e2 : ℕ} (h1 : Challenge q m r e1) (h2 : Challenge q m r e2) : e1 = e2 := by
  obtain ⟨a, b, ha, ⟨c, hc, rfl⟩, rfl⟩ := h1
  obtain ⟨a', b', ha', ⟨c', hc', rfl⟩, rfl⟩ := h2
  rw [is32_unique ha ha', is32_unique hc hc']

/-- What is computed after the challenge. -/
def decision (q : Pt) (e : ℕ) (r : ℤ) (s : ℕ) : Bool :=
  !(((coords (s • G - e • q)).1 == 0 && (coords (s • G - e • q)).2 == 0) || jacobi (coords (s • G - e • q)).2 != 1 ||
    (coords (s • G - e • q)).1 != r)

omit [Hashes] in
theorem decision_iff (q : Pt) (e : ℕ) (r : ℤ) (s : ℕ) : decision q e r s = true ↔ SchnorrEquation q e r s := by
  unfold decision SchnorrEquation
  have hg : ∀ g : Pt, coords g = (Gx, Gy) ↔ g = G := by
    intro g
    rw [← coords_G]
    exact ⟨coords_inj, fun h => h ▸ rfl⟩
  simp only [hg, exists_eq_left, natCast_zsmul]
  generalize s • G - e • q = R
  rw [Bool.not_eq_true', Bool.or_eq_false_iff, Bool.or_eq_false_iff, Bool.and_eq_false_iff, bne_eq_false_iff_eq,
    bne_eq_false_iff_eq, jacobi_iff, beq_eq_false_iff_ne, beq_eq_false_iff_ne, and_assoc]
  refine and_congr_left fun _ => ?_
  rw [← not_iff_not, not_not, ← coords_eq_zero]
  rw [Prod.ext_iff]
  change ¬ (¬ (coords R).1 = 0 ∨ ¬ (coords R).2 = 0) ↔ _
  rw [not_or, not_not, not_not]

/-- Verification, when the challenge does not vanish. -/
theorem verify_ok {q : Pt} (hq : q ≠ 0) (m : Bytes) {r : ℕ} (hr : r ≤ P) {s : ℕ} (hs : s ≤ N) {e : ℕ} (he : Challenge q m r e)
    (he0 : e ≠ 0) : verify ⟨(coords q).1, (coords q).2⟩ m r s = .ok (decision q e r s) := by
  have hP : P < 256 ^ 32 := P_lt
  have hN : N < 256 ^ 32 := N_lt
  obtain ⟨rb, er, hrb, _⟩ := intToByte_ok (n := r) (by omega)
  obtain ⟨sb, es, _, hsb⟩ := intToByte_ok (n := s) (by omega)
  obtain ⟨e', ee, he', heN⟩ := getE_ok hq m hrb
  have := challenge_unique he he'
  subst this
  obtain ⟨eb, eeb, _, heb⟩ := intToByte_ok (n := e) (by omega)
  have hne : e • q ≠ 0 := by
    rw [Ne, smul_zero_iff hq]
    intro hd
    exact absurd (Nat.le_of_dvd (by omega) hd) (by omega)
  unfold verify
  rw [if_neg (by omega), er, Res.ok_bind]
  dsimp only
  rw [ee, Res.ok_bind, es, Res.ok_bind, baseMult_coords, hsb]
  generalize hsg : coords (s • G) = sg
  obtain ⟨sgx, sgy⟩ := sg
  simp only [Res.ok_bind]
  rw [eeb, Res.ok_bind, mult_coords, heb]
  have hneg := coords_neg' hne
  generalize hep : coords (e • q) = ep at hneg
  obtain ⟨epx, epy⟩ := ep
  simp only [Res.ok_bind]
  have hadd := add_coords (s • G) (-(e • q))
  rw [hsg, hneg] at hadd
  dsimp only at hadd
  rw [hadd, ← sub_eq_add_neg]
  unfold decision
  generalize coords (s • G - e • q) = c
  obtain ⟨cx, cy⟩ := c
  simp only [Res.ok_bind, Res.pure_eq]

/-- The equation holds for what signing computes. -/
theorem sign_equation {k0 d e : ℕ} (hk1 : 1 ≤ k0) (hk2 : k0 < N) :
    SchnorrEquation (d • G) e (coords (k0 • G)).1 ((getK (coords (k0 • G)).2 k0 + e * d) % N) := by
  have hR : k0 • G ≠ 0 := Ecdsa.smul_ne hk1 hk2
  have hyr := (coords_on hR).2.1
  have hy : (((coords (k0 • G)).2 : ℤ) : ZMod P) ≠ 0 := by
    rw [Ne, cast_zero_iff (p := P) hyr]; exact y_ne hR
  have hs : ∀ k : ℤ, ((k + e * d) % N) • G - e • (d • G) = k • G := by
    intro k
    have hz : ((k + e * d) % N) • G = (k + e * d) • G := by
      conv_rhs => rw [← Int.emod_add_mul_ediv (k + e * d) N, add_zsmul, mul_zsmul', natCast_zsmul, N_smul_G, zsmul_zero, add_zero]
    have h2 : ((e : ℤ) * (d : ℤ)) • G = e • d • G := by
      rw [mul_zsmul, natCast_zsmul, natCast_zsmul]
    rw [hz, add_zsmul, h2, add_sub_cancel_right]
  refine ⟨G, coords_G, ?_⟩
  rw [hs]
  unfold getK
  split
  · rename_i hj
    rw [natCast_zsmul]
    exact ⟨hR, (jacobi_iff _).mp hj, rfl⟩
  · rename_i hj
    have hneg : ((N : ℤ) - (k0 : ℤ)) • G = -(k0 • G) := by
      rw [sub_zsmul, natCast_zsmul, natCast_zsmul, N_smul_G, zero_add]
    rw [hneg, coords_neg' hR]
    refine ⟨neg_ne_zero.mpr hR, ?_, rfl⟩
    have hr : ¬ Residue (coords (k0 • G)).2 := fun h => hj ((jacobi_iff _).mpr h)
    refine (residue_congr ?_).mpr (residue_neg hy hr)
    dsimp only
    push_cast
    simp

end Toku.Schnorr
