import Verif.Props.Schnorr
/-
Properties C66 and C67 when the challenge is 0 modulo N (xcrypto/schnorr/schnorr.go:87-109): the opposite of the point at infinity is
taken as (0, P), and the sum with it is not a sum of points.
-/
namespace Toku.Props
open Toku Toku.Spec Toku.Curve Toku.Keys Toku.Schnorr

local notation "F" => ZMod P

private theorem seven_no_square : ¬ Residue 7 := by
  rw [← jacobi_iff]
  decide +kernel

private theorem seven_ne : (7 : F) ≠ 0 := by
  intro h
  have : ((7 : ℤ) : F) = 0 := by exact_mod_cast h
  rw [← mod_zero_iff] at this
  exact absurd this (by decide +kernel)

private theorem seven_no_cube (x : F) : x ^ 3 ≠ 7 := by
  intro h
  have hx : x ≠ 0 := by
    rintro rfl
    rw [zero_pow (by decide)] at h
    exact seven_ne h.symm
  have h1 : x ^ (P - 1) = 1 := ZMod.pow_card_sub_one_eq_one hx
  have h2 : x ^ (P - 1) = (7 : F) ^ ((P - 1) / 3) := by
    rw [← h, ← pow_mul]
    congr 1
  have h3 : Num.powMod P 256 7 ((P - 1) / 3) = 7 ^ ((P - 1) / 3) % P := by
    rw [powMod_eq, Primes.powMod_eq _ _ _ _ (by decide +kernel)]
  have h4 : ((Num.powMod P 256 7 ((P - 1) / 3) : ℕ) : F) = 1 := by
    rw [h3, ZMod.natCast_mod]
    push_cast
    rw [← h2, h1]
  have h5 : ((Num.powMod P 256 7 ((P - 1) / 3) : ℤ) : F) = ((1 : ℤ) : F) := by exact_mod_cast h4
  rw [ZMod.intCast_eq_intCast_iff'] at h5
  revert h5
  decide +kernel

/-- The equation of the curve. -/
private theorem on_curve {q : Pt} (h : q ≠ 0) : ((coords q).2 : F) ^ 2 = ((coords q).1 : F) ^ 3 + 7 := by
  have hc := (coords_on h).2.2
  unfold isOnCurve at hc
  rw [beq_iff_eq] at hc
  have := congrArg (Int.cast : ℤ → F) hc
  rw [cast_mod, cast_mod] at this
  push_cast at this
  have hB : ((B : ℕ) : F) = 7 := by norm_num [B]
  rw [hB] at this
  linear_combination -this

private theorem x_ne {q : Pt} (h : q ≠ 0) : ((coords q).1 : F) ≠ 0 := by
  intro h0
  have := on_curve h
  rw [h0] at this
  refine seven_no_square ⟨by exact_mod_cast seven_ne, ((coords q).2 : F), ?_⟩
  push_cast
  linear_combination this

private theorem two_ne : (2 : F) ≠ 0 := by
  intro h
  have : ((2 : ℤ) : F) = 0 := by exact_mod_cast h
  rw [← mod_zero_iff] at this
  exact absurd this (by decide +kernel)

/-- The sum of a finite point with (0, P). -/
private theorem add_origin {q : Pt} (h : q ≠ 0) : ∃ X Y : ℤ, Curve.add (coords q).1 (coords q).2 0 (P - 0) = .ok (X, Y) ∧
    (0 ≤ X ∧ X < P) ∧ (X : F) * ((coords q).1 : F) ^ 2 = 7 ∧ (Y : F) * ((coords q).1 : F) ^ 3 = -7 * ((coords q).2 : F) := by
  have hx := x_ne h
  have hon := on_curve h
  generalize coords q = c at hx hon
  obtain ⟨x, y⟩ := c
  dsimp only at *
  have hz : zForAffine x y = 1 := by
    unfold zForAffine
    rw [if_pos]
    left
    rintro rfl
    exact hx (by simp)
  have hz' : zForAffine 0 ((P : ℤ) - 0) = 1 := by decide +kernel
  have key := add_cast (p := P) (q1 := ⟨x, y, 1⟩) (q2 := ⟨0, P - 0, 1⟩) one_ne_zero one_ne_zero (by
    rintro ⟨a, _⟩
    push_cast at a
    apply hx
    linear_combination a)
  unfold Curve.add addPoint
  rw [hz, hz']
  generalize addJacobian P ⟨x, y, 1⟩ ⟨0, P - 0, 1⟩ = j at key
  dsimp only at key
  push_cast at key
  rw [ZMod.natCast_self] at key
  obtain ⟨kx, ky, kz, kr⟩ := key
  have hjx : (j.x : F) = 28 := by linear_combination kx + 4 * hon
  have hjy : (j.y : F) = 56 * (y : F) := by linear_combination ky + 8 * (y : F) * hon
  have hjz : (j.z : F) = -2 * (x : F) := by linear_combination kz
  have hzne : (j.z : F) ≠ 0 := by
    rw [hjz]
    exact mul_ne_zero (neg_ne_zero.mpr two_ne) hx
  obtain ⟨w, e, w0, w1, hw⟩ := Num.modInverse_prime (Fact.out : P.Prime) j.z hzne
  unfold affineFromJacobian
  rw [if_neg (by intro h0; rw [h0] at hzne; exact hzne (by simp)), e]
  refine ⟨_, _, rfl, mod_range _, ?_, ?_⟩
  · rw [cast_mod]
    push_cast
    rw [hjx]
    rw [hjz] at hw
    have h4 : (4 : F) ≠ 0 := by
      have := mul_ne_zero two_ne two_ne
      intro h; apply this; linear_combination h
    linear_combination (7 * (-2 * (w : F) * x + 1)) * hw
  · rw [cast_mod]
    push_cast
    rw [hjy]
    rw [hjz] at hw
    linear_combination (-7 * (y : F) * ((w : F) ^ 2 * 4 * x ^ 2 - 2 * w * x + 1)) * hw

section
variable [Hashes]

/-- What is accepted when the challenge is 0. -/
def ZeroAccepted (r s : ℕ) : Prop :=
  r < P ∧ s ≤ N ∧ s • G ≠ 0 ∧ (r : F) * ((coords (s • G)).1 : F) ^ 2 = 7 ∧ Residue (-7 * (coords (s • G)).2 * (coords (s • G)).1)

/-- **C67.** The exact result of verification when the challenge is 0 modulo N. -/
theorem C67_verify_zero (q : Pt) (hq : q ≠ 0) (m : Bytes) (r s : ℕ) (he : Challenge q m r 0) :
    verify (keyOf q) m r s = .ok true ∧ ZeroAccepted r s ∨ verify (keyOf q) m r s = .ok false ∧ ¬ ZeroAccepted r s := by
  by_cases hrs : r ≤ P ∧ s ≤ N
  swap
  · right
    refine ⟨?_, fun h => hrs ⟨by have := h.1; omega, h.2.1⟩⟩
    unfold verify
    rw [if_pos (by omega)]
  have hP : P < 256 ^ 32 := P_lt
  have hN : N < 256 ^ 32 := N_lt
  obtain ⟨rb, er, hrb, _⟩ := intToByte_ok (n := r) (by omega)
  obtain ⟨sb, es, _, hsb⟩ := intToByte_ok (n := s) (by omega)
  obtain ⟨e', ee, he', heN⟩ := getE_ok hq m hrb
  have := challenge_unique he he'
  subst this
  obtain ⟨eb, eeb, _, heb⟩ := intToByte_ok (n := 0) (by omega)
  have hv : verify (keyOf q) m r s = (Curve.add (coords (s • G)).1 (coords (s • G)).2 0 (P - 0)).bind fun c =>
      .ok !((c.1 == 0 && c.2 == 0) || jacobi c.2 != 1 || c.1 != r) := by
    unfold keyOf verify
    rw [if_neg (by omega), er, Res.ok_bind]
    dsimp only
    rw [ee, Res.ok_bind, es, Res.ok_bind, baseMult_coords, hsb]
    generalize coords (s • G) = sg
    obtain ⟨sgx, sgy⟩ := sg
    simp only [Res.ok_bind]
    rw [eeb, Res.ok_bind, mult_coords, heb, zero_nsmul]
    rfl
  rw [hv]
  by_cases h0 : s • G = 0
  · right
    refine ⟨?_, fun h => h.2.2.1 h0⟩
    rw [h0]
    have : Curve.add (coords (0 : Pt)).1 (coords (0 : Pt)).2 0 (P - 0) = .ok (0, 0) := by
      change Curve.add 0 0 0 (P - 0) = .ok (0, 0)
      decide +kernel
    rw [this]
    rfl
  · obtain ⟨X, Y, e, hX, h1, h2⟩ := add_origin h0
    have hx := x_ne h0
    rw [e]
    change (Res.ok _ = _ ∧ _) ∨ (Res.ok _ = _ ∧ _)
    have hXne : X ≠ 0 := by
      rintro rfl
      rw [Int.cast_zero, zero_mul] at h1
      exact seven_ne h1.symm
    have hY : Residue Y ↔ Residue (-7 * (coords (s • G)).2 * (coords (s • G)).1) := by
      have e4 : ((-7 * (coords (s • G)).2 * (coords (s • G)).1 : ℤ) : F) = (Y : F) * (((coords (s • G)).1 : F) ^ 2) ^ 2 := by
        push_cast
        linear_combination -((coords (s • G)).1 : F) * h2
      unfold Residue
      rw [e4]
      have hx4 : (((coords (s • G)).1 : F) ^ 2) ≠ 0 := pow_ne_zero _ hx
      generalize ((coords (s • G)).1 : F) ^ 2 = t at hx4
      constructor
      · rintro ⟨a, z, hz⟩
        exact ⟨mul_ne_zero a (pow_ne_zero _ hx4), z * t, by linear_combination t ^ 2 * hz⟩
      · rintro ⟨a, z, hz⟩
        refine ⟨fun h => a (by rw [h, zero_mul]), z * t⁻¹, ?_⟩
        have ht : t * t⁻¹ = 1 := mul_inv_cancel₀ hx4
        linear_combination (t⁻¹ * t⁻¹) * hz + (Y : F) * (t * t⁻¹ + 1) * ht
    have hA : ZeroAccepted r s ↔ Residue Y ∧ X = r := by
      unfold ZeroAccepted
      rw [← hY]
      constructor
      · rintro ⟨hr, _, _, h3, h4⟩
        refine ⟨h4, (cast_inj (p := P) hX ⟨by omega, by exact_mod_cast hr⟩).mp ?_⟩
        have : ((r : ℤ) : F) = (r : F) := by push_cast; rfl
        rw [this]
        exact mul_right_cancel₀ (pow_ne_zero 2 hx) (h1.trans h3.symm)
      · rintro ⟨h4, rfl⟩
        refine ⟨by exact_mod_cast hX.2, hrs.2, h0, ?_, h4⟩
        exact_mod_cast h1
    rw [hA]
    by_cases hj : Residue Y ∧ X = r
    · left
      refine ⟨?_, hj⟩
      have h6 := (jacobi_iff Y).mpr hj.1
      rw [h6, hj.2]
      have h7 : r ≠ 0 := by rw [hj.2] at hXne; exact_mod_cast hXne
      simp [h7]
    · right
      refine ⟨?_, hj⟩
      congr 1
      rw [not_and_or, ← jacobi_iff] at hj
      rw [Bool.not_eq_false', Bool.or_eq_true, Bool.or_eq_true, bne_iff_ne, bne_iff_ne]
      rcases hj with h | h
      · exact Or.inl (Or.inr h)
      · exact Or.inr h

/-- **C67.** Whatever the challenge, accepted numbers are below P and at most N. -/
theorem C67_bounds (q : Pt) (hq : q ≠ 0) (m : Bytes) (r s : ℕ) (h : verify (keyOf q) m r s = .ok true) : r < P ∧ s ≤ N := by
  by_cases he : Challenge q m r 0
  · rcases C67_verify_zero q hq m r s he with h' | h'
    · exact ⟨h'.2.1, h'.2.2.1⟩
    · rw [h] at h'; cases h'.1
  · have := C67_accepted_partial q hq m r s he h
    exact ⟨this.1, this.2.1⟩

/-- **C67.** Whatever the challenge, the only pair of accepted numbers for the same r and congruent s is 0 and N. -/
theorem C67_malleable_only (q : Pt) (hq : q ≠ 0) (m : Bytes) (r s1 s2 : ℕ) (h1 : verify (keyOf q) m r s1 = .ok true)
    (h2 : verify (keyOf q) m r s2 = .ok true) (h : s1 % N = s2 % N) (hne : s1 < s2) : s1 = 0 ∧ s2 = N := by
  have b1 := (C67_bounds q hq m r s1 h1).2
  have b2 := (C67_bounds q hq m r s2 h2).2
  have e1 : s1 % N = s1 := Nat.mod_eq_of_lt (by omega)
  rcases Nat.lt_or_ge s2 N with h3 | h3
  · rw [e1, Nat.mod_eq_of_lt h3] at h; omega
  · have : s2 = N := by omega
    rw [this, Nat.mod_self, e1] at h
    omega

/-- **C66.** A signature made by `Sign` is accepted exactly when its challenge is not 0 modulo N. -/
theorem C66_verifies_iff (d : ℕ) (hd : 1 ≤ d ∧ d < N) (m : Bytes) (r s : ℤ) (h : sign d m = .ok (r, s)) :
    verify (keyOf (d • G)) m r s = .ok true ∧ ¬ Challenge (d • G) m r 0 ∨
    verify (keyOf (d • G)) m r s = .ok false ∧ Challenge (d • G) m r 0 := by
  by_cases he : Challenge (d • G) m r 0
  swap
  · exact Or.inl ⟨C66_sign_verifies_partial d hd m r s h he, he⟩
  right
  refine ⟨?_, he⟩
  rcases C66_sign d hd m with ⟨h', _⟩ | ⟨r', s', h', hr, hs, e, hc, heq⟩
  · rw [h] at h'; cases h'
  rw [h] at h'
  cases h'
  obtain ⟨rn, rfl⟩ := Int.eq_ofNat_of_zero_le hr.1
  obtain ⟨sn, rfl⟩ := Int.eq_ofNat_of_zero_le hs.1
  have := challenge_unique he hc
  subst this
  rcases C67_verify_zero _ (Ecdsa.smul_ne hd.1 hd.2) m rn sn he with ⟨_, hz⟩ | ⟨h1, _⟩
  swap
  · exact h1
  exfalso
  obtain ⟨g, hg, hne, _, hx⟩ := heq
  have : g = G := coords_inj (hg.trans coords_G.symm)
  subst this
  rw [zero_nsmul, sub_zero, natCast_zsmul] at hx
  have h7 := hz.2.2.2.1
  rw [hx] at h7
  refine seven_no_cube (rn : F) ?_
  push_cast at h7
  linear_combination h7

end

/-- **C67**, negation: there is a hash function for which numbers are accepted that do not satisfy the equation. -/
theorem C67_negation_equation : ∃ (H : Hashes) (m : Bytes) (r s : ℕ), m.length = 32 ∧ @verify H (keyOf G) m r s = .ok true ∧
    ¬ ∃ e, @Challenge H G m r e ∧ SchnorrEquation G e r s := by
  refine ⟨zeroChallenge, List.replicate 32 0, 0xcf88213f5e0b5b2d6951fc69e31965e1e29effacc9730e9f41367d7e109476b6, 1, rfl, ?_, ?_⟩
  · unfold keyOf
    rw [coords_G]
    decide +kernel
  · rintro ⟨e, ⟨rb, qb, hr, ⟨xb, hxb, hq⟩, rfl⟩, g, hg, _, _, hx⟩
    have hl : (rb ++ qb ++ List.replicate 32 0).length = 97 := by
      rw [hq]
      simp [hr.1, hxb.1]
    have h0 : beNat (zeroChallenge.sha256 (rb ++ qb ++ List.replicate 32 0)) % N = 0 := by
      have e : zeroChallenge.sha256 (rb ++ qb ++ List.replicate 32 0) = List.replicate 32 0 := by
        unfold zeroChallenge
        dsimp only
        rw [if_pos hl]
        rfl
      rw [e]
      decide +kernel
    rw [h0, zero_nsmul, sub_zero, natCast_zsmul, one_nsmul, hg] at hx
    exact absurd hx (by decide +kernel)

/-- Both results of verification occur with challenge 0: s = 1 is accepted with the r belonging to it, and refused with another. The signature
made with the hash function that is always 1, whose challenges are 1, is accepted. -/
example : @verify zeroChallenge ⟨Gx, Gy⟩ (List.replicate 32 0) 0xcf88213f5e0b5b2d6951fc69e31965e1e29effacc9730e9f41367d7e109476b6 1 = .ok true ∧
    @verify zeroChallenge ⟨Gx, Gy⟩ (List.replicate 32 0) Gx 1 = .ok false ∧
    (@sign oneHash 1 [] >>= fun (r, s) => @verify oneHash ⟨Gx, Gy⟩ [] r s) = .ok true := by
  decide +kernel

end Toku.Props
