import Verif.Proof.Keys
import Mathlib.GroupTheory.Perm.Cycle.Type
import Mathlib.GroupTheory.SpecificGroups.Cyclic
/-
The group of secp256k1 has N elements: no point of order two, at most 2P+1 points, and an element of prime order N.
-/
namespace Toku.Curve
open Toku.Spec WeierstrassCurve

/-- -7 has no cube root modulo P. -/
theorem no_cube (x : ZMod P) : x ^ 3 + 7 ≠ 0 := by
  intro h
  have hx : x ^ 3 = (((P - 7 : ℕ)) : ZMod P) := by
    rw [Nat.cast_sub (by decide +kernel), ZMod.natCast_self]
    push_cast
    linear_combination h
  have h7 : (((P - 7 : ℕ)) : ZMod P) ≠ 0 := natCast_ne_zero (by decide +kernel) (by decide +kernel)
  have hx0 : x ≠ 0 := by
    rintro rfl
    apply h7
    rw [← hx]; ring
  have h1 : ((P - 7 : ℕ) : ZMod P) ^ ((P - 1) / 3) = 1 := by
    rw [← hx, ← pow_mul]
    have e : 3 * ((P - 1) / 3) = P - 1 := by decide +kernel
    rw [e]
    exact ZMod.pow_card_sub_one_eq_one hx0
  have h2 : Primes.powMod P 256 (P - 7) ((P - 1) / 3) ≠ 1 := by decide +kernel
  apply h2
  have h3 : (((P - 7) ^ ((P - 1) / 3) : ℕ) : ZMod P) = ((1 : ℕ) : ZMod P) := by
    rw [Nat.cast_pow, h1, Nat.cast_one]
  rw [Primes.powMod_eq _ _ _ _ (by decide +kernel)]
  have := (ZMod.natCast_eq_natCast_iff' _ _ P).mp h3
  rw [this]
  decide +kernel

/-- No finite point has y = 0. -/
theorem y_ne {q : Pt} (h : q ≠ 0) : (coords q).2 ≠ 0 := by
  obtain ⟨_, _, hon⟩ := coords_on h
  rw [isOnCurve_iff] at hon
  intro h0
  rw [h0] at hon
  apply no_cube ((coords q).1 : ZMod P)
  rw [← hon]; simp

/-- The opposite of a finite point. -/
theorem coords_neg' {q : Pt} (h : q ≠ 0) : coords (-q) = ((coords q).1, P - (coords q).2) := by
  have hy := y_ne h
  obtain ⟨_, h2, _⟩ := coords_on h
  have h1 : (coords (-q)).1 = (coords q).1 := by
    cases q with
    | zero => rfl
    | some x y hh => rfl
  have h3 : (((coords (-q)).2 : ℤ) : ZMod P) = -(((coords q).2 : ℤ) : ZMod P) := by
    cases q with
    | zero => exact absurd rfl h
    | some x y hh =>
      rw [Affine.Point.neg_some]
      change ((((secp.negY x y).val : ℕ) : ℤ) : ZMod P) = -((((y.val : ℕ) : ℤ)) : ZMod P)
      rw [Int.cast_natCast, Int.cast_natCast, ZMod.natCast_zmod_val, ZMod.natCast_zmod_val]
      simp [Affine.negY, shortCurve]
  have hn : -q ≠ 0 := neg_ne_zero.mpr h
  obtain ⟨_, h4, _⟩ := coords_on hn
  refine Prod.ext h1 ?_
  change (coords (-q)).2 = P - (coords q).2
  rw [← cast_inj (p := P) h4 ⟨by omega, by omega⟩, h3]
  push_cast
  simp

/-- A finite point is its x coordinate and the parity of y. -/
theorem eq_of_x_parity {q1 q2 : Pt} (h1 : q1 ≠ 0) (h2 : q2 ≠ 0) (hx : (coords q1).1 = (coords q2).1)
    (hy : (coords q1).2 % 2 = (coords q2).2 % 2) : q1 = q2 := by
  obtain ⟨_, r1, o1⟩ := coords_on h1
  obtain ⟨_, r2, o2⟩ := coords_on h2
  rw [isOnCurve_iff] at o1 o2
  rw [hx, ← o2] at o1
  have n1 := y_ne h1
  rcases sq_eq_sq_iff_eq_or_eq_neg.mp o1 with e | e
  · exact coords_inj (Prod.ext hx ((cast_inj (p := P) r1 r2).mp e))
  · exfalso
    have e2 : (coords q1).2 = P - (coords q2).2 := by
      have n2 := y_ne h2
      rw [← cast_inj (p := P) r1 ⟨by omega, by omega⟩, e]
      push_cast
      simp
    have := Keys.P_odd
    omega

/-- The injection that bounds the number of points. -/
def tag (q : Pt) : Option (ZMod P × Bool) :=
  if coords q = (0, 0) then none else some (((coords q).1 : ZMod P), decide ((coords q).2 % 2 = 1))

theorem tag_inj : Function.Injective tag := by
  intro q1 q2 h
  unfold tag at h
  by_cases z1 : coords q1 = (0, 0)
  · rw [if_pos z1] at h
    by_cases z2 : coords q2 = (0, 0)
    · exact coords_inj (z1.trans z2.symm)
    · rw [if_neg z2] at h; cases h
  · rw [if_neg z1] at h
    by_cases z2 : coords q2 = (0, 0)
    · rw [if_pos z2] at h; cases h
    · rw [if_neg z2] at h
      have h := Option.some.inj h
      obtain ⟨hx, hy⟩ := Prod.mk.inj h
      have n1 : q1 ≠ 0 := fun e => z1 (coords_eq_zero.mpr e)
      have n2 : q2 ≠ 0 := fun e => z2 (coords_eq_zero.mpr e)
      refine eq_of_x_parity n1 n2 ((cast_inj (p := P) (coords_on n1).1 (coords_on n2).1).mp hx) ?_
      rw [decide_eq_decide] at hy
      omega

instance : Finite Pt := Finite.of_injective tag tag_inj

theorem card_le : Nat.card Pt ≤ 2 * P + 1 := by
  have h := Nat.card_le_card_of_injective tag tag_inj
  have e : Nat.card (Option (ZMod P × Bool)) = 2 * P + 1 := by
    rw [Nat.card_eq_fintype_card, Fintype.card_option, Fintype.card_prod, ZMod.card, Fintype.card_bool, mul_comm]
  rwa [e] at h

/-- The group has N elements. -/
theorem card_eq : Nat.card Pt = N := by
  have hd : N ∣ Nat.card Pt := order_G ▸ addOrderOf_dvd_natCard G
  obtain ⟨c, hc⟩ := hd
  have hle := card_le
  have hpos : 0 < Nat.card Pt := Nat.card_pos
  have h3 : 2 * P + 1 < N * 3 := by decide +kernel
  have hc3 : c < 3 := by
    by_contra hn
    have : N * 3 ≤ N * c := Nat.mul_le_mul_left _ (by omega)
    omega
  have hc0 : c ≠ 0 := by rintro rfl; omega
  have hc2 : c ≠ 2 := by
    rintro rfl
    haveI : Fact (Nat.Prime 2) := ⟨Nat.prime_two⟩
    obtain ⟨q, hq⟩ := exists_prime_addOrderOf_dvd_card' (G := Pt) 2 ⟨N, by rw [hc, mul_comm]⟩
    have hq0 : q ≠ 0 := by
      rintro rfl
      rw [addOrderOf_zero] at hq
      cases hq
    have h2 : q + q = 0 := by
      have := addOrderOf_nsmul_eq_zero q
      rwa [hq, two_nsmul] at this
    have hneg : -q = q := neg_eq_of_add_eq_zero_left h2
    have hc := coords_neg' hq0
    rw [hneg] at hc
    have := congrArg Prod.snd hc
    dsimp only at this
    have := Keys.P_odd
    omega
  have : c = 1 := by omega
  rw [hc, this, mul_one]

/-- Every point is killed by N. -/
theorem N_smul (q : Pt) : N • q = 0 := by
  rw [← card_eq]
  exact card_nsmul_eq_zero'

/-- Every finite point has order N. -/
theorem order_all {q : Pt} (h : q ≠ 0) : addOrderOf q = N := addOrderOf_eq_prime (N_smul q) h

/-- Every point is a multiple of the generator. -/
theorem exists_smul (q : Pt) : ∃ k : ℕ, k < N ∧ q = k • G := by
  have h : q ∈ AddSubgroup.zmultiples G := mem_zmultiples_of_prime_card card_eq G_ne
  have h2 : q ∈ AddSubmonoid.multiples G := mem_multiples_iff_mem_zmultiples.mpr h
  obtain ⟨k, hk⟩ := h2
  refine ⟨k % N, Nat.mod_lt _ (by decide +kernel), ?_⟩
  rw [← hk]
  dsimp only
  conv_lhs => rw [← Nat.div_add_mod k N, add_nsmul, mul_comm, mul_nsmul', N_smul]
  simp

theorem smul_zero_iff {q : Pt} (h : q ≠ 0) (k : ℕ) : k • q = 0 ↔ N ∣ k := by
  rw [← addOrderOf_dvd_iff_nsmul_eq_zero, order_all h]

end Toku.Curve
