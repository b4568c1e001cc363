import Verif.Proof.Secp
import Verif.Proof.Order
/-
Properties C57 and C58: the curve arithmetic is the group of secp256k1. The group is Mathlib's group of points of
y^2 = x^3 + 7 over the integers modulo P; `coords` writes a point as a pair of numbers, infinity as (0, 0).
-/
namespace Toku.Props
open Toku Toku.Spec Toku.Curve

/-- The pairs that stand for points: (0, 0), or numbers in range satisfying the equation as `IsOnCurve` tests it. -/
theorem C57_points (x y : ℤ) :
    (∃ q : Pt, coords q = (x, y)) ↔
      (x = 0 ∧ y = 0) ∨ ((0 ≤ x ∧ x < P) ∧ (0 ≤ y ∧ y < P) ∧ isOnCurve x y = true) := by
  constructor
  · rintro ⟨q, h⟩
    by_cases hq : q = 0
    · left
      rw [hq] at h
      obtain ⟨h1, h2⟩ := Prod.mk.inj (show ((0 : ℤ), (0 : ℤ)) = (x, y) from h)
      exact ⟨h1.symm, h2.symm⟩
    · right
      have := coords_on hq
      rwa [h] at this
  · rintro (⟨rfl, rfl⟩ | ⟨hx, hy, h⟩)
    · exact ⟨0, rfl⟩
    · obtain ⟨q, _, e⟩ := exists_coords hx hy h
      exact ⟨q, e⟩

/-- A pair stands for at most one point. -/
theorem C57_coords_injective : Function.Injective (coords : Pt → ℤ × ℤ) := fun _ _ h => coords_inj h

/-- `IsOnCurve` is the equation modulo P, for any integers. -/
theorem C57_isOnCurve (x y : ℤ) : isOnCurve x y = true ↔ (y ^ 2 - x ^ 3 - 7) % P = 0 := by
  rw [isOnCurve_iff, mod_zero_iff]
  push_cast
  constructor
  · intro h; linear_combination h
  · intro h; linear_combination h

/-- **C57.** `Add` of two points is the group sum: distinct, equal, opposite or infinite. -/
theorem C57_add (q1 q2 : Pt) :
    Curve.add (coords q1).1 (coords q1).2 (coords q2).1 (coords q2).2 = .ok (coords (q1 + q2)) := add_coords q1 q2

/-- **C57.** `Double` of a point is its sum with itself. -/
theorem C57_double (q : Pt) : Curve.double (coords q).1 (coords q).2 = .ok (coords (q + q)) := double_coords q

/-- **C58.** `ScalarMult` is the multiple by the number the bytes spell, for scalars of any length. -/
theorem C58_mult (q : Pt) (k : Bytes) :
    Curve.mult (coords q).1 (coords q).2 k = .ok (coords (natOfBE k • q)) := mult_coords q k

/-- **C58.** `ScalarBaseMult` is the multiple of the generator. -/
theorem C58_baseMult (k : Bytes) : Curve.baseMult k = .ok (coords (natOfBE k • G)) := baseMult_coords k

/-- **C58.** The generator is the point given in the source, and its order is the prime N. -/
theorem C58_order : coords G = (Gx, Gy) ∧ Nat.Prime N ∧ addOrderOf G = N := ⟨coords_G, Primes.prime_N, order_G⟩

/-- The multiples of the generator by numbers below N are distinct. -/
theorem C58_distinct (a b : ℕ) (ha : a < N) (hb : b < N) (h : a • G = b • G) : a = b := by
  have := (nsmul_eq_nsmul_iff_modEq (x := G)).mp h
  rw [order_G] at this
  rwa [Nat.ModEq, Nat.mod_eq_of_lt ha, Nat.mod_eq_of_lt hb] at this

/-- **C58.** The curve has N points, so every point is a multiple of the generator and every finite point has order N. -/
theorem C58_group : Nat.card Pt = N ∧ (∀ q : Pt, ∃ k < N, q = k • G) ∧ ∀ q : Pt, q ≠ 0 → addOrderOf q = N :=
  ⟨card_eq, fun q => by obtain ⟨k, hk, e⟩ := exists_smul q; exact ⟨k, hk, e⟩, fun _ h => order_all h⟩

/-- Twice the generator, by doubling, addition and multiplication; adding the opposite gives (0, 0). -/
example :
    let x2 : ℤ := 0xc6047f9441ed7d6d3045406e95c07cd85c778e4b8cef3ca7abac09b95c709ee5
    let y2 : ℤ := 0x1ae168fea63dc339a3c58419466ceaeef7f632653266d0e1236431a950cfe52a
    Curve.double Gx Gy = .ok (x2, y2) ∧ Curve.add Gx Gy Gx Gy = .ok (x2, y2) ∧ Curve.baseMult [2] = .ok (x2, y2) ∧
    Curve.add Gx Gy Gx (P - Gy) = .ok (0, 0) ∧ Curve.add 0 0 x2 y2 = .ok (x2, y2) ∧
    Curve.mult x2 y2 [0, 1] = .ok (x2, y2) ∧ Curve.mult 0 0 [7] = .ok (0, 0) := by decide +kernel

end Toku.Props
