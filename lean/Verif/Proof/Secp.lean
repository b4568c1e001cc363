import Verif.Proof.Curve
import Mathlib.GroupTheory.OrderOfElement
/-
The curve of the library: points and pairs of numbers, the generator and its order.
-/
namespace Toku.Curve
open Toku.Spec WeierstrassCurve

theorem P_ne_two : P ≠ 2 := by decide +kernel

theorem natCast_ne_zero {n : ℕ} (h0 : n ≠ 0) (h : n < P) : ((n : ℕ) : ZMod P) ≠ 0 := by
  rw [Ne, ZMod.natCast_eq_zero_iff]
  intro hd
  exact absurd (Nat.le_of_dvd (Nat.pos_of_ne_zero h0) hd) (by omega)

theorem seven_ne : ((7 : ℕ) : ZMod P) ≠ 0 := natCast_ne_zero (by decide) (by decide +kernel)

theorem equation_iff' (x y : ZMod P) : secp.Equation x y ↔ y ^ 2 = x ^ 3 + 7 := by
  rw [Affine.equation_iff]
  simp [shortCurve]

theorem nonsingular_of {x y : ZMod P} (h : secp.Equation x y) : secp.Nonsingular x y := by
  rw [Affine.nonsingular_iff]
  refine ⟨h, ?_⟩
  have h := (equation_iff' x y).mp h
  by_contra hc
  rw [not_or, not_not, not_not] at hc
  simp only [shortCurve] at hc
  have h2 : ((2 : ℕ) : ZMod P) ≠ 0 := natCast_ne_zero (by decide) (by decide +kernel)
  have h3 : ((3 : ℕ) : ZMod P) ≠ 0 := natCast_ne_zero (by decide) (by decide +kernel)
  have h7 := seven_ne
  push_cast at h2 h3 h7
  have hy : 2 * y = 0 := by linear_combination hc.2
  have hx : 3 * x ^ 2 = 0 := by linear_combination -hc.1
  have hy := (mul_eq_zero.mp hy).resolve_left h2
  have hx := pow_eq_zero_iff (n := 2) (by decide) |>.mp ((mul_eq_zero.mp hx).resolve_left h3)
  rw [hx, hy] at h
  apply h7
  linear_combination -h

/-- The point with the given coordinates. -/
def mkPt (x y : ZMod P) (h : y ^ 2 = x ^ 3 + 7) : Pt := .some x y (nonsingular_of ((equation_iff' x y).mpr h))

theorem isOnCurve_iff (x y : ℤ) : isOnCurve x y = true ↔ ((y : ZMod P)) ^ 2 = (x : ZMod P) ^ 3 + 7 := by
  unfold isOnCurve
  rw [beq_iff_eq, ← cast_inj (p := P) (mod_range _) (mod_range _), cast_mod, cast_mod]
  push_cast [B]
  constructor
  · intro h; linear_combination -h
  · intro h; linear_combination -h

theorem coords_inj {q1 q2 : Pt} (h : coords q1 = coords q2) : q1 = q2 := by
  have h7 := seven_ne
  cases q1 with
  | zero =>
    cases q2 with
    | zero => rfl
    | some x y n =>
      have h : ((0 : ℤ), (0 : ℤ)) = ((x.val : ℤ), (y.val : ℤ)) := h
      rcases not_origin h7 x y n with e | e
      · exact absurd (Prod.mk.inj h).1.symm e
      · exact absurd (Prod.mk.inj h).2.symm e
  | some x y n =>
    cases q2 with
    | zero =>
      have h : ((x.val : ℤ), (y.val : ℤ)) = ((0 : ℤ), (0 : ℤ)) := h
      rcases not_origin h7 x y n with e | e
      · exact absurd (Prod.mk.inj h).1 e
      · exact absurd (Prod.mk.inj h).2 e
    | some x' y' n' =>
      have h : ((x.val : ℤ), (y.val : ℤ)) = ((x'.val : ℤ), (y'.val : ℤ)) := h
      obtain ⟨h1, h2⟩ := Prod.mk.inj h
      have h1 : x = x' := ZMod.val_injective P (by exact_mod_cast h1)
      have h2 : y = y' := ZMod.val_injective P (by exact_mod_cast h2)
      subst h1 h2
      rfl

theorem coords_eq_zero {q : Pt} : coords q = (0, 0) ↔ q = 0 :=
  ⟨fun h => coords_inj (q2 := (0 : Pt)) h, fun h => by rw [h]; rfl⟩

/-- The coordinates of a finite point are in range and satisfy the equation. -/
theorem coords_on {q : Pt} (h : q ≠ 0) :
    (0 ≤ (coords q).1 ∧ (coords q).1 < P) ∧ (0 ≤ (coords q).2 ∧ (coords q).2 < P) ∧
      isOnCurve (coords q).1 (coords q).2 = true := by
  cases q with
  | zero => exact absurd rfl h
  | some x y n =>
    refine ⟨val_range x, val_range y, ?_⟩
    rw [isOnCurve_iff]
    change ((y.val : ℤ) : ZMod P) ^ 2 = ((x.val : ℤ) : ZMod P) ^ 3 + 7
    rw [cast_val, cast_val]
    exact (equation_iff' x y).mp n.1

theorem val_cast {x : ℤ} (h : 0 ≤ x ∧ x < P) : ((x : ZMod P).val : ℤ) = x := by
  rw [← cast_inj (p := P) (val_range _) h, cast_val]

/-- Numbers in range satisfying the equation are the coordinates of a finite point. -/
theorem exists_coords {x y : ℤ} (hx : 0 ≤ x ∧ x < P) (hy : 0 ≤ y ∧ y < P) (h : isOnCurve x y = true) :
    ∃ q : Pt, q ≠ 0 ∧ coords q = (x, y) := by
  refine ⟨mkPt x y ((isOnCurve_iff x y).mp h), ?_, ?_⟩
  · intro e; cases e
  · change ((((x : ZMod P).val : ℕ) : ℤ), (((y : ZMod P).val : ℕ) : ℤ)) = (x, y)
    rw [val_cast hx, val_cast hy]

/-- The generator. -/
theorem G_on : ((Gy : ℤ) : ZMod P) ^ 2 = ((Gx : ℤ) : ZMod P) ^ 3 + 7 := by
  rw [← isOnCurve_iff]
  decide +kernel

def G : Pt := mkPt Gx Gy G_on

theorem G_ne : G ≠ 0 := by intro e; cases e

theorem coords_G : coords G = (Gx, Gy) := by
  change (((((Gx : ℤ) : ZMod P).val : ℕ) : ℤ), ((((Gy : ℤ) : ZMod P).val : ℕ) : ℤ)) = (Gx, Gy)
  rw [val_cast (by decide +kernel), val_cast (by decide +kernel)]

theorem mult_coords (q : Pt) (k : Bytes) : mult (coords q).1 (coords q).2 k = .ok (coords (natOfBE k • q)) :=
  scalarMult_coords P_ne_two q k

theorem baseMult_coords (k : Bytes) : baseMult k = .ok (coords (natOfBE k • G)) := by
  have := mult_coords G k
  rw [coords_G] at this
  exact this

theorem N_smul_G : N • G = 0 := by
  have h1 := baseMult_coords (natToBE N)
  have h2 : baseMult (natToBE N) = .ok (0, 0) := by decide +kernel
  rw [h2, natOfBE_natToBE] at h1
  exact coords_eq_zero.mp (Res.ok.inj h1).symm

theorem order_G : addOrderOf G = N := addOrderOf_eq_prime N_smul_G G_ne

theorem add_coords (q1 q2 : Pt) : add (coords q1).1 (coords q1).2 (coords q2).1 (coords q2).2 = .ok (coords (q1 + q2)) :=
  addPoint_coords P_ne_two seven_ne q1 q2

theorem double_coords (q : Pt) : double (coords q).1 (coords q).2 = .ok (coords (q + q)) :=
  doublePoint_coords P_ne_two seven_ne q

end Toku.Curve
