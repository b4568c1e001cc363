import Verif.Spec.Curve
import Verif.Proof.Num
import Verif.Proof.Big
import Verif.Proof.Base58
import Mathlib.Tactic.FieldSimp
import Mathlib.Tactic.LinearCombination
/-
Jacobian arithmetic refines the group law.
-/
namespace Toku.Curve
open Toku.Spec WeierstrassCurve

variable {p b : ℕ} [Fact p.Prime]

local notation "F" => ZMod p
local notation "W" => shortCurve p b

theorem p_pos : (0 : ℤ) < p := by exact_mod_cast (Fact.out : p.Prime).pos

theorem cast_mod (x : ℤ) : ((x % p : ℤ) : F) = x := ZMod.intCast_mod x p

theorem mod_range (x : ℤ) : 0 ≤ x % p ∧ x % p < p := ⟨Int.emod_nonneg _ (ne_of_gt p_pos), Int.emod_lt_of_pos _ p_pos⟩

theorem mod_zero_iff (x : ℤ) : x % p = 0 ↔ (x : F) = 0 := by
  rw [ZMod.intCast_zmod_eq_zero_iff_dvd, Int.dvd_iff_emod_eq_zero]

theorem cast_zero_iff {x : ℤ} (h : 0 ≤ x ∧ x < p) : (x : F) = 0 ↔ x = 0 := by
  rw [← mod_zero_iff, Int.emod_eq_of_lt h.1 h.2]

theorem cast_inj {x y : ℤ} (hx : 0 ≤ x ∧ x < p) (hy : 0 ≤ y ∧ y < p) : (x : F) = y ↔ x = y := by
  constructor
  · intro h
    have := (ZMod.intCast_eq_intCast_iff' x y p).mp h
    rwa [Int.emod_eq_of_lt hx.1 hx.2, Int.emod_eq_of_lt hy.1 hy.2] at this
  · rintro rfl; rfl

/-- The reduction used by `doubleJacobian` keeps the residue. -/
theorem cast_fix (x : ℤ) : ((if x < 0 then x + p else x % p : ℤ) : F) = x := by
  split
  · push_cast; simp
  · exact cast_mod x

theorem cast_fix' (x : ℤ) : ((if x < 0 then x + p else x : ℤ) : F) = x := by
  split
  · push_cast; simp
  · rfl

/-- The group element represented by a Jacobian triple: infinity if z = 0, else (x/z^2, y/z^3). -/
def JRep (j : Jac) (q : (W).Point) : Prop :=
  (0 ≤ j.z ∧ j.z < p) ∧ ((j.z = 0 ∧ q = 0) ∨
    (j.z ≠ 0 ∧ ∃ h, q = .some ((j.x : F) / (j.z : F) ^ 2) ((j.y : F) / (j.z : F) ^ 3) h))

theorem some_congr {x y x' y' : F} (hx : x = x') (hy : y = y') (h : (W).Nonsingular x y) :
    ∃ h', (Affine.Point.some x y h : (W).Point) = .some x' y' h' := by
  subst hx hy
  exact ⟨h, rfl⟩

theorem negY_eq (x y : F) : (W).negY x y = -y := by
  simp [Affine.negY, shortCurve]

theorem double_cast (q : Jac) :
    let r := doubleJacobian p q
    (r.x : F) = 9 * (q.x : F) ^ 4 - 8 * (q.x : F) * (q.y : F) ^ 2 ∧
    (r.y : F) = 3 * (q.x : F) ^ 2 * (4 * (q.x : F) * (q.y : F) ^ 2 - (9 * (q.x : F) ^ 4 - 8 * (q.x : F) * (q.y : F) ^ 2)) - 8 * (q.y : F) ^ 4 ∧
    (r.z : F) = 2 * (q.y : F) * (q.z : F) ∧ (0 ≤ r.z ∧ r.z < p) := by
  unfold doubleJacobian
  simp only [cast_fix]
  refine ⟨?_, ?_, ?_, mod_range _⟩
  · simp only [Int.cast_mul, Int.cast_sub, Int.cast_add, Int.cast_ofNat, cast_mod, cast_fix]; ring
  · simp only [Int.cast_mul, Int.cast_sub, Int.cast_add, Int.cast_ofNat, cast_mod, cast_fix]; ring
  · simp only [Int.cast_mul, Int.cast_sub, Int.cast_add, Int.cast_ofNat, cast_mod, cast_fix]; ring

theorem double_rep (hp2 : p ≠ 2) {j : Jac} {q : (W).Point} (h : JRep j q) : JRep (doubleJacobian p j) (q + q) := by
  have h2 : (2 : F) ≠ 0 := by
    intro h2
    have h3 : ((2 : ℕ) : ZMod p) = 0 := by exact_mod_cast h2
    rw [ZMod.natCast_eq_zero_iff] at h3
    exact hp2 ((Nat.prime_dvd_prime_iff_eq (Fact.out : p.Prime) Nat.prime_two).mp h3)
  obtain ⟨hx, hy, hz, hr⟩ := double_cast (p := p) j
  refine ⟨hr, ?_⟩
  generalize doubleJacobian p j = r at hx hy hz hr
  obtain ⟨h0, ⟨hz0, rfl⟩ | ⟨hz0, hn, rfl⟩⟩ := h
  · left
    refine ⟨?_, add_zero 0⟩
    rw [hz0] at hz
    rw [← cast_zero_iff (p := p) hr, hz]
    simp
  · have hzF : (j.z : F) ≠ 0 := by rwa [Ne, cast_zero_iff h0]
    by_cases hyF : (j.y : F) = 0
    · left
      refine ⟨?_, ?_⟩
      · rw [← cast_zero_iff (p := p) hr, hz, hyF]; simp
      · apply Affine.Point.add_self_of_Y_eq
        rw [negY_eq, hyF]; simp
    · right
      have hrz : (r.z : F) ≠ 0 := by
        rw [hz]; exact mul_ne_zero (mul_ne_zero h2 hyF) hzF
      refine ⟨fun e => hrz (by rw [e]; simp), ?_⟩
      have hne : (j.y : F) / (j.z : F) ^ 3 ≠ (W).negY ((j.x : F) / (j.z : F) ^ 2) ((j.y : F) / (j.z : F) ^ 3) := by
        rw [negY_eq]
        intro e
        have : 2 * ((j.y : F) / (j.z : F) ^ 3) = 0 := by linear_combination e
        rcases mul_eq_zero.mp this with e | e
        · exact h2 e
        · exact (div_ne_zero hyF (pow_ne_zero 3 hzF)) e
      rw [Affine.Point.add_self_of_Y_ne hne]
      have hs : (W).slope ((j.x : F) / (j.z : F) ^ 2) ((j.x : F) / (j.z : F) ^ 2) ((j.y : F) / (j.z : F) ^ 3)
          ((j.y : F) / (j.z : F) ^ 3) = 3 * (j.x : F) ^ 2 / (2 * (j.y : F) * (j.z : F)) := by
        have hn2 : (j.y : F) / (j.z : F) ^ 3 - -((j.y : F) / (j.z : F) ^ 3) ≠ 0 := by
          rw [negY_eq] at hne
          exact sub_ne_zero.mpr hne
        rw [Affine.slope_of_Y_ne rfl hne, negY_eq, div_eq_div_iff hn2 (mul_ne_zero (mul_ne_zero h2 hyF) hzF)]
        simp only [shortCurve]
        field_simp
        ring
      have hX : (W).addX ((j.x : F) / (j.z : F) ^ 2) ((j.x : F) / (j.z : F) ^ 2) ((W).slope ((j.x : F) / (j.z : F) ^ 2)
          ((j.x : F) / (j.z : F) ^ 2) ((j.y : F) / (j.z : F) ^ 3) ((j.y : F) / (j.z : F) ^ 3)) = (r.x : F) / (r.z : F) ^ 2 := by
        rw [hs, hx, hz]
        simp only [Affine.addX, shortCurve]
        field_simp
        ring
      refine some_congr hX ?_ _
      unfold Affine.addY Affine.negAddY
      rw [negY_eq, hX, hs, hx, hy, hz]
      field_simp
      ring

theorem add_cast {q1 q2 : Jac} (h1 : q1.z ≠ 0) (h2 : q2.z ≠ 0)
    (hne : ¬ ((q1.x : F) * (q2.z : F) ^ 2 = (q2.x : F) * (q1.z : F) ^ 2 ∧ (q1.y : F) * (q2.z : F) ^ 3 = (q2.y : F) * (q1.z : F) ^ 3)) :
    let r := addJacobian p q1 q2
    let u1 := (q1.x : F) * (q2.z : F) ^ 2
    let s1 := (q1.y : F) * (q2.z : F) ^ 3
    let H := (q2.x : F) * (q1.z : F) ^ 2 - u1
    let R := 2 * ((q2.y : F) * (q1.z : F) ^ 3 - s1)
    (r.x : F) = R ^ 2 - 4 * H ^ 3 - 8 * u1 * H ^ 2 ∧
    (r.y : F) = R * (4 * u1 * H ^ 2 - (R ^ 2 - 4 * H ^ 3 - 8 * u1 * H ^ 2)) - 8 * s1 * H ^ 3 ∧
    (r.z : F) = 2 * (q1.z : F) * (q2.z : F) * H ∧ (0 ≤ r.z ∧ r.z < p) := by
  unfold addJacobian
  rw [if_neg h1, if_neg h2]
  dsimp only
  rw [if_neg]
  · dsimp only
    refine ⟨?_, ?_, ?_, mod_range _⟩
    · simp only [Int.cast_mul, Int.cast_sub, Int.cast_add, Int.cast_ofNat, cast_mod, cast_fix']; ring
    · simp only [Int.cast_mul, Int.cast_sub, Int.cast_add, Int.cast_ofNat, cast_mod, cast_fix']; ring
    · simp only [Int.cast_mul, Int.cast_sub, Int.cast_add, Int.cast_ofNat, cast_mod, cast_fix']; ring
  · rintro ⟨a, c⟩
    apply hne
    constructor
    · have : ((q2.x * (q1.z * q1.z % p) % p - q1.x * (q2.z * q2.z % p) % p : ℤ) : F) = 0 := by rw [a]; simp
      push_cast [cast_mod] at this
      linear_combination -this
    · have := congrArg (Int.cast : ℤ → F) c
      rw [cast_fix'] at this
      push_cast [cast_mod] at this
      linear_combination -this

theorem add_equal {q1 q2 : Jac} (h1 : q1.z ≠ 0) (h2 : q2.z ≠ 0)
    (hx : (q1.x : F) * (q2.z : F) ^ 2 = (q2.x : F) * (q1.z : F) ^ 2)
    (hy : (q1.y : F) * (q2.z : F) ^ 3 = (q2.y : F) * (q1.z : F) ^ 3) :
    addJacobian p q1 q2 = doubleJacobian p q1 := by
  unfold addJacobian
  rw [if_neg h1, if_neg h2]
  dsimp only
  rw [if_pos]
  have e1 : q2.x * (q1.z * q1.z % p) % p = q1.x * (q2.z * q2.z % p) % p := by
    rw [← cast_inj (p := p) (mod_range _) (mod_range _)]
    push_cast [cast_mod]
    linear_combination -hx
  have e2 : q2.y * q1.z * (q1.z * q1.z % p) % p = q1.y * q2.z * (q2.z * q2.z % p) % p := by
    rw [← cast_inj (p := p) (mod_range _) (mod_range _)]
    push_cast [cast_mod]
    linear_combination -hy
  rw [e1, e2]
  simp

theorem field_x {K : Type*} [Field K] {x1 z1 x2 z2 H S : K} (two : (2 : K) ≠ 0) (h1 : z1 ≠ 0) (h2 : z2 ≠ 0) (hH : H ≠ 0)
    (e : H = x2 * z1 ^ 2 - x1 * z2 ^ 2) :
    (S / (z1 * z2 * H)) ^ 2 - x1 / z1 ^ 2 - x2 / z2 ^ 2 =
      ((2 * S) ^ 2 - 4 * H ^ 3 - 8 * (x1 * z2 ^ 2) * H ^ 2) / (2 * z1 * z2 * H) ^ 2 := by
  have e2 : x2 = (H + x1 * z2 ^ 2) / z1 ^ 2 := by field_simp; linear_combination -e
  rw [e2]
  field_simp
  ring

theorem field_y {K : Type*} [Field K] {x1 y1 z1 z2 H S : K} (two : (2 : K) ≠ 0) (h1 : z1 ≠ 0) (h2 : z2 ≠ 0) (hH : H ≠ 0) :
    -(S / (z1 * z2 * H) * (((2 * S) ^ 2 - 4 * H ^ 3 - 8 * (x1 * z2 ^ 2) * H ^ 2) / (2 * z1 * z2 * H) ^ 2 - x1 / z1 ^ 2) + y1 / z1 ^ 3) =
      (2 * S * (4 * (x1 * z2 ^ 2) * H ^ 2 - ((2 * S) ^ 2 - 4 * H ^ 3 - 8 * (x1 * z2 ^ 2) * H ^ 2)) - 8 * (y1 * z2 ^ 3) * H ^ 3) /
        (2 * z1 * z2 * H) ^ 3 := by
  field_simp
  ring

theorem add_rep (hp2 : p ≠ 2) {j1 j2 : Jac} {q1 q2 : (W).Point} (h1 : JRep j1 q1) (h2 : JRep j2 q2) :
    JRep (addJacobian p j1 j2) (q1 + q2) := by
  have two : (2 : F) ≠ 0 := by
    intro h2
    have h3 : ((2 : ℕ) : ZMod p) = 0 := by exact_mod_cast h2
    rw [ZMod.natCast_eq_zero_iff] at h3
    exact hp2 ((Nat.prime_dvd_prime_iff_eq (Fact.out : p.Prime) Nat.prime_two).mp h3)
  have h1' := h1
  have h2' := h2
  obtain ⟨r1, ⟨z1, rfl⟩ | ⟨z1, n1, rfl⟩⟩ := h1
  · rw [zero_add]
    unfold addJacobian
    rw [if_pos z1]
    exact h2
  obtain ⟨r2, ⟨z2, rfl⟩ | ⟨z2, n2, rfl⟩⟩ := h2
  · rw [add_zero]
    unfold addJacobian
    rw [if_neg z1, if_pos z2]
    exact h1'
  have f1 : (j1.z : F) ≠ 0 := by rwa [Ne, cast_zero_iff r1]
  have f2 : (j2.z : F) ≠ 0 := by rwa [Ne, cast_zero_iff r2]
  have ex : (j1.x : F) * (j2.z : F) ^ 2 = (j2.x : F) * (j1.z : F) ^ 2 ↔ (j1.x : F) / (j1.z : F) ^ 2 = (j2.x : F) / (j2.z : F) ^ 2 := by
    rw [div_eq_div_iff (pow_ne_zero 2 f1) (pow_ne_zero 2 f2)]
  have ey : (j1.y : F) * (j2.z : F) ^ 3 = (j2.y : F) * (j1.z : F) ^ 3 ↔ (j1.y : F) / (j1.z : F) ^ 3 = (j2.y : F) / (j2.z : F) ^ 3 := by
    rw [div_eq_div_iff (pow_ne_zero 3 f1) (pow_ne_zero 3 f2)]
  by_cases heq : (j1.x : F) * (j2.z : F) ^ 2 = (j2.x : F) * (j1.z : F) ^ 2 ∧ (j1.y : F) * (j2.z : F) ^ 3 = (j2.y : F) * (j1.z : F) ^ 3
  · rw [add_equal z1 z2 heq.1 heq.2]
    have e : (Affine.Point.some _ _ n2 : (W).Point) = .some _ _ n1 := by
      rw [Affine.Point.some.injEq]
      exact ⟨(ex.mp heq.1).symm, (ey.mp heq.2).symm⟩
    rw [e]
    exact double_rep hp2 h1'
  · obtain ⟨hx, hy, hz, hr⟩ := add_cast (p := p) z1 z2 heq
    refine ⟨hr, ?_⟩
    generalize addJacobian p j1 j2 = r at hx hy hz hr
    by_cases hX : (j1.x : F) * (j2.z : F) ^ 2 = (j2.x : F) * (j1.z : F) ^ 2
    · left
      refine ⟨?_, ?_⟩
      · rw [← cast_zero_iff (p := p) hr, hz, hX]; ring
      · have hx' := ex.mp hX
        refine Affine.Point.add_of_Y_eq hx' ?_
        rcases Affine.Y_eq_of_X_eq n1.1 n2.1 hx' with e | e
        · exact absurd ⟨hX, ey.mpr e⟩ heq
        · exact e
    · right
      have hH : (j2.x : F) * (j1.z : F) ^ 2 - (j1.x : F) * (j2.z : F) ^ 2 ≠ 0 := fun e => hX (by linear_combination -e)
      have hrz : (r.z : F) ≠ 0 := by
        rw [hz]; exact mul_ne_zero (mul_ne_zero (mul_ne_zero two f1) f2) hH
      refine ⟨fun e => hrz (by rw [e]; simp), ?_⟩
      have hx' : (j1.x : F) / (j1.z : F) ^ 2 ≠ (j2.x : F) / (j2.z : F) ^ 2 := fun e => hX (ex.mpr e)
      rw [Affine.Point.add_of_X_ne hx']
      have hs : (W).slope ((j1.x : F) / (j1.z : F) ^ 2) ((j2.x : F) / (j2.z : F) ^ 2) ((j1.y : F) / (j1.z : F) ^ 3)
          ((j2.y : F) / (j2.z : F) ^ 3) = ((j2.y : F) * (j1.z : F) ^ 3 - (j1.y : F) * (j2.z : F) ^ 3) /
            ((j1.z : F) * (j2.z : F) * ((j2.x : F) * (j1.z : F) ^ 2 - (j1.x : F) * (j2.z : F) ^ 2)) := by
        rw [Affine.slope_of_X_ne hx', div_eq_div_iff (sub_ne_zero.mpr hx') (mul_ne_zero (mul_ne_zero f1 f2) hH)]
        field_simp
        ring
      have hXX : (W).addX ((j1.x : F) / (j1.z : F) ^ 2) ((j2.x : F) / (j2.z : F) ^ 2) ((W).slope ((j1.x : F) / (j1.z : F) ^ 2)
          ((j2.x : F) / (j2.z : F) ^ 2) ((j1.y : F) / (j1.z : F) ^ 3) ((j2.y : F) / (j2.z : F) ^ 3)) = (r.x : F) / (r.z : F) ^ 2 := by
        rw [hs, hx, hz, ← field_x two f1 f2 hH rfl]
        simp only [Affine.addX, shortCurve]
        ring
      refine some_congr hXX ?_ _
      unfold Affine.addY Affine.negAddY
      rw [negY_eq, hXX, hs, hx, hy, hz]
      exact field_y two f1 f2 hH

/-! ### affine coordinates -/

theorem coords_zero : coordsOf (0 : (W).Point) = (0, 0) := rfl

theorem coords_some (x y : F) (h : (W).Nonsingular x y) : coordsOf (.some x y h : (W).Point) = ((x.val : ℤ), (y.val : ℤ)) := rfl

theorem val_range (x : F) : 0 ≤ (x.val : ℤ) ∧ (x.val : ℤ) < p :=
  ⟨Int.natCast_nonneg _, by exact_mod_cast ZMod.val_lt x⟩

theorem cast_val (x : F) : ((x.val : ℤ) : F) = x := by simp

/-- A pair of affine coordinates not both zero represents its point with z = 1. -/
theorem some_rep (x y : F) (h : (W).Nonsingular x y) : JRep ⟨x.val, y.val, 1⟩ (.some x y h : (W).Point) := by
  have h1 : (1 : ℤ) < p := by exact_mod_cast (Fact.out : p.Prime).one_lt
  refine ⟨⟨by simp, h1⟩, Or.inr ⟨by simp, ?_⟩⟩
  exact some_congr (by simp) (by simp) h

theorem not_origin (hb : (b : F) ≠ 0) (x y : F) (h : (W).Nonsingular x y) : (x.val : ℤ) ≠ 0 ∨ (y.val : ℤ) ≠ 0 := by
  by_contra hc
  rw [not_or, not_not, not_not] at hc
  have hx : x = 0 := by rw [← cast_val x, hc.1]; simp
  have hy : y = 0 := by rw [← cast_val y, hc.2]; simp
  have := (Affine.equation_iff ..).mp h.1
  simp only [shortCurve, hx, hy] at this
  apply hb
  linear_combination -this

theorem affine_rep (hb : (b : F) ≠ 0) (q : (W).Point) :
    JRep ⟨(coordsOf q).1, (coordsOf q).2, zForAffine (coordsOf q).1 (coordsOf q).2⟩ q := by
  cases q with
  | zero =>
    change JRep ⟨0, 0, 0⟩ (0 : (W).Point)
    exact ⟨⟨le_refl _, p_pos⟩, Or.inl ⟨rfl, rfl⟩⟩
  | some x y h =>
    rw [coords_some]
    unfold zForAffine
    rw [if_pos (not_origin hb x y h)]
    exact some_rep x y h

theorem affine_of_rep {j : Jac} {q : (W).Point} (h : JRep j q) : affineFromJacobian p j = .ok (coordsOf q) := by
  obtain ⟨r, ⟨z, rfl⟩ | ⟨z, n, rfl⟩⟩ := h
  · unfold affineFromJacobian
    rw [if_pos z]
    rfl
  · unfold affineFromJacobian
    rw [if_neg z]
    have hz : (j.z : F) ≠ 0 := by rwa [Ne, cast_zero_iff r]
    obtain ⟨w, e, w0, w1, hw⟩ := Num.modInverse_prime (Fact.out : p.Prime) j.z hz
    rw [e]
    have hw' : (w : F) = (j.z : F)⁻¹ := eq_inv_of_mul_eq_one_left hw
    dsimp only
    rw [coords_some]
    congr 2
    · rw [← cast_inj (p := p) (mod_range _) (val_range _), cast_val, cast_mod]
      push_cast
      rw [hw']
      field_simp
    · rw [← cast_inj (p := p) (mod_range _) (val_range _), cast_val, cast_mod]
      push_cast
      rw [hw']
      field_simp

theorem addPoint_coords (hp2 : p ≠ 2) (hb : (b : F) ≠ 0) (q1 q2 : (W).Point) :
    addPoint p (coordsOf q1).1 (coordsOf q1).2 (coordsOf q2).1 (coordsOf q2).2 = .ok (coordsOf (q1 + q2)) := by
  unfold addPoint
  exact affine_of_rep (add_rep hp2 (affine_rep hb q1) (affine_rep hb q2))

theorem doublePoint_coords (hp2 : p ≠ 2) (hb : (b : F) ≠ 0) (q : (W).Point) :
    doublePoint p (coordsOf q).1 (coordsOf q).2 = .ok (coordsOf (q + q)) := by
  unfold doublePoint
  exact affine_of_rep (double_rep hp2 (affine_rep hb q))

/-! ### scalar multiplication -/

theorem top_bit (x : UInt8) : (x &&& 0x80 = 0x80) ↔ x.toNat / 128 = 1 := by
  revert x
  apply Base58.forall_uint8
  decide +kernel

theorem shl_one (x : UInt8) : (x <<< 1).toNat = 2 * x.toNat % 256 := by
  revert x
  apply Base58.forall_uint8
  decide +kernel

theorem bits_step (n : ℕ) (hn : n < 8) (a : ℕ) (ha : a < 256) :
    a / 2 ^ (7 - n) = (a / 128) * 2 ^ n + (2 * a % 256) / 2 ^ (8 - n) := by
  have : ∀ n < 8, ∀ a < 256, a / 2 ^ (7 - n) = (a / 128) * 2 ^ n + (2 * a % 256) / 2 ^ (8 - n) := by decide +kernel
  exact this n hn a ha

theorem byteLoop_rep (hp2 : p ≠ 2) {B : Jac} {Q : (W).Point} (hB : JRep B Q) (n : ℕ) :
    ∀ (byte : UInt8) (j : Jac) (k : ℕ), n ≤ 8 → JRep j (k • Q) →
      JRep (byteLoop p B n byte j) ((k * 2 ^ n + byte.toNat / 2 ^ (8 - n)) • Q) := by
  induction n with
  | zero =>
    intro byte j k _ h
    have : byte.toNat / 2 ^ (8 - 0) = 0 := Nat.div_eq_of_lt byte.toNat_lt
    rw [this]
    simpa [byteLoop] using h
  | succ n ih =>
    intro byte j k hn h
    unfold byteLoop
    dsimp only
    have e := bits_step n (by omega) byte.toNat byte.toNat_lt
    have h2 : JRep (doubleJacobian p j) ((2 * k) • Q) := by
      have := double_rep hp2 h
      rwa [← two_nsmul, smul_smul] at this
    have h3 : JRep (if byte &&& 0x80 = 0x80 then addJacobian p B (doubleJacobian p j) else doubleJacobian p j)
        ((2 * k + byte.toNat / 128) • Q) := by
      split
      · rename_i hb
        rw [(top_bit byte).mp hb, add_comm, add_smul, one_smul]
        exact add_rep hp2 hB h2
      · rename_i hb
        have hb : byte.toNat / 128 = 0 := by
          have h1 := mt (top_bit byte).mpr hb
          have := byte.toNat_lt
          omega
        rw [hb, add_zero]
        exact h2
    have := ih (byte <<< 1) _ _ (by omega) h3
    rw [shl_one] at this
    have e2 : k * 2 ^ (n + 1) + byte.toNat / 2 ^ (8 - (n + 1)) =
        (2 * k + byte.toNat / 128) * 2 ^ n + 2 * byte.toNat % 256 / 2 ^ (8 - n) := by
      rw [show 8 - (n + 1) = 7 - n by omega, e]
      ring
    rw [e2]
    exact this

theorem bytes_rep (hp2 : p ≠ 2) {B : Jac} {Q : (W).Point} (hB : JRep B Q) (ks : Bytes) (j : Jac) (k : ℕ) (h : JRep j (k • Q)) :
    JRep (ks.foldl (fun q byte => byteLoop p B 8 byte q) j) ((ks.foldl (fun acc b => acc * 256 + b.toNat) k) • Q) := by
  induction ks generalizing j k with
  | nil => exact h
  | cons c ks ih =>
    rw [List.foldl_cons, List.foldl_cons]
    apply ih
    have := byteLoop_rep hp2 hB 8 c j k (le_refl _) h
    simpa using this

omit [Fact p.Prime] in
/-- The loops started from the pair (0, 0), which stands for infinity but is given z = 1, stay at the origin. -/
theorem byteLoop_origin (n : ℕ) : ∀ (byte : UInt8) (j : Jac), (j = ⟨0, 0, 0⟩ ∨ j = ⟨0, 0, 1⟩) →
    (byteLoop p ⟨0, 0, 1⟩ n byte j = ⟨0, 0, 0⟩ ∨ byteLoop p ⟨0, 0, 1⟩ n byte j = ⟨0, 0, 1⟩) := by
  induction n with
  | zero => intro _ j h; exact h
  | succ n ih =>
    intro byte j h
    have hd : doubleJacobian p j = ⟨0, 0, 0⟩ := by
      rcases h with rfl | rfl <;> simp [doubleJacobian]
    unfold byteLoop
    dsimp only
    rw [hd]
    apply ih
    split
    · right; simp [addJacobian]
    · left; rfl

omit [Fact p.Prime] in
theorem bytes_origin (ks : Bytes) (j : Jac) (h : j = ⟨0, 0, 0⟩ ∨ j = ⟨0, 0, 1⟩) :
    let r := ks.foldl (fun q byte => byteLoop p ⟨0, 0, 1⟩ 8 byte q) j
    r = ⟨0, 0, 0⟩ ∨ r = ⟨0, 0, 1⟩ := by
  induction ks generalizing j with
  | nil => exact h
  | cons c ks ih => exact ih _ (byteLoop_origin 8 c j h)

theorem scalarMult_coords (hp2 : p ≠ 2) (q : (W).Point) (ks : Bytes) :
    scalarMult p (coordsOf q).1 (coordsOf q).2 ks = .ok (coordsOf (natOfBE ks • q)) := by
  unfold scalarMult
  cases q with
  | zero =>
    rw [← Affine.Point.zero_def, nsmul_zero, coords_zero]
    rcases bytes_origin (p := p) ks ⟨0, 0, 0⟩ (Or.inl rfl) with e | e
    · dsimp only at e ⊢
      rw [e]
      rfl
    · dsimp only at e ⊢
      rw [e]
      unfold affineFromJacobian
      rw [if_neg (by decide)]
      have h1 : ((1 : ℤ) : F) ≠ 0 := by simp
      obtain ⟨w, e, _⟩ := Num.modInverse_prime (Fact.out : p.Prime) 1 h1
      simp [e]
  | some x y h =>
    refine affine_of_rep (bytes_rep hp2 (some_rep x y h) ks ⟨0, 0, 0⟩ 0 ?_)
    rw [zero_nsmul]
    exact ⟨⟨le_refl _, p_pos⟩, Or.inl ⟨rfl, rfl⟩⟩

end Toku.Curve
