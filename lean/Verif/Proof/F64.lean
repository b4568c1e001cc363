import Verif.Model.Estimate
import Mathlib.Tactic.Linarith
import Mathlib.Tactic.Ring
import Mathlib.Algebra.Order.Field.Power
import Mathlib.Tactic.FieldSimp
import Mathlib.Tactic.Positivity
import Mathlib.Tactic.NormNum
/-
Rounding to doubles.
-/
namespace Toku.F64

theorem roundEven_near (x : ℚ) : |(roundEven x : ℚ) - x| ≤ 1 / 2 := by
  have h1 := Int.floor_le x
  have h2 := Int.lt_floor_add_one x
  unfold roundEven
  split
  · rw [abs_le]; constructor <;> linarith
  split
  · push_cast; rw [abs_le]; constructor <;> linarith
  split
  · rw [abs_le]; constructor <;> linarith
  · push_cast; rw [abs_le]; constructor <;> linarith

theorem roundEven_int (n : ℤ) : roundEven (n : ℚ) = n := by
  unfold roundEven
  rw [Int.floor_intCast]
  simp

theorem roundEven_nonneg {x : ℚ} (h : 0 ≤ x) : 0 ≤ roundEven x := by
  have : 0 ≤ ⌊x⌋ := Int.floor_nonneg.mpr h
  unfold roundEven
  split
  · exact this
  split
  · omega
  split <;> omega

theorem roundPos_near {x : ℚ} (h : 0 < x) : |roundPos x - x| ≤ x / 2 ^ 53 := by
  unfold roundPos
  set e := Int.log 2 x - 52 with he
  have hp : (0 : ℚ) < 2 ^ e := by positivity
  have hl : (2 : ℚ) ^ Int.log 2 x ≤ x := Int.zpow_log_le_self (b := 2) (by norm_num) h
  have hn := roundEven_near (x / 2 ^ e)
  have : (roundEven (x / 2 ^ e) : ℚ) * 2 ^ e - x = ((roundEven (x / 2 ^ e) : ℚ) - x / 2 ^ e) * 2 ^ e := by
    field_simp
  rw [this, abs_mul, abs_of_pos hp]
  have h2 : (2 : ℚ) ^ e = 2 ^ Int.log 2 x / 2 ^ 52 := by
    rw [he, zpow_sub₀ (by norm_num)]
    norm_cast
  calc |(roundEven (x / 2 ^ e) : ℚ) - x / 2 ^ e| * 2 ^ e ≤ 1 / 2 * 2 ^ e := by
        exact mul_le_mul_of_nonneg_right hn hp.le
    _ = 2 ^ Int.log 2 x / 2 ^ 53 := by rw [h2]; ring
    _ ≤ x / 2 ^ 53 := by gcongr

theorem roundPos_nonneg {x : ℚ} (h : 0 < x) : 0 ≤ roundPos x := by
  unfold roundPos
  have : 0 ≤ roundEven (x / 2 ^ (Int.log 2 x - 52)) := roundEven_nonneg (by positivity)
  positivity

theorem nearest_near {x : ℚ} (h : 0 ≤ x) : |nearest x - x| ≤ x / 2 ^ 53 := by
  unfold nearest
  split
  · rename_i e; subst e; simp
  · rename_i e
    have hp : 0 < x := lt_of_le_of_ne h (Ne.symm e)
    rw [if_pos hp]
    exact roundPos_near hp

theorem nearest_nonneg {x : ℚ} (h : 0 ≤ x) : 0 ≤ nearest x := by
  unfold nearest
  split
  · exact le_refl _
  · rename_i e
    have hp : 0 < x := lt_of_le_of_ne h (Ne.symm e)
    rw [if_pos hp]
    exact roundPos_nonneg hp

/-- integers below 2^53 are doubles -/
theorem nearest_small {n : ℕ} (h : n < 2^53) : nearest (n : ℚ) = n := by
  unfold nearest
  split
  · rename_i e; rw [e]
  · rename_i e
    have hp : (0 : ℚ) < n := lt_of_le_of_ne (Nat.cast_nonneg n) (Ne.symm e)
    rw [if_pos hp]
    unfold roundPos
    rw [Int.log_natCast]
    have hn : n ≠ 0 := by rintro rfl; simp at e
    have hl : Nat.log 2 n < 53 := Nat.log_lt_of_lt_pow hn h
    obtain ⟨k, hk⟩ : ∃ k : ℕ, (Nat.log 2 n : ℤ) - 52 = -(k : ℤ) := ⟨52 - Nat.log 2 n, by omega⟩
    rw [hk, zpow_neg, zpow_natCast, div_inv_eq_mul]
    have : (n : ℚ) * 2 ^ k = ((n * 2 ^ k : ℤ) : ℚ) := by push_cast; ring
    rw [this, roundEven_int]
    push_cast
    field_simp

end Toku.F64

namespace Toku.Estimate
open Toku.F64

theorem fees_range (s r : ℤ) (hs : 0 ≤ s) : 0 ≤ fees s r ∨ fees s r = -2^63 := by
  unfold fees
  split
  · rename_i hr
    have h1 : 0 ≤ nearest (r : ℚ) := nearest_nonneg (by exact_mod_cast hr.le)
    have h2 : 0 ≤ nearest (s : ℚ) := nearest_nonneg (by exact_mod_cast hs)
    have h3 : 0 ≤ nearest (nearest (r : ℚ) / 1000) := nearest_nonneg (by positivity)
    have h4 : 0 ≤ nearest (nearest (nearest (r : ℚ) / 1000) * nearest (s : ℚ)) := nearest_nonneg (by positivity)
    unfold toInt64
    rw [if_pos h4]
    dsimp only
    split
    · left; exact Int.floor_nonneg.mpr h4
    · right; rfl
  · left; exact le_refl _

theorem fees_near (s r : ℕ) (hr : 0 < r) (h1 : s < 2^53) (h2 : r < 2^53) (h3 : r * s < 1000 * 2^50) :
    |fees s r - (r * s / 1000 : ℕ)| ≤ 1 := by
  unfold fees
  rw [if_pos (by exact_mod_cast hr)]
  rw [show ((r : ℤ) : ℚ) = (r : ℚ) by push_cast; rfl, show ((s : ℤ) : ℚ) = (s : ℚ) by push_cast; rfl]
  rw [nearest_small h1, nearest_small h2]
  have hr0 : (0 : ℚ) ≤ r := Nat.cast_nonneg r
  have hs0 : (0 : ℚ) ≤ s := Nat.cast_nonneg s
  have a1 := nearest_near (x := (r : ℚ) / 1000) (by positivity)
  have a0 : 0 ≤ nearest ((r : ℚ) / 1000) := nearest_nonneg (by positivity)
  set a := nearest ((r : ℚ) / 1000) with ha
  have b1 := nearest_near (x := a * s) (by positivity)
  have b0 : 0 ≤ nearest (a * s) := nearest_nonneg (by positivity)
  set b := nearest (a * s) with hb
  have h3' : (r : ℚ) * s < 1000 * 2^50 := by exact_mod_cast h3
  set x := (r : ℚ) * s / 1000 with hx
  have hx50 : x < 2^50 := by rw [hx]; linarith
  have hx0 : 0 ≤ x := by rw [hx]; positivity
  have c1 : |a * s - x| ≤ x / 2 ^ 53 := by
    have : a * s - x = (a - r / 1000) * s := by rw [hx]; ring
    rw [this, abs_mul, abs_of_nonneg hs0]
    calc |a - r / 1000| * s ≤ (r / 1000 / 2 ^ 53) * s := by gcongr
      _ = x / 2 ^ 53 := by rw [hx]; ring
  rw [abs_le] at b1 c1
  have d1 : b ≤ x + 1 / 2 := by
    have := b1.2
    have := c1.2
    norm_num at *
    linarith
  have d2 : x - 1 / 2 ≤ b := by
    have := b1.1
    have := c1.1
    have := c1.2
    norm_num at *
    linarith
  have e1 : (r * s / 1000 : ℕ) = ⌊x⌋ := by
    rw [hx, ← Nat.cast_mul, show (1000 : ℚ) = ((1000 : ℕ) : ℚ) by norm_num]
    exact (Rat.floor_natCast_div_natCast _ _).symm
  have e2 := Int.floor_le x
  have e3 := Int.lt_floor_add_one x
  have f2 := Int.floor_le b
  have f3 := Int.lt_floor_add_one b
  have hbr : ⌊b⌋ < 2^63 := by
    have : (⌊b⌋ : ℚ) < 2^63 := by norm_num at *; linarith
    exact_mod_cast this
  have hb0 : 0 ≤ ⌊b⌋ := Int.floor_nonneg.mpr b0
  unfold toInt64
  rw [if_pos b0]
  dsimp only
  rw [if_pos ⟨by omega, hbr⟩, e1]
  have g1 : (⌊b⌋ : ℚ) < ⌊x⌋ + 2 := by linarith
  have g2 : (⌊x⌋ : ℚ) < ⌊b⌋ + 2 := by linarith
  have g1' : ⌊b⌋ < ⌊x⌋ + 2 := by exact_mod_cast g1
  have g2' : ⌊x⌋ < ⌊b⌋ + 2 := by exact_mod_cast g2
  rw [abs_le]; omega

end Toku.Estimate
