import Verif.Proof.ScriptNum
/-
Properties C14 and C15: script numbers (xvm/scriptnum.go).
-/
namespace Toku.Props
open Toku Toku.Spec

/-- **C14 (partial).** Full statement: for every int64 the bytes decode back. Missing: the least int64,
on which the encoder panics (`C14_min_panics`). -/
theorem C14_roundtrip_partial (n : Int) (h1 : -2^63 < n) (h2 : n < 2^63) :
    ∃ v, ScriptNum.bytes n = .ok v ∧ v.length ≤ 8 ∧ ScriptNum.make v 8 = .ok n := by
  obtain ⟨v, e, hm, h8, hv⟩ := ScriptNum.bytes_spec h1 h2
  exact ⟨v, e, h8, by rw [ScriptNum.make_ok h8 h8 hm, hv]⟩

/-- **C14, negation.** The encoder panics on the least int64. -/
theorem C14_min_panics : ScriptNum.bytes (-2^63) = .panic := ScriptNum.bytes_min

/-- **C14.** Zero is the empty string, and only zero. -/
theorem C14_zero_empty (n : Int) (h1 : -2^63 < n) (h2 : n < 2^63) : ScriptNum.bytes n = .ok [] ↔ n = 0 := by
  constructor
  · intro h
    obtain ⟨v, e, hm, h8, hv⟩ := ScriptNum.bytes_spec h1 h2
    rw [h] at e; cases e
    rw [← hv, ScriptNum.value_nil]
  · rintro rfl; exact ScriptNum.bytes_zero

/-- **C14.** The encoding is little-endian sign and magnitude: the last byte's top bit is the sign, the
remaining bits are the absolute value. -/
theorem C14_sign_magnitude (n : Int) (h1 : -2^63 < n) (h2 : n < 2^63) (h0 : n ≠ 0) :
    ∃ i l, ScriptNum.bytes n = .ok (i ++ [l]) ∧ (n < 0 ↔ 128 ≤ l.toNat) ∧
      n.natAbs = leNat i + 256 ^ i.length * (l.toNat % 128) := by
  obtain ⟨v, e, hm, h8, hv⟩ := ScriptNum.bytes_spec h1 h2
  rcases ScriptNum.nil_or_snoc v with rfl | ⟨i, l, rfl⟩
  · rw [ScriptNum.value_nil] at hv; omega
  · refine ⟨i, l, e, ?_⟩
    have hb := l.toNat_lt
    rw [ScriptNum.value_append] at hv
    by_cases h : l.toNat < 128
    · rw [if_pos h] at hv
      rw [Nat.mod_eq_of_lt h]
      omega
    · rw [if_neg h] at hv
      rw [show l.toNat % 128 = l.toNat - 128 by omega]
      constructor <;> omega

/-- **C15.** With a limit of 1 to 8 bytes a byte string is accepted as `n` exactly when it is the
encoding of `n` and within the limit. -/
theorem C15_accepts_iff (v : Bytes) (L : Nat) (hL : L ≤ 8) (n : Int) :
    ScriptNum.make v L = .ok n ↔ v.length ≤ L ∧ -2^63 < n ∧ n < 2^63 ∧ ScriptNum.bytes n = .ok v := by
  constructor
  · intro h
    by_cases hl : v.length ≤ L
    · by_cases hm : ScriptNum.Minimal v
      · rw [ScriptNum.make_ok hl (by omega) hm] at h
        cases h
        exact ⟨hl, (ScriptNum.value_bound (by omega)).1, (ScriptNum.value_bound (by omega)).2,
          ScriptNum.bytes_value (by omega) hm⟩
      · rw [ScriptNum.make_bad hl hm] at h; cases h
    · rw [ScriptNum.make_long (by omega)] at h; cases h
  · rintro ⟨hl, h1, h2, hb⟩
    obtain ⟨v', e, hm, h8, hv⟩ := ScriptNum.bytes_spec h1 h2
    rw [hb] at e; cases e
    rw [ScriptNum.make_ok hl (by omega) hm, hv]

/-- **C15.** Different byte strings never decode to the same number. -/
theorem C15_injective (v w : Bytes) (L : Nat) (hL : L ≤ 8) (n : Int) (hv : ScriptNum.make v L = .ok n)
    (hw : ScriptNum.make w L = .ok n) : v = w := by
  obtain ⟨_, _, _, a⟩ := (C15_accepts_iff v L hL n).mp hv
  obtain ⟨_, _, _, b⟩ := (C15_accepts_iff w L hL n).mp hw
  rw [a] at b; cases b; rfl

/-- **C15.** With the stack limit of four bytes the accepted numbers are exactly -(2^31-1) .. 2^31-1. -/
theorem C15_range (n : Int) : (∃ v, ScriptNum.make v 4 = .ok n) ↔ -(2^31 - 1) ≤ n ∧ n ≤ 2^31 - 1 := by
  constructor
  · rintro ⟨v, h⟩
    obtain ⟨hl, h1, h2, hb⟩ := (C15_accepts_iff v 4 (by omega) n).mp h
    obtain ⟨v', e, hm, h8, hv⟩ := ScriptNum.bytes_spec h1 h2
    rw [hb] at e; cases e
    have := (ScriptNum.length_le_iff hm 4 (by omega)).mp hl
    rw [hv] at this
    norm_num at this; omega
  · intro h
    obtain ⟨v, e, hm, h8, hv⟩ := ScriptNum.bytes_spec (n := n) (by omega) (by omega)
    refine ⟨v, (C15_accepts_iff v 4 (by omega) n).mpr ⟨?_, by omega, by omega, e⟩⟩
    rw [ScriptNum.length_le_iff hm 4 (by omega), hv]
    norm_num; omega

/-- **C15.** Rejection is an error, never a panic. -/
theorem C15_total (v : Bytes) (L : Nat) : ScriptNum.make v L ≠ .panic := by
  by_cases hl : v.length ≤ L
  · by_cases hm : ScriptNum.Minimal v
    · unfold ScriptNum.make
      rw [if_neg (by omega), (ScriptNum.checkMinimal_iff v).mpr hm, Res.ok_bind]
      split
      · simp
      · simp only []
        split <;> simp
    · rw [ScriptNum.make_bad hl hm]; simp
  · rw [ScriptNum.make_long (by omega)]; simp

example : ScriptNum.bytes (-255) = .ok [0xff, 0x80] := by decide +kernel
example : ScriptNum.make [0xff, 0x80] 4 = .ok (-255) := by decide +kernel
example : ScriptNum.make [0x7f, 0x00] 4 = .err ScriptNum.notMinimal := by decide +kernel
example : ScriptNum.make [0x80] 4 = .err ScriptNum.notMinimal := by decide +kernel

end Toku.Props
