import Verif.Props.Keys
import Verif.Props.ScriptNum
import Verif.Props.Ecdsa
/-
Properties C15, C59 and C65 at the edges: which byte strings are taken as signatures, the conversion of script numbers to 32 bits, and the serialisation of keys whose coordinates are no
coordinates of points (a `PubKey` is a pair of numbers that anyone can fill in).
-/
namespace Toku.Props
open Toku Toku.Spec Toku.Curve Toku.Keys

/-- **C15**, for the counts of CHECKMULTISIG: `Int32` is the nearest number of 32 bits, and the number itself for all numbers read from the
stack. -/
theorem C15_int32 (n : ℤ) : (-2 ^ 31 ≤ ScriptNum.int32 n ∧ ScriptNum.int32 n < 2 ^ 31) ∧
    (∀ m : ℤ, -2 ^ 31 ≤ m ∧ m < 2 ^ 31 → |n - ScriptNum.int32 n| ≤ |n - m|) ∧
    ∀ v, ScriptNum.make v 4 = .ok n → ScriptNum.int32 n = n := by
  unfold ScriptNum.int32
  refine ⟨?_, ?_, ?_⟩
  · split
    · norm_num
    · split
      · norm_num
      · omega
  · intro m hm
    split
    · rw [abs_of_nonneg (by omega), abs_of_nonneg (by omega)]; omega
    · split
      · rw [abs_of_nonpos (by omega), abs_of_nonpos (by omega)]; omega
      · rw [sub_self, abs_zero]; exact abs_nonneg _
  · intro v h
    have := (C15_range n).mp ⟨v, h⟩
    rw [if_neg (by omega), if_neg (by omega)]

/-- Both kinds of script numbers: one that is cut and one that is not. -/
example : ScriptNum.int32 (2 ^ 40) = 2 ^ 31 - 1 ∧ ScriptNum.int32 (-2 ^ 31) = -2 ^ 31 ∧ ScriptNum.make [5] 4 = .ok 5 := by decide

private theorem length_gt_iff (n k : ℕ) : (natToBE n).length > k ↔ 256 ^ k ≤ n := by
  constructor
  · intro h
    by_contra hc
    have := natToBE_length_le (n := n) (k := k) (by omega)
    omega
  · intro h
    by_contra hc
    have h1 := natOfBE_lt (natToBE n)
    rw [natOfBE_natToBE] at h1
    have : 256 ^ (natToBE n).length ≤ 256 ^ k := Nat.pow_le_pow_right (by norm_num) (by omega)
    omega

private theorem pad32_panic (x : ℤ) : pad32 x = .panic ↔ 2 ^ 256 ≤ x.natAbs := by
  unfold pad32 intBytes
  dsimp only
  have := length_gt_iff x.natAbs 32
  rw [show (256 : ℕ) ^ 32 = 2 ^ 256 by norm_num] at this
  rw [← this]
  split
  · rename_i h; exact ⟨fun _ => h, fun _ => rfl⟩
  · rename_i h; exact ⟨(fun e => by cases e), (fun e => absurd e h)⟩

private theorem pad32_cases (x : ℤ) : pad32 x = .panic ∨ ∃ b, pad32 x = .ok b := by
  unfold pad32
  dsimp only
  split
  · exact .inl rfl
  · exact .inr ⟨_, rfl⟩

private theorem both_panic (x y : ℤ) (f : Bytes → Bytes → Bytes) :
    (pad32 x >>= fun xb => pad32 y >>= fun yb => Res.ok (f xb yb)) = .panic ↔ pad32 x = .panic ∨ pad32 y = .panic := by
  rcases pad32_cases x with h | ⟨a, h⟩ <;> rcases pad32_cases y with h' | ⟨b, h'⟩ <;> rw [h, h'] <;> simp

/-- **C59**, for pairs of numbers that are no points: serialising never gives an error, and it panics exactly when a coordinate that is
written does not fit: 32 bytes in the two long forms, but 33 in the compressed one. -/
theorem C59_panics_iff (p : PubKey) :
    (serializeUncompressed p = .panic ↔ 2 ^ 256 ≤ p.x.natAbs ∨ 2 ^ 256 ≤ p.y.natAbs) ∧
    (serializeHybrid p = .panic ↔ 2 ^ 256 ≤ p.x.natAbs ∨ 2 ^ 256 ≤ p.y.natAbs) ∧
    (serializeCompressed p = .panic ↔ 2 ^ 264 ≤ p.x.natAbs) := by
  refine ⟨?_, ?_, ?_⟩
  · rw [← pad32_panic, ← pad32_panic]
    exact both_panic p.x p.y fun xb yb => 4 :: (xb ++ yb)
  · rw [← pad32_panic, ← pad32_panic]
    exact both_panic p.x p.y fun xb yb => (if isOdd p.y then 7 else 6) :: (xb ++ yb)
  · unfold serializeCompressed secMarshal intBytes
    dsimp only
    have := length_gt_iff p.x.natAbs 33
    rw [show (256 : ℕ) ^ 33 = 2 ^ 264 by decide +kernel] at this
    rw [← this]
    split
    · rename_i h; exact ⟨fun _ => h, fun _ => rfl⟩
    · rename_i h; exact ⟨(fun e => by cases e), (fun e => absurd e h)⟩

/-- **C59**, in between: an x coordinate of 33 bytes is written over the format byte of the compressed form, without an error. -/
theorem C59_compressed_overwrites (p : PubKey) (h : 2 ^ 256 ≤ p.x.natAbs ∧ p.x.natAbs < 2 ^ 264) :
    ∃ bs, serializeCompressed p = .ok bs ∧ bs.length = 33 ∧ beNat bs = p.x.natAbs := by
  have h1 : (natToBE p.x.natAbs).length > 32 := (length_gt_iff _ 32).mpr (by rw [show (256 : ℕ) ^ 32 = 2 ^ 256 by norm_num]; exact h.1)
  have h2 : ¬ (natToBE p.x.natAbs).length > 33 := by
    rw [length_gt_iff, show (256 : ℕ) ^ 33 = 2 ^ 264 by decide +kernel]
    omega
  have h3 : (natToBE p.x.natAbs).length = 33 := by omega
  refine ⟨natToBE p.x.natAbs, ?_, h3, natOfBE_natToBE _⟩
  unfold serializeCompressed secMarshal intBytes
  dsimp only
  rw [if_neg h2, h3, Nat.sub_self, List.take_zero, List.nil_append]

/-- A key with the x coordinate 2^256 and the y coordinate 2: the compressed form begins with 1. -/
example : serializeCompressed ⟨2 ^ 256, 2⟩ = .ok (1 :: List.replicate 32 0) ∧ serializeUncompressed ⟨2 ^ 256, 2⟩ = .panic := by
  decide +kernel

/-- **C65**, exactly which byte strings (below 2 GiB) are taken for the pair (r, s): a SEQUENCE that begins with the two integers in DER, with
anything after them inside the sequence and anything after the sequence. -/
theorem C65_accepted_iff (bs : Bytes) (hl : bs.length < 2 ^ 31) (r s : ℤ) : Der.unmarshal bs = .ok (r, s) ↔
    ∃ rc sc re se extra whole trailing, IsInt r rc ∧ IsInt s sc ∧ Element 0x02 rc re ∧ Element 0x02 sc se ∧
      Element 0x30 (re ++ se ++ extra) whole ∧ bs = whole ++ trailing := by
  refine ⟨C65_accepted_partial bs r s, ?_⟩
  rintro ⟨rc, sc, re, se, extra, whole, trailing, hr, hs, er, es, ew, rfl⟩
  have l1 := Der.element_length er
  have l2 := Der.element_length es
  have l3 := Der.element_length ew
  simp only [List.length_append] at hl l3
  rw [Der.isInt_iff] at hr hs
  rw [Der.element_iff (by omega)] at er es
  rw [Der.element_iff (by simp only [List.length_append]; omega)] at ew
  subst hr hs er es ew
  rw [Der.unmarshal_iff]
  exact ⟨extra, trailing, by simp only [List.length_append]; omega, by rw [List.append_assoc]⟩

/-- A pair and a string with bytes at both places. -/
example : Der.unmarshal [0x30, 8, 2, 1, 1, 2, 1, 1, 5, 6, 7] = .ok (1, 1) := by decide +kernel

end Toku.Props
