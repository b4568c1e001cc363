import Verif.Proof.Witness
import Verif.Spec.Bits
import Verif.Model.Id
/-
Bit streams by value and length; hexadecimal and reversal lemmas.
-/
namespace Toku
open Toku.Spec Toku.Witness

theorem bitsOf_succ (w n : Nat) : bitsOf (w + 1) n = n.testBit w :: bitsOf w n := by
  unfold bitsOf
  rw [List.range_succ_eq_map, List.map_cons, List.map_map]
  congr 1
  apply List.map_congr_left
  intro i _
  simp only [Function.comp]
  congr 1; omega

theorem bitsOf_length (w n : Nat) : (bitsOf w n).length = w := by simp [bitsOf]

/-- value of a bit list -/
def bval (l : List Bool) : Nat := valBE 2 (l.map Bool.toNat)

theorem bval_append (l m : List Bool) : bval (l ++ m) = bval l * 2^m.length + bval m := by
  simp [bval, valBE_append]

theorem bval_bitsOf (w n : Nat) : bval (bitsOf w n) = n % 2^w := by
  induction w with
  | zero => simp [bitsOf, bval, valBE, Nat.mod_one]
  | succ w ih =>
    rw [bitsOf_succ, show n.testBit w :: bitsOf w n = [n.testBit w] ++ bitsOf w n from rfl, bval_append, ih,
      bitsOf_length, Nat.mod_pow_succ]
    have : bval [n.testBit w] = n / 2^w % 2 := by
      simp only [bval, valBE, List.map_cons, List.map_nil, List.foldl_cons, List.foldl_nil]
      rw [Nat.testBit_eq_decide_div_mod_eq]
      rcases Nat.mod_two_eq_zero_or_one (n / 2^w) with h | h <;> simp [h]
    rw [this]; ring

theorem bitStream_length (w : Nat) (l : Bytes) : (bitStream w l).length = l.length * w := by
  induction l with
  | nil => simp [bitStream]
  | cons b l ih =>
    simp only [bitStream, List.flatMap_cons, List.length_append, bitsOf_length, List.length_cons] at ih ⊢
    rw [ih]; ring

theorem bval_bitStream (w : Nat) (l : Bytes) (h : ∀ b ∈ l, b.toNat < 2^w) : bval (bitStream w l) = valW w l := by
  induction l with
  | nil => simp [bitStream, bval, valW, valBE]
  | cons b l ih =>
    have hb := h b (by simp)
    have := ih (fun x hx => h x (by simp [hx]))
    have e : bitStream w (b :: l) = bitsOf w b.toNat ++ bitStream w l := by simp [bitStream]
    rw [e, bval_append, bval_bitsOf, Nat.mod_eq_of_lt hb, this, bitStream_length,
      show b :: l = [b] ++ l from rfl, valW_append, valW_singleton, ← Nat.pow_mul, Nat.mul_comm l.length]

theorem bval_replicate (p : Nat) : bval (List.replicate p false) = 0 := by
  induction p with
  | zero => rfl
  | succ p ih =>
    rw [List.replicate_succ, show false :: List.replicate p false = [false] ++ List.replicate p false from rfl,
      bval_append, ih]
    simp [bval, valBE]

theorem bval_inj {l m : List Bool} (hl : l.length = m.length) (h : bval l = bval m) : l = m := by
  induction l generalizing m with
  | nil => cases m <;> simp_all
  | cons a l ih =>
    cases m with
    | nil => simp at hl
    | cons b m =>
      have hlen : l.length = m.length := by simpa using hl
      have lt : ∀ x : List Bool, bval x < 2^x.length := by
        intro x
        have := valBE_lt (b := 2) (by omega) (l := x.map Bool.toNat) (by
          intro d hd
          obtain ⟨c, _, rfl⟩ := List.mem_map.mp hd
          cases c <;> simp)
        simpa [bval] using this
      rw [show a :: l = [a] ++ l from rfl, show b :: m = [b] ++ m from rfl, bval_append, bval_append, hlen] at h
      have h1 := lt l
      have h2 := lt m
      rw [hlen] at h1
      have hab : bval [a] = bval [b] := by
        have e1 : (bval [a] * 2^m.length + bval l) / 2^m.length = bval [a] := by
          rw [Nat.mul_comm, Nat.mul_add_div (Nat.two_pow_pos _), Nat.div_eq_of_lt h1, Nat.add_zero]
        have e2 : (bval [b] * 2^m.length + bval m) / 2^m.length = bval [b] := by
          rw [Nat.mul_comm, Nat.mul_add_div (Nat.two_pow_pos _), Nat.div_eq_of_lt h2, Nat.add_zero]
        rw [← e1, ← e2, h]
      rw [hab] at h
      have hlm : l = m := ih hlen (by omega)
      have : a = b := by cases a <;> cases b <;> simp_all [bval, valBE]
      rw [this, hlm]

theorem convert_pad_bits (data : Bytes) : ∃ q p, convertBits data 8 5 true = .ok q ∧ p < 5 ∧
    (∀ b ∈ q, b.toNat < 32) ∧ bitStream 5 q = bitStream 8 data ++ List.replicate p false := by
  obtain ⟨q, p, e, hp, hl, hv, hlt⟩ := convert_pad (fw := 8) (tw := 5) (by omega) (by omega) (by omega)
    (by omega) rfl data (bytes_lt data)
  refine ⟨q, p, e, hp, hlt, ?_⟩
  apply bval_inj
  · simp [bitStream_length, hl]
  · rw [bval_append, bval_replicate, bval_bitStream 5 q hlt, bval_bitStream 8 data (bytes_lt data), hv]
    simp

end Toku

namespace Toku.Id
open Toku.Spec

theorem swapLoop_length (size : Nat) : ∀ (k i : Nat) (h : Bytes), (swapLoop size k i h).length = h.length := by
  intro k
  induction k with
  | zero => intro i h; rfl
  | succ k ih => intro i h; unfold swapLoop; rw [ih]; simp

theorem swapLoop_get (size : Nat) : ∀ (k i : Nat) (h : Bytes), h.length = size → i + k ≤ size / 2 →
    ∀ j, j < size → (swapLoop size k i h).getD j 0 =
      if (i ≤ j ∧ j < i + k) ∨ (i ≤ size - 1 - j ∧ size - 1 - j < i + k) then h.getD (size - 1 - j) 0
      else h.getD j 0 := by
  intro k
  induction k with
  | zero => intro i h _ _ j _; rw [if_neg (by omega)]; rfl
  | succ k ih =>
    intro i h hl hk j hj
    unfold swapLoop
    have setD : ∀ (l : Bytes) (a b : Nat) (x : UInt8), b < l.length →
        (l.set a x).getD b 0 = if a = b then x else l.getD b 0 := by
      intro l a b x hb
      simp only [List.getD_eq_getElem?_getD, List.getElem?_set]
      by_cases hab : a = b
      · subst hab; simp [hb]
      · simp [hab]
    set h' := (h.set i (h.getD (size - 1 - i) 0)).set (size - 1 - i) (h.getD i 0) with hh'
    have hl' : h'.length = size := by simp [hh', hl]
    have g : ∀ j, j < size → h'.getD j 0 = if j = i ∨ j = size - 1 - i then h.getD (size - 1 - j) 0 else h.getD j 0 := by
      intro j hj
      rw [hh', setD _ _ _ _ (by simp [hl]; exact hj), setD _ _ _ _ (by rw [hl]; exact hj)]
      by_cases h1 : size - 1 - i = j
      · rw [if_pos h1, if_pos (by omega)]
        congr 1; omega
      · rw [if_neg h1]
        by_cases h2 : i = j
        · rw [if_pos h2, if_pos (by omega), h2]
        · rw [if_neg h2, if_neg (by omega)]
    rw [ih (i + 1) h' hl' (by omega) j hj, g j hj, g (size - 1 - j) (by omega)]
    by_cases c1 : (i + 1 ≤ j ∧ j < i + 1 + k) ∨ (i + 1 ≤ size - 1 - j ∧ size - 1 - j < i + 1 + k)
    · rw [if_pos c1, if_neg (by omega), if_pos (by omega)]
    · rw [if_neg c1]
      by_cases c2 : j = i ∨ j = size - 1 - i
      · rw [if_pos c2, if_pos (by omega)]
      · rw [if_neg c2, if_neg (by omega)]

theorem swapLoop_reverse (h : Bytes) : swapLoop h.length (h.length / 2) 0 h = h.reverse := by
  apply List.ext_getElem
  · simp [swapLoop_length]
  · intro j h1 h2
    rw [swapLoop_length] at h1
    have := swapLoop_get h.length (h.length / 2) 0 h rfl (by omega) j h1
    have e : (swapLoop h.length (h.length / 2) 0 h)[j] = (swapLoop h.length (h.length / 2) 0 h).getD j 0 := by
      simp [List.getD_eq_getElem?_getD, swapLoop_length, h1]
    have e2 : ∀ i, (hi : i < h.length) → h.getD i 0 = h[i] := by
      intro i hi; simp [List.getD_eq_getElem?_getD, hi]
    rw [e, this, List.getElem_reverse]
    split
    · rw [e2]
    · rename_i hc
      rw [e2 j h1]
      congr 1; omega

theorem fromHex_digit (n : Nat) (h : n < 16) : fromHexChar (hexDigit n) = some n := by
  have : ∀ n : Fin 16, fromHexChar (hexDigit n.val) = some n.val := by decide +kernel
  exact this ⟨n, h⟩

theorem hexDecode_encode (b : Bytes) : hexDecode (hexEncode b) = .ok b := by
  induction b with
  | nil => rfl
  | cons a b ih =>
    have ha := a.toNat_lt
    unfold hexEncode hexDecode
    rw [fromHex_digit _ (by omega), fromHex_digit _ (by omega)]
    simp only
    rw [ih, Res.ok_bind]
    have : a.toNat / 16 * 16 + a.toNat % 16 = a.toNat := by omega
    simp [this]

theorem hexChar_iff : ∀ c : UInt8, (fromHexChar c).isSome = true ↔ IsHexChar c := by
  apply Base58.forall_uint8
  unfold IsHexChar
  decide +kernel

theorem hexDigit_fromHex : ∀ c : UInt8, ∀ x, fromHexChar c = some x → x < 16 ∧ hexDigit x = lowerAscii c := by
  have : ∀ c : UInt8, ((fromHexChar c).all fun x => decide (x < 16) && (hexDigit x == lowerAscii c)) = true := by
    apply Base58.forall_uint8; decide +kernel
  intro c x h
  have := this c
  rw [h] at this
  simpa using this

end Toku.Id
