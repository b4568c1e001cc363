import Verif.Model.Pbkdf2
import Verif.Spec.Pbkdf2
import Mathlib.Data.List.GetD
import Mathlib.Tactic.Ring
/-
C74: PBKDF2.
-/
namespace Toku.Props
open Toku.Pbkdf2

section
variable (prf : Bytes → Bytes) (hashLen : Nat) (hprf : ∀ x, (prf x).length = hashLen)
include hprf

theorem inner_eq (salt int4 : Bytes) (k : Nat) : ∀ (j : Nat) (t : Bytes), t.length = hashLen →
    (∀ p < hashLen, t.getD p 0 = Spec.Pbkdf2.F prf salt (j + 1) int4 p) →
    (inner prf k (Spec.Pbkdf2.U prf salt int4 j, t)).2.length = hashLen ∧
    ∀ p < hashLen, (inner prf k (Spec.Pbkdf2.U prf salt int4 j, t)).2.getD p 0 =
      Spec.Pbkdf2.F prf salt (j + 1 + k) int4 p := by
  induction k with
  | zero => intro j t hl h; exact ⟨hl, h⟩
  | succ k ih =>
    intro j t hl h
    have hx : (xorBytes t (Spec.Pbkdf2.U prf salt int4 (j + 1))).length = hashLen := by
      rw [xorBytes, List.length_zipWith, hl, Spec.Pbkdf2.U, hprf, Nat.min_self]
    have := ih (j + 1) (xorBytes t (Spec.Pbkdf2.U prf salt int4 (j + 1))) hx (by
      intro p hp
      have e : (xorBytes t (Spec.Pbkdf2.U prf salt int4 (j + 1))).getD p 0 =
          t.getD p 0 ^^^ (Spec.Pbkdf2.U prf salt int4 (j + 1)).getD p 0 := by
        have h2 : p < (Spec.Pbkdf2.U prf salt int4 (j + 1)).length := by rw [Spec.Pbkdf2.U, hprf]; exact hp
        rw [List.getD_eq_getElem _ _ (by omega), List.getD_eq_getElem _ _ (by omega), List.getD_eq_getElem _ _ h2]
        simp [xorBytes]
      rw [e, h p hp]
      conv_rhs => rw [Spec.Pbkdf2.F, List.range_succ, List.foldl_append]
      rfl)
    rw [show j + 1 + 1 + k = j + 1 + (k + 1) by omega] at this
    exact this

/-- One block of the outer loop. -/
theorem block_eq (salt int4 : Bytes) (iter : Int) :
    ((inner prf (iter - 1).toNat (prf (salt ++ int4), prf (salt ++ int4))).2).length = hashLen ∧
    ∀ p < hashLen, ((inner prf (iter - 1).toNat (prf (salt ++ int4), prf (salt ++ int4))).2).getD p 0 =
      Spec.Pbkdf2.F prf salt (max iter 1).toNat int4 p := by
  have := inner_eq prf hashLen hprf salt int4 (iter - 1).toNat 0 (prf (salt ++ int4)) (hprf _) (by
    intro p _
    simp [Spec.Pbkdf2.F, Spec.Pbkdf2.U])
  rw [show 0 + 1 + (iter - 1).toNat = (max iter 1).toNat by omega] at this
  exact this

theorem outer_eq (salt : Bytes) (iter : Int) (n : Nat) : ∀ (block : Nat) (dk : Bytes),
    dk.length = block * hashLen → (∀ q < dk.length, dk.getD q 0 = Spec.Pbkdf2.byte prf hashLen salt (max iter 1).toNat q) →
    (outer prf salt iter n (block + 1) dk).length = (block + n) * hashLen ∧
    ∀ q < (block + n) * hashLen, (outer prf salt iter n (block + 1) dk).getD q 0 =
      Spec.Pbkdf2.byte prf hashLen salt (max iter 1).toNat q := by
  induction n with
  | zero => intro block dk hl h; exact ⟨hl, fun q hq => h q (by rw [hl]; exact hq)⟩
  | succ n ih =>
    intro block dk hl h
    rw [outer]
    obtain ⟨h1, h2⟩ := block_eq prf hashLen hprf salt (blockBytes (block + 1)) iter
    generalize (inner prf (iter - 1).toNat _).2 = t at h1 h2 ⊢
    have := ih (block + 1) (dk ++ t) (by rw [List.length_append, hl, h1]; ring) (by
      intro q hq
      rw [List.length_append, hl, h1] at hq
      by_cases hd : q < dk.length
      · rw [List.getD_append _ _ _ _ hd]; exact h q hd
      · rw [List.getD_append_right _ _ _ _ (by omega), h2 _ (by omega)]
        have hp : 0 < hashLen := by omega
        have hq1 : q = (q - dk.length) + hashLen * block := by rw [hl, Nat.mul_comm block] at *; omega
        have ed : q / hashLen = block := by
          rw [hq1, Nat.add_mul_div_left _ _ hp, Nat.div_eq_of_lt (by omega), Nat.zero_add]
        have em : q % hashLen = q - dk.length := by
          conv_lhs => rw [hq1, Nat.add_mul_mod_self_left]
          exact Nat.mod_eq_of_lt (by omega)
        unfold Spec.Pbkdf2.byte
        rw [ed, em]
        rfl)
    rw [show block + 1 + n = block + (n + 1) by omega] at this
    exact this

/-- **C74.** For every PRF with outputs of `hashLen > 0` bytes, password (in the PRF), salt, iteration count
and length (up to 2^62), `Key` returns exactly `keyLen` bytes, and byte `q` is the RFC 2898 byte with
iteration count `max(iter, 1)`. (The RFC stops at `(2^32 - 1) * hashLen` bytes; beyond that the block number
is taken modulo 2^32 on both sides.) -/
theorem C74_rfc2898 (hpos : 0 < hashLen) (salt : Bytes) (iter : Int) (keyLen : Nat)
    (hk2 : keyLen + hashLen < 2^62) :
    ∃ dk, key prf hashLen salt iter keyLen = .ok dk ∧ dk.length = keyLen ∧
      ∀ q < keyLen, dk.getD q 0 = Spec.Pbkdf2.byte prf hashLen salt (max iter 1).toNat q := by
  unfold key
  rw [if_neg (by omega)]
  dsimp only
  rw [wrap64_of_range (x := (keyLen : Int) + hashLen) (by omega) (by omega),
    wrap64_of_range (x := (keyLen : Int) + hashLen - 1) (by omega) (by omega)]
  have hn : ((keyLen : Int) + hashLen - 1).tdiv hashLen = (((keyLen + hashLen - 1) / hashLen : Nat) : Int) := by
    rw [Int.tdiv_eq_ediv_of_nonneg (by omega), show (keyLen : Int) + hashLen - 1 = ((keyLen + hashLen - 1 : Nat) : Int) by omega]
    rfl
  rw [hn]
  set n := (keyLen + hashLen - 1) / hashLen with hnd
  have hm := Nat.div_add_mod (keyLen + hashLen - 1) hashLen
  have hml := Nat.mod_lt (keyLen + hashLen - 1) hpos
  rw [← hnd, Nat.mul_comm] at hm
  have hle : keyLen ≤ n * hashLen := by omega
  have hub : n * hashLen < 2^62 := by omega
  rw [wrap64_of_range (by have : ((n : Int) * hashLen) = ((n * hashLen : Nat) : Int) := by push_cast; rfl
                          omega) (by
                          have : ((n : Int) * hashLen) = ((n * hashLen : Nat) : Int) := by push_cast; rfl
                          omega),
    if_neg (by have : ((n : Int) * hashLen) = ((n * hashLen : Nat) : Int) := by push_cast; rfl
               omega)]
  obtain ⟨h1, h2⟩ := outer_eq prf hashLen hprf salt iter n 0 [] (by simp) (by simp)
  rw [Nat.zero_add] at h1 h2
  rw [Int.toNat_natCast, if_neg (by rw [Nat.zero_add] at h1; omega), Int.toNat_natCast]
  refine ⟨_, rfl, by rw [List.length_take]; rw [Nat.zero_add] at h1; omega, ?_⟩
  intro q hq
  rw [← h2 q (by omega)]
  simp only [List.getD_eq_getElem?_getD]
  rw [List.getElem?_take_of_lt hq]

end

/-- Two blocks, three iterations, of a toy PRF. -/
example : key (fun x => [UInt8.ofNat x.length, x.getD 0 7 + 1]) 2 [1, 2, 3] 3 3 =
    .ok [7 ^^^ 2 ^^^ 2, 2 ^^^ 8 ^^^ 3, 7 ^^^ 2 ^^^ 2] := by decide +kernel

end Toku.Props
