import Verif.Proof.BufferFields
import Verif.Spec.Tx
/-
The model's writers produce the specified encodings.
-/
namespace Toku.Wire
open Toku.Spec Toku.Buffer

theorem le_length : ∀ k n, (le k n).length = k
  | 0, _ => rfl
  | k + 1, n => by simp [le, le_length k]

theorem leNat_le : ∀ k n, leNat (le k n) = n % 256 ^ k
  | 0, n => by simp [le, leNat, Nat.mod_one]
  | k + 1, n => by
    rw [le, leNat, leNat_le k, UInt8.toNat_ofNat', show (2:Nat)^8 = 256 from rfl, Nat.mod_mod, Nat.pow_succ,
      Nat.mul_comm (256^k) 256, Nat.mod_mul]

theorem le4 (v : UInt32) : le 4 v.toNat = le32 v := by
  apply leNat_inj (by rw [le_length]; rfl)
  rw [leNat_le, leNat_le32, Nat.mod_eq_of_lt]
  have := v.toNat_lt
  omega

theorem le8 (v : UInt64) : le 8 v.toNat = le64 v := by
  apply leNat_inj (by rw [le_length]; rfl)
  rw [leNat_le, leNat_le64, Nat.mod_eq_of_lt]
  have := v.toNat_lt
  omega

theorem compactSize_eq {n : Nat} (h : n < 2^64) : compactSize n = encVarInt (UInt64.ofNat n) := by
  have hn : (UInt64.ofNat n).toNat = n := by rw [UInt64.toNat_ofNat']; omega
  have e1 : (UInt64.ofNat n < 0xfd) ↔ n < 0xfd := by rw [UInt64.lt_iff_toNat_lt, hn]; rfl
  have e2 : (UInt64.ofNat n ≤ 0xffff) ↔ n < 0x10000 := by
    rw [UInt64.le_iff_toNat_le, hn]; show n ≤ 65535 ↔ _; omega
  have e3 : (UInt64.ofNat n ≤ 0xffffffff) ↔ n < 0x100000000 := by
    rw [UInt64.le_iff_toNat_le, hn]; show n ≤ 4294967295 ↔ _; omega
  unfold compactSize encVarInt
  by_cases h1 : n < 0xfd
  · rw [if_pos h1, if_pos (e1.mpr h1)]
    congr 1
    apply UInt8.toNat_inj.mp
    rw [UInt64.toNat_toUInt8, hn, UInt8.toNat_ofNat']
  · rw [if_neg h1, if_neg (fun q => h1 (e1.mp q))]
    by_cases h2 : n < 0x10000
    · rw [if_pos h2, if_pos (e2.mpr h2)]
      congr 1
      apply leNat_inj (by rw [le_length]; rfl)
      rw [leNat_le, leNat_le16, UInt64.toNat_toUInt32, hn]
      omega
    · rw [if_neg h2, if_neg (fun q => h2 (e2.mp q))]
      by_cases h3 : n < 0x100000000
      · rw [if_pos h3, if_pos (e3.mpr h3)]
        congr 1
        apply leNat_inj (by rw [le_length]; rfl)
        rw [leNat_le, leNat_le32, UInt64.toNat_toUInt32, hn]
      · rw [if_neg h3, if_neg (fun q => h3 (e3.mp q))]
        congr 1
        rw [← le8, hn]

theorem varStr_eq {b : Bytes} (h : b.length < 2^64) : varStr b = encVarBytes b := by
  unfold varStr encVarBytes
  rw [compactSize_eq h]

/-- A fold of writers appends the concatenation of what each writes. -/
theorem foldl_data {α : Type} (w : Buffer → α → Buffer) (enc : α → Bytes) :
    ∀ (l : List α) (b : Buffer), (∀ a ∈ l, ∀ b, (w b a).data = b.data ++ enc a) →
      (l.foldl w b).data = b.data ++ l.flatMap enc
  | [], b, _ => by simp
  | a :: l, b, h => by
    rw [List.foldl_cons, foldl_data w enc l _ (fun x hx => h x (List.mem_cons_of_mem _ hx)),
      h a List.mem_cons_self, List.flatMap_cons, List.append_assoc]

theorem le32_le4 (v : UInt32) : le32 v = le 4 v.toNat := (le4 v).symm
theorem le64_le8 (v : UInt64) : le64 v = le 8 v.toNat := (le8 v).symm

end Toku.Wire
