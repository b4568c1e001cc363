import Verif.Proof.SliceCrypto
import Verif.Model.Sha
/-
Properties C106 and C107: the nonce and the derived key computed in shared memory.
-/
namespace Toku.Props
open Toku
open Toku.Slices (Heap Slice Ok elems capacity array array_push_new array_push elems_length elems_take)

/-! ### C106 -/

/-- **C106.** The nonce function writes each hash over a slice it has just read, and appends to a slice it goes on using. Whatever
spare capacity the slices have, it gives the nonce of RFC 6979 as computed on values, and the memory of the caller, the hash of
the message among it, keeps its bytes. -/
theorem C106_nonce [Hashes] (g : SliceCrypto.Grow) (q fuel x : ℕ) (h : Heap UInt8) (hash : Slice) (hok : Ok h hash) :
    (SliceCrypto.nonce g q fuel x h hash).2 = Ecdsa.nonce q fuel x (elems h hash) ∧
    ∀ t, Ok h t → elems (SliceCrypto.nonce g q fuel x h hash).1 t = elems h t :=
  have r := SliceCrypto.nonce_facts (g := g) (q := q) (fuel := fuel) (x := x) hok
  ⟨r.1, fun t ht => (r.2.2 t ht).2⟩

/-- The nonce for key 1 and a hash within a larger array; `v` and `k` get spare capacity, so that the message of the second HMAC is
built behind `v` in the same array. -/
example :
    let h : Heap UInt8 := [List.replicate 40 7]
    let r := @SliceCrypto.nonce Sha.realHashes (fun _ => List.replicate 100 0xee) Curve.N 1 1 h ⟨0, 4, 32⟩
    Ok h ⟨0, 4, 32⟩ ∧ r.2 = @Ecdsa.nonce Sha.realHashes Curve.N 1 1 (List.replicate 32 7) ∧ r.2.isSome ∧ r.1.getD 0 [] = List.replicate 40 7 ∧
    (r.1.getD 2 []).getD 32 0 = 1 ∧ (r.1.getD 2 []).getD 100 0 = 0xee ∧ (r.1.getD 2 []).getD 64 0 = 1 := by
  unfold Ok
  decide +kernel

/-! ### C107 -/

private theorem wrap_range (x : ℤ) : -2 ^ 63 ≤ wrap64 x ∧ wrap64 x < 2 ^ 63 := by
  unfold wrap64
  omega

private theorem wrap_id {x : ℤ} (h1 : -2 ^ 63 ≤ x) (h2 : x < 2 ^ 63) : wrap64 x = x := by
  unfold wrap64
  omega

private theorem blocks_fit (a : ℤ) (n : ℕ) : wrap64 ((wrap64 a).tdiv n * n) = (wrap64 a).tdiv n * n := by
  obtain ⟨h1, h2⟩ := wrap_range a
  generalize wrap64 a = b at *
  have := Int.mul_tdiv_add_tmod b n
  rw [mul_comm] at this
  rcases le_or_gt 0 b with hb | hb
  · have x := Int.tmod_nonneg (n : ℤ) hb
    have y : 0 ≤ b.tdiv n * n := mul_nonneg (Int.tdiv_nonneg hb (by omega)) (by omega)
    exact wrap_id (by omega) (by omega)
  · have x : b.tmod n ≤ 0 := by
      have := Int.tmod_nonneg (n : ℤ) (show 0 ≤ -b by omega)
      rw [Int.neg_tmod] at this
      omega
    have y : b.tdiv n * n ≤ 0 := by
      have := mul_nonneg (Int.tdiv_nonneg (show 0 ≤ -b by omega) (show (0 : ℤ) ≤ n by omega)) (show (0 : ℤ) ≤ n by omega)
      rw [Int.neg_tdiv] at this
      nlinarith
    exact wrap_id (by omega) (by omega)

/-- **C107.** Key derivation works in place: each block `T` is the end of the result so far, and the hash `U` is overwritten round by
round. Whatever else is in memory, it gives the key as computed on values, panics for the same arguments, and the memory of the
caller keeps its bytes. -/
theorem C107_key (g : SliceCrypto.Grow) (prf : Bytes → Bytes) (hashLen : ℕ) (hp : ∀ m, (prf m).length = hashLen) (salt : Slice)
    (iter keyLen : ℤ) (h : Heap UInt8) (hs : Ok h salt) :
    match Pbkdf2.key prf hashLen (elems h salt) iter keyLen with
    | .ok k => ∃ h' t, SliceCrypto.key g prf hashLen salt iter keyLen h = .ok (h', t) ∧ elems h' t = k ∧
        ∀ s, Ok h s → elems h' s = elems h s
    | .err _ => False
    | .panic => SliceCrypto.key g prf hashLen salt iter keyLen h = .panic := by
  unfold Pbkdf2.key SliceCrypto.key
  by_cases h0 : hashLen = 0
  · rw [if_pos h0, if_pos h0]
  rw [if_neg h0, if_neg h0]
  dsimp only
  have fit := blocks_fit (wrap64 (keyLen + hashLen) - 1) hashLen
  generalize (wrap64 (wrap64 (keyLen + hashLen) - 1)).tdiv hashLen = nb at *
  rw [fit]
  by_cases hneg : nb * hashLen < 0
  · rw [if_pos hneg, if_pos hneg]
  rw [if_neg hneg, if_neg hneg]
  have hnb : 0 ≤ nb := by
    by_contra hc
    have : nb * hashLen < 0 := mul_neg_of_neg_of_pos (by omega) (by omega)
    exact hneg this
  have hmul : (nb * hashLen).toNat = nb.toNat * hashLen := by
    rw [Int.toNat_mul hnb (by omega), Int.toNat_natCast]
  rw [hmul]
  have p0 := SliceCrypto.push_old h (List.replicate (nb.toNat * hashLen) 0)
  generalize hH : h ++ [List.replicate (nb.toNat * hashLen) 0] = H at *
  have hHl : H.length = h.length + 1 := by rw [← hH]; simp
  have arrD : array H ⟨h.length, 0, 0⟩ = List.replicate (nb.toNat * hashLen) 0 := by
    rw [← hH]; exact array_push_new _
  obtain ⟨o1, ok1, e1, a1, l1⟩ := SliceCrypto.alloc_facts g H (List.replicate hashLen 0)
  have arrD' : array (SliceCrypto.alloc g H (List.replicate hashLen 0)).1 ⟨h.length, 0, 0⟩ = List.replicate (nb.toNat * hashLen) 0 := by
    rw [← arrD]
    exact array_push (show h.length < H.length by omega) _
  have lU : (SliceCrypto.alloc g H (List.replicate hashLen 0)).2.len = hashLen := by
    show (List.replicate hashLen (0 : UInt8)).length = hashLen
    simp
  generalize SliceCrypto.alloc g H (List.replicate hashLen 0) = U at *
  have okD : Ok U.1 ⟨h.length, 0, 0⟩ := ⟨by dsimp only; omega, by simp⟩
  have i : SliceCrypto.Inv h U.1 ⟨h.length, 0, 0⟩ U.2 := ⟨okD, ok1, by dsimp only; omega, le_refl _, by omega, p0.trans o1⟩
  obtain ⟨r1, r2, r3, r4, r5⟩ := SliceCrypto.outer_facts (g := g) (iter := iter) hp hs nb.toNat (block := 1) i lU
  have capD : capacity U.1 ⟨h.length, 0, 0⟩ = nb.toNat * hashLen := by
    unfold capacity
    rw [arrD']
    simp
  rw [capD] at r5
  have r5 := r5 (by dsimp only; omega)
  have e0 : elems U.1 ⟨h.length, 0, 0⟩ = [] := by simp [elems]
  rw [e0] at r3
  dsimp only at r4
  rw [Nat.zero_add] at r4
  generalize SliceCrypto.outer g prf hashLen salt iter nb.toNat 1 U.1 ⟨h.length, 0, 0⟩ U.2 = r at *
  have hlen : (Pbkdf2.outer prf (elems h salt) iter nb.toNat 1 []).length = nb.toNat * hashLen := by
    rw [← r3, elems_length r2, r4]
  rw [hlen, r5]
  by_cases hk : keyLen < 0 ∨ keyLen > ((nb.toNat * hashLen : ℕ) : ℤ)
  · rw [if_pos hk, if_pos hk]
  rw [if_neg hk, if_neg hk]
  refine ⟨_, _, rfl, ?_, fun s hs' => (r1.2 s hs').2⟩
  rw [elems_take _ (by omega), r3]

/-- A key of 5 bytes in blocks of 2, with a toy hash: 3 blocks of 3 rounds; the salt is inside another array. -/
example :
    let prf : Bytes → Bytes := fun m => [UInt8.ofNat m.length + m.sum, m.headD 0 * 3 + 1]
    let h : Heap UInt8 := [[9, 8, 7, 6]]
    let r := SliceCrypto.key (fun _ => [0xee]) prf 2 ⟨0, 1, 2⟩ 3 5 h
    let k : Bytes := [81, 206, 95, 200, 85]
    Ok h ⟨0, 1, 2⟩ ∧ Pbkdf2.key prf 2 [8, 7] 3 5 = .ok k ∧
    (match r with | .ok (h', t) => (elems h' t, h'.getD 0 []) | _ => ([], [])) = (k, [9, 8, 7, 6]) := by
  unfold Ok
  decide +kernel

end Toku.Props
