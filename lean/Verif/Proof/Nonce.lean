import Verif.Proof.Ecdsa
import Verif.Spec.Ecdsa
/-
The nonce function is the recurrence of RFC 6979.
-/
namespace Toku.Ecdsa
open Toku.Spec Toku.Curve

theorem beNat_eq (bs : Bytes) : beNat bs = natOfBE bs := rfl

theorem be_length (k n : ℕ) : (be k n).length = k := by
  induction k generalizing n with
  | zero => rfl
  | succ k ih => unfold be; simp [ih]

theorem natOfBE_be (k n : ℕ) : natOfBE (be k n) = n % 256 ^ k := by
  induction k generalizing n with
  | zero => unfold be; rw [pow_zero, Nat.mod_one]; rfl
  | succ k ih =>
    unfold be
    have h1 : natOfBE [UInt8.ofNat (n % 256)] = n % 256 := by simp [natOfBE]
    rw [natOfBE_append, ih, h1, List.length_singleton, pow_one, pow_succ, Nat.mul_comm (256 ^ k) 256,
      Nat.mod_mul]
    ring

theorem natOfBE_drop (b : Bytes) (k : ℕ) : natOfBE (b.drop k) = natOfBE b % 256 ^ (b.length - k) := by
  conv_rhs => rw [← List.take_append_drop k b, natOfBE_append]
  have hl : (b.drop k).length = b.length - k := List.length_drop
  have hlt := natOfBE_lt (b.drop k)
  rw [hl] at hlt ⊢
  rw [List.length_append, List.length_take, hl]
  rcases Nat.le_total k b.length with h | h
  · rw [Nat.min_eq_left h, show k + (b.length - k) - k = b.length - k by omega, Nat.mul_add_mod_self_right, Nat.mod_eq_of_lt hlt]
  · have h0 : b.drop k = [] := List.drop_eq_nil_of_le h
    have e0 : natOfBE (b.drop k) = 0 := by rw [h0]; rfl
    rw [Nat.min_eq_right h, show b.length + (b.length - k) - k = 0 by omega, e0, pow_zero, Nat.mod_one]

/-- The octets are the fixed-width form, also of numbers that do not fit. -/
theorem int2octets_be (v k : ℕ) : int2octets v k = be k v := by
  have hv := natOfBE_natToBE v
  have hlt := natOfBE_lt (natToBE v)
  rw [hv] at hlt
  have key : (int2octets v k).length = k ∧ natOfBE (int2octets v k) = v % 256 ^ k := by
    unfold int2octets
    dsimp only
    split
    · rename_i h
      refine ⟨by rw [List.length_append, List.length_replicate]; omega, ?_⟩
      rw [natOfBE_replicate, hv, Nat.mod_eq_of_lt]
      exact lt_of_lt_of_le hlt (Nat.pow_le_pow_right (by decide) h.le)
    split
    · rename_i h1 h2
      refine ⟨by rw [List.length_drop]; omega, ?_⟩
      rw [natOfBE_drop, hv]
      congr 2
      omega
    · rename_i h1 h2
      refine ⟨by omega, ?_⟩
      rw [hv, Nat.mod_eq_of_lt]
      rwa [show k = (natToBE v).length by omega]
  refine natOfBE_inj (by rw [key.1, be_length]) ?_
  rw [key.2, natOfBE_be]

theorem bitLen_N : bitLen N = 256 := by decide +kernel

/-- Dropping bits from the right of whole bytes. -/
theorem bits2int_256 (bs : Bytes) : bits2int bs 256 = hashNum bs := by
  unfold bits2int hashNum
  rw [beNat_eq]
  dsimp only
  split
  · rename_i h
    have e : natOfBE bs = natOfBE (bs.take 32) * 256 ^ (bs.length - 32) + natOfBE (bs.drop 32) := by
      conv_lhs => rw [← List.take_append_drop 32 bs, natOfBE_append, List.length_drop]
    have hlt := natOfBE_lt (bs.drop 32)
    rw [List.length_drop] at hlt
    have e2 : 2 ^ (bs.length * 8 - 256) = 256 ^ (bs.length - 32) := by
      rw [show bs.length * 8 - 256 = 8 * (bs.length - 32) by omega, pow_mul, show (2 : ℕ) ^ 8 = 256 by decide]
    rw [e, e2, Nat.mul_comm, Nat.mul_add_div (Nat.pow_pos (by decide)), Nat.div_eq_of_lt hlt, Nat.add_zero]
  · rename_i h
    rw [List.take_of_length_le (by omega)]

theorem hashNum_lt (bs : Bytes) : hashNum bs < 2 ^ 256 := by
  have h := natOfBE_lt (bs.take 32)
  refine lt_of_lt_of_le h ?_
  calc 256 ^ (bs.take 32).length ≤ 256 ^ 32 := Nat.pow_le_pow_right (by decide) (by rw [List.length_take]; omega)
    _ = 2 ^ 256 := by decide +kernel

theorem hashToInt_eq (hash : Bytes) : hashToInt hash = hashNum hash := by
  unfold hashToInt hashNum
  rw [bitLen_N, beNat_eq]
  dsimp only
  split
  · rename_i h
    rw [if_neg (by rw [List.length_take]; omega)]
  · rename_i h
    rw [if_neg (by omega), List.take_of_length_le (by omega)]

theorem bits2octets_N (hash : Bytes) : bits2octets hash N 256 32 = be 32 (hashNum hash % N) := by
  unfold bits2octets
  rw [bits2int_256]
  dsimp only
  have h := hashNum_lt hash
  have h2 : 2 ^ 256 < 2 * N := by decide +kernel
  split
  · rename_i hl
    rw [int2octets_be, Nat.mod_eq_of_lt hl]
  · rename_i hl
    rw [int2octets_be, Nat.mod_eq_sub_mod (by omega), Nat.mod_eq_of_lt (by omega)]

/-- Verification in terms of the group, with numbers. -/
theorem verify_num (q : Pt) (hash : Bytes) {r s : ℤ} (hr : 1 ≤ r ∧ r < N) (hs : 1 ≤ s ∧ s < N) :
    ∃ w u1 u2 : ℕ, (w * s) % N = 1 ∧ w < N ∧ u1 = (hashNum hash * w) % N ∧ (u2 : ℤ) = (r * w) % N ∧
      verify ⟨(coords q).1, (coords q).2⟩ hash r s =
        .ok (decide (u1 • G + u2 • q ≠ 0) && ((coords (u1 • G + u2 • q)).1 % N == r)) := by
  have hsz : (s : ZMod N) ≠ 0 := by
    rw [Ne, cast_zero_iff (p := N) ⟨by omega, hs.2⟩]; omega
  obtain ⟨w, e, w0, w1, hw⟩ := Num.modInverse_prime (n := N) Primes.prime_N s hsz
  obtain ⟨w, rfl⟩ := Int.eq_ofNat_of_zero_le w0
  have h2 : 0 ≤ (r * w : ℤ) % N := (mod_range (p := N) _).1
  refine ⟨w, (hashNum hash * w) % N, ((r * w : ℤ) % N).toNat, ?_, by exact_mod_cast w1, rfl, Int.toNat_of_nonneg h2, ?_⟩
  · have h1 : (((w * s : ℤ)) : ZMod N) = ((1 : ℤ) : ZMod N) := by push_cast; push_cast at hw; exact hw
    have := (ZMod.intCast_eq_intCast_iff _ _ N).mp h1
    have h1N : (1 : ℤ) % N = 1 := by decide +kernel
    rw [← h1N]; exact this
  · unfold verify
    rw [if_neg (by omega), if_neg (by omega)]
    dsimp only
    rw [e, hashToInt_eq]
    dsimp only
    have e1 : ((hashNum hash : ℤ) * (w : ℤ)) % N = (((hashNum hash * w) % N : ℕ) : ℤ) := by push_cast; rfl
    rw [e1, Int.toNat_natCast, baseMult_coords, natOfBE_natToBE, mult_coords, natOfBE_natToBE]
    simp only [Res.ok_bind]
    rw [add_coords]
    simp only [Res.ok_bind, Res.pure_eq]
    generalize ((hashNum hash * w) % N) • G + ((r * w : ℤ) % N).toNat • q = p
    by_cases hp : p = 0
    · subst hp
      rw [if_pos ⟨rfl, rfl⟩]
      simp
    · rw [if_neg]
      · simp [hp]
      · rintro ⟨a, c⟩
        exact hp (coords_eq_zero.mp (Prod.ext a c))

theorem inverse_unique {w w' : ℕ} {s : ℤ} (h : (w * s) % N = 1) (hN : w < N) (h' : (w' * s) % N = 1) (hN' : w' < N) : w' = w := by
  have c : ∀ v : ℕ, (v * s) % N = 1 → ((v : ZMod N)) * (s : ZMod N) = 1 := by
    intro v hv
    have : (((v * s) % N : ℤ) : ZMod N) = ((1 : ℤ) : ZMod N) := by rw [hv]
    rw [mod_N] at this
    push_cast at this
    exact this
  have e1 := c w h
  have e2 := c w' h'
  have e : ((w' : ℕ) : ZMod N) = (w : ZMod N) := by linear_combination -(w' : ZMod N) * e1 + (w : ZMod N) * e2
  have := (ZMod.natCast_eq_natCast_iff w' w N).mp e
  exact Nat.ModEq.eq_of_lt_of_lt this hN' hN

variable [Hashes]

theorem fill_once (k v : Bytes) : fill k 32 256 v [] = (hmac256 k v, hmac256 k v) := by
  have e : ∀ (n : ℕ) (w t : Bytes), t.length = 32 → fill k 32 n w t = (w, t) := by
    intro n w t ht
    cases n with
    | zero => rfl
    | succ n => unfold fill; rw [if_neg (by omega)]
  change fill k 32 (255 + 1) v [] = _
  unfold fill
  rw [if_pos (by decide)]
  dsimp only
  rw [List.nil_append, e _ _ _ (hmac256_length _ _)]

theorem nonceLoop_spec (q : ℕ) (x : ℕ) (hash : Bytes) (n : ℕ) : ∀ fuel i : ℕ,
    nonceLoop q 256 fuel (rfcState q x hash i).1 (rfcState q x hash i).2 = some n ↔
    ∃ j, i ≤ j ∧ j < i + fuel ∧ n = rfcCandidate q x hash j ∧ (1 ≤ n ∧ n < q) ∧
      ∀ m, i ≤ m → m < j → ¬ (1 ≤ rfcCandidate q x hash m ∧ rfcCandidate q x hash m < q) := by
  intro fuel
  induction fuel with
  | zero =>
    intro i
    constructor
    · intro h; cases h
    · rintro ⟨j, h1, h2, _⟩; omega
  | succ f ih =>
    intro i
    unfold nonceLoop
    rw [fill_once]
    dsimp only
    have hc : bits2int (hmac256 (rfcState q x hash i).1 (rfcState q x hash i).2) 256 = rfcCandidate q x hash i := by
      rw [bits2int_256]
      unfold hashNum rfcCandidate
      rw [List.take_of_length_le (by rw [hmac256_length])]
    rw [hc]
    split
    · rename_i hr
      constructor
      · intro h
        cases h
        exact ⟨i, le_refl _, by omega, rfl, hr, fun m h1 h2 => absurd h1 (by omega)⟩
      · rintro ⟨j, h1, h2, e, _, hm⟩
        by_cases hij : i = j
        · subst hij; rw [e]
        · exact absurd hr (hm i (le_refl _) (by omega))
    · rename_i hr
      have := ih (i + 1)
      have e1 : rfcState q x hash (i + 1) = (hmac256 (rfcState q x hash i).1 (hmac256 (rfcState q x hash i).1 (rfcState q x hash i).2 ++ [0]),
          hmac256 (hmac256 (rfcState q x hash i).1 (hmac256 (rfcState q x hash i).1 (rfcState q x hash i).2 ++ [0]))
            (hmac256 (rfcState q x hash i).1 (rfcState q x hash i).2)) := rfl
      rw [e1] at this
      rw [this]
      constructor
      · rintro ⟨j, h1, h2, e, h3, hm⟩
        refine ⟨j, by omega, by omega, e, h3, ?_⟩
        intro m m1 m2
        by_cases him : i = m
        · subst him; exact hr
        · exact hm m (by omega) m2
      · rintro ⟨j, h1, h2, e, h3, hm⟩
        have : i ≠ j := by
          rintro rfl
          rw [e] at h3
          exact hr h3
        exact ⟨j, by omega, by omega, e, h3, fun m m1 m2 => hm m (by omega) m2⟩

/-- The nonce is the first candidate in range, among the first `fuel` ones. -/
theorem nonce_spec (fuel x : ℕ) (hash : Bytes) (n : ℕ) : nonce N fuel x hash = some n ↔
    ∃ j, j < fuel ∧ n = rfcCandidate N x hash j ∧ (1 ≤ n ∧ n < N) ∧
      ∀ m, m < j → ¬ (1 ≤ rfcCandidate N x hash m ∧ rfcCandidate N x hash m < N) := by
  have h := nonceLoop_spec N x hash n fuel 0
  have e : nonce N fuel x hash = nonceLoop N 256 fuel (rfcState N x hash 0).1 (rfcState N x hash 0).2 := by
    unfold nonce
    rw [bitLen_N]
    dsimp only
    rw [show (256 + 7) / 8 = 32 by decide, int2octets_be, bits2octets_N]
    rfl
  rw [e, h]
  simp

end Toku.Ecdsa
