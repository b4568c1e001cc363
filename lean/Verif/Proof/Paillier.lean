import Mathlib.Data.ZMod.Units
import Mathlib.FieldTheory.Finite.Basic
import Mathlib.Tactic.LinearCombination
import Verif.Model.Paillier
import Verif.Spec.Paillier
import Verif.Proof.Num
import Verif.Proof.Keys
/-
Helper lemmas for Paillier's scheme.
-/
namespace Toku.Paillier
open Toku.Num Toku.Spec

theorem powMod_val (m a e : ℕ) : powMod m (e.log2 + 1) a e = a ^ e % m := by
  rw [Keys.powMod_eq]
  exact Primes.powMod_eq m _ a e Nat.lt_log2_self

/-- `Exp` with an exponent that is not negative. -/
theorem expMod_nonneg {m : ℕ} (hm : 0 < m) (x : ℤ) {y : ℤ} (hy : 0 ≤ y) :
    ∃ v, expMod x y m = some v ∧ 0 ≤ v ∧ v < m ∧ (v : ZMod m) = (x : ZMod m) ^ y.toNat := by
  unfold expMod
  rw [if_pos hy, powMod_val]
  have : 0 ≤ x % m := Int.emod_nonneg _ (by omega)
  refine ⟨_, rfl, by positivity, by exact_mod_cast Nat.mod_lt _ hm, ?_⟩
  rw [Int.cast_natCast, ZMod.natCast_mod, Nat.cast_pow, ← Int.cast_natCast, Int.toNat_of_nonneg this, ZMod.intCast_mod]

/-- A unit modulo m has an inverse in the sense of `ModInverse`. -/
theorem modInverse_unit {m : ℕ} (hm : 1 < m) {x : ℤ} (U : (ZMod m)ˣ) (hU : (x : ZMod m) = U) :
    ∃ w, modInverse x m = some w ∧ 0 ≤ w ∧ w < m ∧ (w : ZMod m) = (U⁻¹ : (ZMod m)ˣ) := by
  have hg : Int.gcd x m = 1 := by
    rw [Int.gcd_comm, ← Int.isCoprime_iff_gcd_eq_one, ← ZMod.coe_int_isUnit_iff_isCoprime, hU]
    exact U.isUnit
  obtain ⟨w, h, h0, h1, hw⟩ := (modInverse_eq hm x).1 hg
  refine ⟨w, h, h0, h1, ?_⟩
  rw [hU] at hw
  exact (Units.inv_eq_of_mul_eq_one_left hw).symm

/-- `Exp` of a unit. -/
theorem expMod_unit {m : ℕ} (hm : 1 < m) {x : ℤ} (U : (ZMod m)ˣ) (hU : (x : ZMod m) = U) (y : ℤ) :
    ∃ v, expMod x y m = some v ∧ 0 ≤ v ∧ v < m ∧ (v : ZMod m) = (U ^ y : (ZMod m)ˣ) := by
  by_cases hy : 0 ≤ y
  · obtain ⟨v, h, h0, h1, hv⟩ := expMod_nonneg (by omega : 0 < m) x hy
    refine ⟨v, h, h0, h1, ?_⟩
    rw [hv, hU]
    conv_rhs => rw [← Int.toNat_of_nonneg hy, zpow_natCast]
    rw [Units.val_pow_eq_pow_val]
  · unfold expMod
    rw [if_neg hy]
    obtain ⟨w, h, h0, _, hw⟩ := modInverse_unit hm U hU
    rw [h]
    dsimp only
    rw [powMod_val]
    refine ⟨_, rfl, by positivity, by exact_mod_cast Nat.mod_lt _ (by omega), ?_⟩
    rw [Int.cast_natCast, ZMod.natCast_mod, Nat.cast_pow, ← Int.cast_natCast, Int.toNat_of_nonneg h0, hw]
    have : U ^ y = U⁻¹ ^ (-y).toNat := by
      rw [← zpow_natCast, Int.toNat_of_nonneg (by omega), inv_zpow, zpow_neg, inv_inv]
    rw [this, Units.val_pow_eq_pow_val]

section
variable {n : ℕ}

theorem sq_zero : (n : ZMod (n * n)) * n = 0 := by
  rw [← Nat.cast_mul]; exact ZMod.natCast_self _

/-- 1 + n modulo n^2. -/
def gU (n : ℕ) : (ZMod (n * n))ˣ :=
  ⟨1 + n, 1 - n, by linear_combination -(sq_zero (n := n)), by linear_combination -(sq_zero (n := n))⟩

theorem gU_val : ((gU n : (ZMod (n * n))ˣ) : ZMod (n * n)) = 1 + n := rfl

theorem g_pow (j : ℕ) : (1 + n : ZMod (n * n)) ^ j = 1 + j * n := by
  induction j with
  | zero => simp
  | succ j ih => rw [pow_succ, ih]; push_cast; linear_combination (j : ZMod (n * n)) * sq_zero (n := n)

theorem gU_pow_n : gU n ^ n = 1 := by
  apply Units.ext
  rw [Units.val_pow_eq_pow_val, gU_val, g_pow, sq_zero, add_zero, Units.val_one]

theorem gU_zpow {a b : ℤ} (h : a ≡ b [ZMOD n]) : gU n ^ a = gU n ^ b := by
  obtain ⟨k, hk⟩ := h.dvd
  have : b = a + n * k := by omega
  rw [this, zpow_add, zpow_mul, zpow_natCast, gU_pow_n, one_zpow, mul_one]

/-- A ciphertext of m, in the group of units. -/
def Enc (n : ℕ) (c m : ℤ) : Prop :=
  0 < c ∧ c < (n * n : ℕ) ∧ ∃ u : (ZMod (n * n))ˣ, (c : ZMod (n * n)) = (gU n ^ m * u ^ n : (ZMod (n * n))ˣ)

theorem Enc.congr {c a b : ℤ} (h : Enc n c a) (hab : a ≡ b [ZMOD n]) : Enc n c b := by
  obtain ⟨h0, h1, u, hu⟩ := h
  exact ⟨h0, h1, u, by rw [hu, gU_zpow hab]⟩

theorem nn_gt (hn : 1 < n) : 1 < n * n := by nlinarith

/-- A number in range that is a unit is not zero. -/
theorem pos_of_unit (hn : 1 < n) {c : ℤ} (h0 : 0 ≤ c) {U : (ZMod (n * n))ˣ} (h : (c : ZMod (n * n)) = U) : 0 < c := by
  rcases lt_or_eq_of_le h0 with h1 | h1
  · exact h1
  · exfalso
    have : Fact (1 < n * n) := ⟨nn_gt hn⟩
    rw [← h1] at h
    exact U.ne_zero (by rw [← h]; simp)

theorem enc_iff (hn : 1 < n) (c : ℤ) (m : ℕ) : Enc n c m ↔ Encrypts n c m := by
  have hN : ((n * n : ℕ) : ℤ) = n * n := by push_cast; ring
  unfold Enc Encrypts
  rw [hN, and_assoc]
  refine and_congr_right fun h0 => and_congr_right fun h1 => ?_
  constructor
  · rintro ⟨u, hu⟩
    refine ⟨(u : ZMod (n * n)).val, ?_, ?_⟩
    · exact Nat.Coprime.coprime_mul_right_right (ZMod.val_coe_unit_coprime u)
    · rw [← hN, ← ZMod.intCast_eq_intCast_iff, hu]
      have : NeZero (n * n) := ⟨by have := nn_gt hn; omega⟩
      push_cast
      rw [zpow_natCast, Units.val_pow_eq_pow_val, gU_val, ZMod.natCast_val, ZMod.cast_id', id]
  · rintro ⟨r, hr, hc⟩
    refine ⟨ZMod.unitOfCoprime r (Nat.Coprime.mul_right hr hr), ?_⟩
    rw [← hN, ← ZMod.intCast_eq_intCast_iff] at hc
    rw [hc, zpow_natCast]
    push_cast
    rw [gU_val, ZMod.coe_unitOfCoprime]

end

section
variable {p q : ℕ}

theorem one_lt (h : PaillierPrimes p q) : 1 < p * q :=
  lt_of_lt_of_le h.1.one_lt (Nat.le_mul_of_pos_right p h.2.1.pos)

/-- φ(n^2) = n λ. -/
theorem totient_sq (h : PaillierPrimes p q) : Nat.totient (p * q * (p * q)) = p * q * ((p - 1) * (q - 1)) := by
  obtain ⟨hp, hq, hpq, _⟩ := h
  have h1 : Nat.totient (p * q) = (p - 1) * (q - 1) := by
    rw [Nat.totient_mul ((Nat.coprime_primes hp hq).mpr hpq), Nat.totient_prime hp, Nat.totient_prime hq]
  have h2 := Nat.totient_gcd_mul_totient_mul (p * q) (p * q)
  rw [Nat.gcd_self, h1, mul_assoc ((p - 1) * (q - 1)) ((p - 1) * (q - 1))] at h2
  have h3 : 0 < (p - 1) * (q - 1) := Nat.mul_pos (by have := hp.one_lt; omega) (by have := hq.one_lt; omega)
  have h4 := Nat.eq_of_mul_eq_mul_left h3 h2
  rw [h4, Nat.mul_comm]

theorem phi_eq (h : PaillierPrimes p q) : phi p q = ((p - 1) * (q - 1) : ℕ) := by
  unfold phi
  have := h.1.one_lt
  have := h.2.1.one_lt
  rw [Nat.cast_mul, Nat.cast_sub (by omega), Nat.cast_sub (by omega), Nat.cast_one]

theorem unit_pow (h : PaillierPrimes p q) (u : (ZMod (p * q * (p * q)))ˣ) : (u ^ (p * q)) ^ ((p - 1) * (q - 1)) = 1 := by
  rw [← pow_mul, ← totient_sq h]
  exact ZMod.pow_totient u

/-- Decryption of any ciphertext, from what is needed of the key. -/
theorem decrypt_core {n : ℕ} (hn : 1 < n) {mu lam : ℤ} {g : ℤ} (hmul : (mu : ZMod n) * (lam : ZMod n) = 1)
    (hpow : ∀ u : (ZMod (n * n))ˣ, (u ^ n) ^ lam = 1) {c m : ℤ} (hc : Enc n c m) :
    decrypt ⟨some mu, ⟨g, n, n * n⟩, lam⟩ (some c) = .ok (m % (n : ℕ)) := by
  obtain ⟨h0, h1, u, hu⟩ := hc
  unfold decrypt positive
  dsimp only
  rw [if_pos h0]
  dsimp only
  obtain ⟨x, hx, hx0, hx1, hxv⟩ := expMod_unit (nn_gt hn) _ hu lam
  rw [hx]
  dsimp only
  have hnpos : (0 : ℤ) < n := by omega
  -- the power is 1 + jn
  have hj0 : 0 ≤ (m * lam) % n := Int.emod_nonneg _ (by omega)
  have hj1 : (m * lam) % n < n := Int.emod_lt_of_pos _ hnpos
  obtain ⟨j, hj⟩ := Int.eq_ofNat_of_zero_le hj0
  have hval : (gU n ^ m * u ^ n) ^ lam = gU n ^ j := by
    have e1 : gU n ^ (m * lam) = gU n ^ (j : ℤ) := by
      refine gU_zpow ?_
      rw [← hj]; exact (Int.mod_modEq _ _).symm
    rw [mul_zpow, ← zpow_mul, e1, zpow_natCast, hpow u, mul_one]
  have hxe : x = 1 + j * n := by
    have hle : (1 + j * n : ℤ) < (n * n : ℕ) := by
      rw [hj] at hj1
      push_cast
      have : ((j : ℤ) + 1) * n ≤ n * n := Int.mul_le_mul_of_nonneg_right (by omega) (by omega)
      have : (1 : ℤ) < n := by exact_mod_cast hn
      nlinarith
    have : (x : ZMod (n * n)) = ((1 + j * n : ℤ) : ZMod (n * n)) := by
      rw [hxv, hval, Units.val_pow_eq_pow_val, gU_val, g_pow]
      push_cast; ring
    rw [ZMod.intCast_eq_intCast_iff] at this
    rw [← Int.emod_eq_of_lt hx0 hx1, ← Int.emod_eq_of_lt (by positivity) hle]
    exact this
  have hl : l x n = j := by
    unfold l
    rw [hxe, show (1 + j * n - 1 : ℤ) = j * n by ring, Int.mul_ediv_cancel _ (by omega)]
  rw [hl, ← hj]
  congr 1
  change (m * lam) % n * mu ≡ m [ZMOD n]
  rw [← ZMod.intCast_eq_intCast_iff]
  push_cast
  linear_combination (m : ZMod n) * hmul

/-- Decryption of any ciphertext. -/
theorem decrypt_enc (h : PaillierPrimes p q) {c m : ℤ} (hc : Enc (p * q) c m) :
    decrypt (generateKeyPair p q).2 (some c) = .ok (m % (p * q : ℕ)) := by
  have hn := one_lt h
  obtain ⟨mu, hmu, _, _, hmul⟩ := (modInverse_eq hn (phi p q)).1 (by
    rw [phi_eq h, Int.gcd_natCast_natCast]; exact Nat.Coprime.symm h.2.2.2)
  have e : (generateKeyPair p q).2 = ⟨some mu, ⟨((p * q : ℕ) : ℤ) + 1, p * q, p * q * (p * q)⟩, phi p q⟩ := by
    rw [← hmu]; rfl
  rw [e]
  refine decrypt_core hn hmul (fun u => ?_) hc
  rw [phi_eq h, zpow_natCast]
  exact unit_pow h u

end

section
variable {n : ℕ} (hn : 1 < n)
include hn

/-- The product modulo n^2 of numbers that are units. -/
theorem mul_enc {a b : ℤ} {A B : (ZMod (n * n))ˣ} (ha : (a : ZMod (n * n)) = A) (hb : (b : ZMod (n * n)) = B) :
    0 < (a * b) % (n * n : ℕ) ∧ (a * b) % (n * n : ℕ) < (n * n : ℕ) ∧
    (((a * b) % (n * n : ℕ) : ℤ) : ZMod (n * n)) = (A * B : (ZMod (n * n))ˣ) := by
  have hp : (0 : ℤ) < (n * n : ℕ) := by have := nn_gt hn; omega
  have e : (((a * b) % (n * n : ℕ) : ℤ) : ZMod (n * n)) = (A * B : (ZMod (n * n))ˣ) := by
    rw [ZMod.intCast_mod]; push_cast; rw [ha, hb]
  exact ⟨pos_of_unit hn (Int.emod_nonneg _ (by omega)) e, Int.emod_lt_of_pos _ hp, e⟩

omit hn in
theorem positive_some {c : ℤ} (h : 0 < c) : positive (some c) = some c := by
  unfold positive; dsimp only; rw [if_pos h]

/-- The key (n+1, n, n^2). -/
abbrev keyOf (n : ℕ) : PubKey := ⟨n + 1, n, n * n⟩

omit hn in
theorem g_cast : ((n + 1 : ℤ) : ZMod (n * n)) = gU n := by
  rw [gU_val]; push_cast; ring

theorem encrypt_enc {r : ℕ} (hr : Nat.Coprime r n) {m : ℤ} (h0 : 0 ≤ m) (h1 : m < n) :
    ∃ c, encrypt (keyOf n) r m = .ok c ∧ Enc n c m := by
  unfold encrypt
  dsimp only
  rw [if_neg (by omega)]
  have hr' : ((r : ℤ) : ZMod (n * n)) = ZMod.unitOfCoprime r (Nat.Coprime.mul_right hr hr) := by
    rw [ZMod.coe_unitOfCoprime]; push_cast; rfl
  obtain ⟨a, ha, _, _, hav⟩ := expMod_unit (nn_gt hn) _ hr' n
  obtain ⟨b, hb, _, _, hbv⟩ := expMod_unit (nn_gt hn) _ (g_cast (n := n)) m
  rw [ha, hb]
  dsimp only
  refine ⟨_, rfl, ?_⟩
  obtain ⟨e0, e1, e2⟩ := mul_enc hn hbv hav
  refine ⟨e0, e1, ZMod.unitOfCoprime r (Nat.Coprime.mul_right hr hr), ?_⟩
  rw [e2, zpow_natCast]

theorem mult_enc {c m : ℤ} (hc : Enc n c m) (k : ℤ) :
    ∃ c', multPlaintext (keyOf n) (some c) k = .ok (some c') ∧ Enc n c' (m * k) := by
  obtain ⟨h0, h1, u, hu⟩ := hc
  unfold multPlaintext
  rw [positive_some h0]
  dsimp only
  obtain ⟨v, hv, v0, v1, hvv⟩ := expMod_unit (nn_gt hn) _ hu k
  refine ⟨v, by rw [hv], pos_of_unit hn v0 hvv, v1, u ^ k, ?_⟩
  rw [hvv, mul_zpow, ← zpow_mul, ← zpow_natCast, ← zpow_natCast, zpow_comm]

theorem addPlain_enc {c m : ℤ} (hc : Enc n c m) (k : ℤ) :
    ∃ c', addPlaintext (keyOf n) (some c) k = .ok (some c') ∧ Enc n c' (m + k) := by
  obtain ⟨h0, h1, u, hu⟩ := hc
  unfold addPlaintext
  rw [positive_some h0]
  dsimp only
  obtain ⟨v, hv, v0, v1, hvv⟩ := expMod_unit (nn_gt hn) _ (g_cast (n := n)) k
  rw [hv]
  dsimp only
  obtain ⟨e0, e1, e2⟩ := mul_enc hn hu hvv
  refine ⟨_, rfl, e0, e1, u, ?_⟩
  rw [e2, zpow_add, mul_right_comm]

theorem div_enc {c m : ℤ} (hc : Enc n c m) {k : ℤ} (hk : Int.gcd k n = 1) :
    ∃ c' w, divPlaintext (keyOf n) (some c) k = .ok (some c') ∧ Enc n c' (m * w) ∧ w * k ≡ 1 [ZMOD n] := by
  obtain ⟨h0, h1, u, hu⟩ := hc
  unfold divPlaintext
  rw [positive_some h0]
  dsimp only
  have hk2 : Int.gcd k (n * n : ℕ) = 1 := by
    rw [Int.gcd_def, Int.natAbs_natCast] at hk ⊢
    exact Nat.Coprime.mul_right hk hk
  obtain ⟨w, hw, _, _, hwv⟩ := (modInverse_eq (nn_gt hn) k).1 hk2
  rw [hw]
  dsimp only
  obtain ⟨v, hv, v0, v1, hvv⟩ := expMod_unit (nn_gt hn) _ hu w
  refine ⟨v, w, by rw [hv], ⟨pos_of_unit hn v0 hvv, v1, u ^ w, ?_⟩, ?_⟩
  · rw [hvv, mul_zpow, ← zpow_mul, ← zpow_natCast, ← zpow_natCast, zpow_comm]
  · have h2 : ((w * k : ℤ) : ZMod (n * n)) = ((1 : ℤ) : ZMod (n * n)) := by push_cast; exact hwv
    rw [ZMod.intCast_eq_intCast_iff] at h2
    exact Int.ModEq.of_mul_left (n := n) n (by rw [← Nat.cast_mul]; exact h2)

theorem add_enc {c1 c2 m1 m2 : ℤ} (h1 : Enc n c1 m1) (h2 : Enc n c2 m2) :
    ∃ c', add (keyOf n) (some c1) (some c2) = .ok (some c') ∧ Enc n c' (m1 + m2) := by
  obtain ⟨a0, a1, u, hu⟩ := h1
  obtain ⟨b0, b1, v, hv⟩ := h2
  unfold add
  rw [positive_some a0, positive_some b0]
  dsimp only
  obtain ⟨e0, e1, e2⟩ := mul_enc hn hu hv
  refine ⟨_, rfl, e0, e1, u * v, ?_⟩
  rw [e2, zpow_add, mul_pow, mul_mul_mul_comm]

theorem sub_enc {c1 c2 m1 m2 : ℤ} (h1 : Enc n c1 m1) (h2 : Enc n c2 m2) :
    ∃ c', sub (keyOf n) (some c1) (some c2) = .ok (some c') ∧ Enc n c' (m1 - m2) := by
  obtain ⟨a0, a1, u, hu⟩ := h1
  obtain ⟨b0, b1, v, hv⟩ := h2
  unfold sub
  dsimp only
  obtain ⟨w, hw, _, _, hwv⟩ := modInverse_unit (nn_gt hn) _ hv
  rw [hw]
  dsimp only
  obtain ⟨e0, e1, e2⟩ := mul_enc hn hu hwv
  refine ⟨_, rfl, e0, e1, u * v⁻¹, ?_⟩
  rw [e2, zpow_sub, mul_pow, mul_inv, inv_pow, mul_mul_mul_comm]

end

end Toku.Paillier
