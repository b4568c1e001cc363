import Verif.Proof.Paillier
/-
Properties C68 and C69: Paillier encryption and the operations on ciphertexts. The randomiser `r` of an encryption and
the two primes are arguments.
-/
namespace Toku.Props
open Toku Toku.Spec Toku.Paillier

/-- The plaintext and the form of a ciphertext. -/
theorem finish {p q : ℕ} (h : PaillierPrimes p q) {c m : ℤ} (hc : Enc (p * q) c m) :
    Encrypts (p * q) c (m % (p * q : ℕ)).toNat ∧
    decrypt (generateKeyPair p q).2 (some c) = .ok (m % (p * q : ℕ)) := by
  have hn := one_lt h
  refine ⟨?_, decrypt_enc h hc⟩
  rw [← enc_iff hn, Int.toNat_of_nonneg (Int.emod_nonneg _ (by omega))]
  exact hc.congr (Int.mod_modEq _ _).symm

/-! ### C68 -/

/-- **C68.** Decryption inverts encryption: every key, plaintext below n, and randomiser coprime to n. -/
theorem C68_round_trip (p q : ℕ) (h : PaillierPrimes p q) (m : ℤ) (hm : 0 ≤ m ∧ m < p * q) (r : ℕ)
    (hr : Nat.Coprime r (p * q)) :
    ∃ c, encrypt (generateKeyPair p q).1 r m = .ok c ∧ decrypt (generateKeyPair p q).2 (some c) = .ok m := by
  obtain ⟨c, h1, h2⟩ := encrypt_enc (one_lt h) hr hm.1 (by push_cast; exact hm.2)
  refine ⟨c, h1, ?_⟩
  rw [decrypt_enc h h2, Int.emod_eq_of_lt hm.1 (by push_cast; exact hm.2)]

example : PaillierPrimes 5 7 ∧ Nat.Coprime 4 (5 * 7) ∧
    encrypt (generateKeyPair 5 7).1 4 12 = .ok 429 ∧ decrypt (generateKeyPair 5 7).2 (some 429) = .ok 12 := by
  refine ⟨⟨by norm_num, by norm_num, by norm_num, by decide⟩, by decide, by decide +kernel, by decide +kernel⟩

/-- **C68**, for the keys generated: two different primes of the same length of 3 bits at least always have the
condition on the greatest common divisor. -/
theorem C68_generated (b p q : ℕ) (hb : 3 ≤ b) (hp : p.Prime) (hq : q.Prime) (hpq : p ≠ q)
    (hbp : 2 ^ (b - 1) ≤ p ∧ p < 2 ^ b) (hbq : 2 ^ (b - 1) ≤ q ∧ q < 2 ^ b) : PaillierPrimes p q := by
  have hpow : 2 ^ b = 2 * 2 ^ (b - 1) := by
    rw [← pow_succ']; congr 1; omega
  have h4 : 4 ≤ 2 ^ (b - 1) := by
    calc 4 = 2 ^ 2 := rfl
      _ ≤ 2 ^ (b - 1) := Nat.pow_le_pow_right (by norm_num) (by omega)
  -- a prime does not divide the other minus one
  have key : ∀ x y : ℕ, x.Prime → y.Prime → x ≠ y → (2 ^ (b - 1) ≤ x ∧ x < 2 ^ b) → (2 ^ (b - 1) ≤ y ∧ y < 2 ^ b) →
      ¬ x ∣ y - 1 := by
    intro x y hx hy hxy bx by' hd
    obtain ⟨k, hk⟩ := hd
    have hy1 := hy.one_lt
    have hk2 : k < 2 := by
      by_contra hk2
      have : x * 2 ≤ x * k := Nat.mul_le_mul_left x (by omega)
      omega
    have hk1 : k = 1 := by
      rcases Nat.lt_or_ge k 1 with h0 | h0
      · have : k = 0 := by omega
        rw [this, Nat.mul_zero] at hk
        omega
      · omega
    rw [hk1, Nat.mul_one] at hk
    rcases hx.eq_two_or_odd with h2 | h2
    · omega
    · rcases hy.eq_two_or_odd with h3 | h3 <;> omega
  refine ⟨hp, hq, hpq, ?_⟩
  have self : ∀ x : ℕ, x.Prime → ¬ x ∣ x - 1 := fun x hx hd => by
    have := Nat.le_of_dvd (by have := hx.one_lt; omega) hd
    have := hx.one_lt
    omega
  rw [Nat.coprime_mul_iff_left, Nat.coprime_mul_iff_right, Nat.coprime_mul_iff_right, hp.coprime_iff_not_dvd,
    hp.coprime_iff_not_dvd, hq.coprime_iff_not_dvd, hq.coprime_iff_not_dvd]
  exact ⟨⟨self p hp, key p q hp hq hpq hbp hbq⟩, key q p hq hp (Ne.symm hpq) hbq hbp, self q hq⟩

example : PaillierPrimes 11 13 :=
  C68_generated 4 11 13 (by norm_num) (by norm_num) (by norm_num) (by norm_num) (by norm_num) (by norm_num)

/-- What is encrypted: plaintexts from 0 to n - 1 only, and then a ciphertext of the plaintext, if the randomiser is
coprime to n. -/
theorem C68_encrypt (p q : ℕ) (h : PaillierPrimes p q) (m : ℤ) (r : ℕ) (hr : Nat.Coprime r (p * q)) :
    (0 ≤ m ∧ m < p * q ∧ ∃ c, encrypt (generateKeyPair p q).1 r m = .ok c ∧ Encrypts (p * q) c m.toNat) ∨
    (¬ (0 ≤ m ∧ m < p * q) ∧ encrypt (generateKeyPair p q).1 r m = .err errPlaintext) := by
  by_cases hm : 0 ≤ m ∧ m < p * q
  · left
    obtain ⟨c, h1, h2⟩ := encrypt_enc (one_lt h) hr hm.1 (by push_cast; exact hm.2)
    refine ⟨hm.1, hm.2, c, h1, ?_⟩
    rw [← enc_iff (one_lt h), Int.toNat_of_nonneg hm.1]
    exact h2
  · right
    refine ⟨hm, ?_⟩
    unfold encrypt generateKeyPair
    dsimp only
    rw [if_pos]
    push_cast
    omega

/-- Decryption of every ciphertext of a plaintext, whoever made it. -/
theorem C68_decrypt (p q : ℕ) (h : PaillierPrimes p q) (c : ℤ) (m : ℕ) (hc : Encrypts (p * q) c m) :
    decrypt (generateKeyPair p q).2 (some c) = .ok ((m % (p * q) : ℕ) : ℤ) := by
  rw [decrypt_enc h ((enc_iff (one_lt h) c m).mpr hc)]
  push_cast
  rfl

example : Encrypts (5 * 7) 429 12 := ⟨by norm_num, 4, by decide, by decide⟩

/-- The condition on the primes is necessary: without it the private key has no `mu`, and decryption of every number
above zero panics. -/
theorem C68_condition (p q : ℕ) (hp : p.Prime) (hq : q.Prime) (h : ¬ Nat.Coprime (p * q) ((p - 1) * (q - 1))) (c : ℤ)
    (hc : 0 < c) : decrypt (generateKeyPair p q).2 (some c) = .panic := by
  have hn : 1 < p * q := lt_of_lt_of_le hp.one_lt (Nat.le_mul_of_pos_right p hq.pos)
  have e : phi p q = ((p - 1) * (q - 1) : ℕ) := by
    unfold phi
    have := hp.one_lt
    have := hq.one_lt
    rw [Nat.cast_mul, Nat.cast_sub (by omega), Nat.cast_sub (by omega), Nat.cast_one]
  have hmu := (Num.modInverse_eq hn (phi p q)).2 (by
    rw [e, Int.gcd_natCast_natCast]; exact fun h' => h (Nat.Coprime.symm h'))
  unfold decrypt positive generateKeyPair
  dsimp only
  rw [if_pos hc, hmu]
  dsimp only
  split
  · rename_i h2; cases h2
  · rfl

example : decrypt (generateKeyPair 3 7).2 (some 2) = .panic := by decide +kernel

/-- The primes must differ. -/
example : encrypt (generateKeyPair 5 5).1 2 3 = .ok 582 ∧ decrypt (generateKeyPair 5 5).2 (some 582) = .ok 13 := by
  refine ⟨by decide +kernel, by decide +kernel⟩

/-- The randomiser 0, which the code may draw, gives a number that is refused, for every plaintext. -/
theorem C68_randomiser_zero (p q : ℕ) (h : PaillierPrimes p q) (m : ℤ) (hm : 0 ≤ m ∧ m < p * q) :
    encrypt (generateKeyPair p q).1 0 m = .ok 0 ∧ decrypt (generateKeyPair p q).2 (some 0) = .err errCiphertext := by
  have hn := one_lt h
  refine ⟨?_, rfl⟩
  unfold encrypt generateKeyPair
  dsimp only
  rw [if_neg (by push_cast; omega)]
  have h0 : Num.expMod ((0 : ℕ) : ℤ) ((p * q : ℕ) : ℤ) (p * q * (p * q)) = some 0 := by
    unfold Num.expMod
    rw [if_pos (by omega), powMod_val]
    simp only [Nat.cast_zero, Int.zero_emod, Int.toNat_zero, Int.toNat_natCast]
    rw [Nat.zero_pow (by omega), Nat.zero_mod]
    rfl
  obtain ⟨b, hb, _, _, _⟩ := expMod_unit (nn_gt hn) _ (g_cast (n := p * q)) m
  rw [h0, hb]
  simp

/-! ### C69 -/

section
variable (p q : ℕ) (h : PaillierPrimes p q)
include h

/-- **C69.** Add: the sum modulo n. -/
theorem C69_add (c1 c2 : ℤ) (m1 m2 : ℕ) (h1 : Encrypts (p * q) c1 m1) (h2 : Encrypts (p * q) c2 m2) :
    ∃ c, Paillier.add (generateKeyPair p q).1 (some c1) (some c2) = .ok (some c) ∧
      Encrypts (p * q) c ((m1 + m2) % (p * q)) ∧
      decrypt (generateKeyPair p q).2 (some c) = .ok (((m1 + m2) % (p * q) : ℕ) : ℤ) := by
  rw [← enc_iff (one_lt h)] at h1 h2
  obtain ⟨c, hc, he⟩ := add_enc (one_lt h) h1 h2
  have := finish h he
  have e : ((m1 : ℤ) + m2) % (p * q : ℕ) = ((m1 + m2) % (p * q) : ℕ) := by push_cast; rfl
  rw [e, Int.toNat_natCast] at this
  exact ⟨c, hc, this⟩

/-- **C69.** Sub: the difference modulo n. -/
theorem C69_sub (c1 c2 : ℤ) (m1 m2 : ℕ) (h1 : Encrypts (p * q) c1 m1) (h2 : Encrypts (p * q) c2 m2) :
    ∃ c, sub (generateKeyPair p q).1 (some c1) (some c2) = .ok (some c) ∧
      Encrypts (p * q) c (((m1 : ℤ) - m2) % (p * q : ℕ)).toNat ∧
      decrypt (generateKeyPair p q).2 (some c) = .ok (((m1 : ℤ) - m2) % (p * q : ℕ)) := by
  rw [← enc_iff (one_lt h)] at h1 h2
  obtain ⟨c, hc, he⟩ := sub_enc (one_lt h) h1 h2
  exact ⟨c, hc, finish h he⟩

/-- **C69.** AddPlaintext: the sum with a constant modulo n, the constant may be negative. -/
theorem C69_addPlaintext (c : ℤ) (m : ℕ) (hc : Encrypts (p * q) c m) (k : ℤ) :
    ∃ c', addPlaintext (generateKeyPair p q).1 (some c) k = .ok (some c') ∧
      Encrypts (p * q) c' (((m : ℤ) + k) % (p * q : ℕ)).toNat ∧
      decrypt (generateKeyPair p q).2 (some c') = .ok (((m : ℤ) + k) % (p * q : ℕ)) := by
  rw [← enc_iff (one_lt h)] at hc
  obtain ⟨c', hc, he⟩ := addPlain_enc (one_lt h) hc k
  exact ⟨c', hc, finish h he⟩

/-- **C69.** MultPlaintext: the product with a constant modulo n, the constant may be negative. -/
theorem C69_multPlaintext (c : ℤ) (m : ℕ) (hc : Encrypts (p * q) c m) (k : ℤ) :
    ∃ c', multPlaintext (generateKeyPair p q).1 (some c) k = .ok (some c') ∧
      Encrypts (p * q) c' (((m : ℤ) * k) % (p * q : ℕ)).toNat ∧
      decrypt (generateKeyPair p q).2 (some c') = .ok (((m : ℤ) * k) % (p * q : ℕ)) := by
  rw [← enc_iff (one_lt h)] at hc
  obtain ⟨c', hc, he⟩ := mult_enc (one_lt h) hc k
  exact ⟨c', hc, finish h he⟩

/-- **C69.** DivPlaintext: for a constant coprime to n, the number below n whose product with the constant is the
plaintext, modulo n. -/
theorem C69_divPlaintext (c : ℤ) (m : ℕ) (hc : Encrypts (p * q) c m) (k : ℤ) (hk : Int.gcd k (p * q : ℕ) = 1) :
    ∃ c' x : ℤ, divPlaintext (generateKeyPair p q).1 (some c) k = .ok (some c') ∧
      decrypt (generateKeyPair p q).2 (some c') = .ok x ∧ Encrypts (p * q) c' x.toNat ∧
      (0 ≤ x ∧ x < p * q) ∧ x * k ≡ m [ZMOD p * q] := by
  have hn := one_lt h
  rw [← enc_iff hn] at hc
  obtain ⟨c', w, hc, he, hw⟩ := div_enc hn hc hk
  obtain ⟨f1, f2⟩ := finish h he
  refine ⟨c', _, hc, f2, f1, ⟨Int.emod_nonneg _ (by omega), ?_⟩, ?_⟩
  · rw [← Nat.cast_mul]; exact Int.emod_lt_of_pos _ (by omega)
  · rw [← Nat.cast_mul]
    calc ((m : ℤ) * w) % (p * q : ℕ) * k ≡ (m * w) * k [ZMOD (p * q : ℕ)] := (Int.mod_modEq _ _).mul_right k
      _ = m * (w * k) := by ring
      _ ≡ m * 1 [ZMOD (p * q : ℕ)] := hw.mul_left _
      _ = m := by ring

/-- DivPlaintext by a constant that is not coprime to n panics. -/
theorem C69_div_panics (c : ℤ) (hc : 0 < c) (k : ℤ) (hk : Int.gcd k (p * q : ℕ) ≠ 1) :
    divPlaintext (generateKeyPair p q).1 (some c) k = .panic := by
  have hn := one_lt h
  have hk2 : Int.gcd k (p * q * (p * q) : ℕ) ≠ 1 := by
    intro h'
    rw [Int.gcd_def, Int.natAbs_natCast] at h' hk
    exact hk (Nat.Coprime.coprime_mul_right_right h')
  unfold divPlaintext generateKeyPair
  rw [positive_some hc]
  dsimp only
  rw [(Num.modInverse_eq (nn_gt hn) k).2 hk2]

end

/-- Numbers that are not positive and missing numbers are refused, except by Sub. -/
theorem C69_refused (pk : PubKey) (ct : Option ℤ) (hct : ∀ c, ct = some c → c ≤ 0) (other : Option ℤ) (k : ℤ) :
    Paillier.add pk ct other = .err errInput ∧ Paillier.add pk other ct = .err errInput ∧
    addPlaintext pk ct k = .err errInput ∧ multPlaintext pk ct k = .err errInput ∧ divPlaintext pk ct k = .err errInput := by
  have hp : positive ct = none := by
    unfold positive
    cases ct with
    | none => rfl
    | some c => exact if_neg (by have := hct c rfl; omega)
  unfold Paillier.add addPlaintext multPlaintext divPlaintext
  rw [hp]
  refine ⟨rfl, ?_, rfl, rfl, rfl⟩
  cases positive other <;> rfl

/-- **C69**, from plaintexts to plaintexts: encrypt two, add them, subtract a third, multiply by a constant, decrypt. -/
theorem C69_chain (p q : ℕ) (h : PaillierPrimes p q) (a b c : ℤ) (ha : 0 ≤ a ∧ a < p * q) (hb : 0 ≤ b ∧ b < p * q)
    (hc : 0 ≤ c ∧ c < p * q) (r1 r2 r3 : ℕ) (hr1 : Nat.Coprime r1 (p * q)) (hr2 : Nat.Coprime r2 (p * q))
    (hr3 : Nat.Coprime r3 (p * q)) (k : ℤ) :
    (do
      let x ← encrypt (generateKeyPair p q).1 r1 a
      let y ← encrypt (generateKeyPair p q).1 r2 b
      let z ← encrypt (generateKeyPair p q).1 r3 c
      let s ← Paillier.add (generateKeyPair p q).1 (some x) (some y)
      let d ← sub (generateKeyPair p q).1 s (some z)
      let t ← multPlaintext (generateKeyPair p q).1 d k
      decrypt (generateKeyPair p q).2 t) = .ok (((a + b - c) * k) % (p * q : ℕ)) := by
  have hn := one_lt h
  obtain ⟨x, hx, ex⟩ := encrypt_enc hn hr1 ha.1 (by push_cast; exact ha.2)
  obtain ⟨y, hy, ey⟩ := encrypt_enc hn hr2 hb.1 (by push_cast; exact hb.2)
  obtain ⟨z, hz, ez⟩ := encrypt_enc hn hr3 hc.1 (by push_cast; exact hc.2)
  obtain ⟨s, hs, es⟩ := add_enc hn ex ey
  obtain ⟨d, hd, ed⟩ := sub_enc hn es ez
  obtain ⟨t, ht, et⟩ := mult_enc hn ed k
  have e : (generateKeyPair p q).1 = keyOf (p * q) := rfl
  rw [e, hx, Res.ok_bind, hy, Res.ok_bind, hz, Res.ok_bind, hs, Res.ok_bind, hd, Res.ok_bind, ht, Res.ok_bind]
  exact decrypt_enc h et

example : Paillier.add (generateKeyPair 5 7).1 (some 429) (some 429) = .ok (some 291) ∧
    decrypt (generateKeyPair 5 7).2 (some 291) = .ok 24 ∧
    divPlaintext (generateKeyPair 5 7).1 (some 429) 3 = .ok (some 359) ∧
    decrypt (generateKeyPair 5 7).2 (some 359) = .ok 4 := by
  refine ⟨by decide +kernel, by decide +kernel, by decide +kernel, by decide +kernel⟩

end Toku.Props
