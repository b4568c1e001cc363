import Mathlib.Data.Int.ModEq
import Mathlib.Data.Nat.Prime.Basic
/-
Specification of Paillier's scheme with g = n + 1: the ciphertexts of a plaintext.
-/
namespace Toku.Spec

/-- The keys: the product of two different primes, coprime to (p-1)(q-1). -/
def PaillierPrimes (p q : ℕ) : Prop :=
  p.Prime ∧ q.Prime ∧ p ≠ q ∧ Nat.Coprime (p * q) ((p - 1) * (q - 1))

/-- `c` is a ciphertext of `m` modulo `n`: `(1+n)^m r^n` modulo `n^2` for some r coprime to n. -/
def Encrypts (n : ℕ) (c : ℤ) (m : ℕ) : Prop :=
  (0 < c ∧ c < n * n) ∧ ∃ r : ℕ, Nat.Coprime r n ∧ c ≡ (1 + n) ^ m * r ^ n [ZMOD n * n]

end Toku.Spec
