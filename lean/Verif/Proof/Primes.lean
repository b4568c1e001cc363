import Mathlib.NumberTheory.LucasPrimality
import Mathlib.Tactic.NormNum.Prime
/-
The field prime and the group order of secp256k1 are prime: certificates of Pratt, checked by the kernel.
-/
namespace Toku.Primes

/-- `a ^ e % m` by repeated squaring, for exponents below `2 ^ fuel`. -/
def powMod (m : ℕ) : ℕ → ℕ → ℕ → ℕ
  | 0, _, _ => 1 % m
  | f + 1, a, e => if e = 0 then 1 % m else
    if e % 2 = 1 then a * powMod m f (a * a % m) (e / 2) % m else powMod m f (a * a % m) (e / 2)

theorem powMod_eq (m fuel : ℕ) : ∀ a e, e < 2 ^ fuel → powMod m fuel a e = a ^ e % m := by
  induction fuel with
  | zero => intro a e h; rw [Nat.pow_zero] at h; rw [show e = 0 by omega]; rfl
  | succ f ih =>
    intro a e h
    have hd : e / 2 < 2 ^ f := by rw [Nat.pow_succ] at h; omega
    unfold powMod
    split
    · rename_i h0; rw [h0, Nat.pow_zero]
    · rw [ih _ _ hd]
      have e2 : (a * a % m) ^ (e / 2) % m = a ^ (2 * (e / 2)) % m := by
        rw [← Nat.pow_mod, ← Nat.pow_two, ← Nat.pow_mul]
      split
      · conv_rhs => rw [show e = 2 * (e / 2) + 1 by omega, Nat.pow_succ, Nat.mul_comm, Nat.mul_mod, ← e2]
        rw [Nat.mul_mod, Nat.mod_mod]
      · conv_rhs => rw [show e = 2 * (e / 2) by omega]
        exact e2

/-- Lucas' test with the prime factors of `p - 1` listed with multiplicity. -/
theorem pratt {p : ℕ} (a : ℕ) (factors : List ℕ) (hp : 1 < p) (hl : p < 2 ^ 260) (hf : ∀ q ∈ factors, q.Prime)
    (hprod : factors.prod = p - 1) (h1 : powMod p 260 a (p - 1) = 1)
    (h2 : ∀ q ∈ factors, powMod p 260 a ((p - 1) / q) ≠ 1) : p.Prime := by
  have cast : ∀ e, ((a : ZMod p)) ^ e = 1 ↔ a ^ e % p = 1 := by
    intro e
    rw [show (a : ZMod p) ^ e = ((a ^ e : ℕ) : ZMod p) by push_cast; rfl, show (1 : ZMod p) = ((1 : ℕ) : ZMod p) by push_cast; rfl,
      ZMod.natCast_eq_natCast_iff', Nat.mod_eq_of_lt hp]
  have small : ∀ e, e ≤ p - 1 → e < 2 ^ 260 := fun e he => by omega
  refine lucas_primality p (a : ZMod p) ((cast _).mpr ?_) ?_
  · rw [← powMod_eq p 260 a _ (small _ (Nat.le_refl _))]; exact h1
  · intro q hq hd e
    have hq' : q ∈ factors := by
      rw [← hprod] at hd
      obtain ⟨r, hr, hqr⟩ := (Nat.Prime.prime hq).dvd_prod_iff.mp hd
      rwa [(Nat.prime_dvd_prime_iff_eq hq (hf r hr)).mp hqr]
    refine h2 q hq' ?_
    rw [powMod_eq p 260 a _ (small _ (Nat.div_le_self _ _))]
    exact (cast _).mp e

theorem prime_107590001 : Nat.Prime 107590001 := by
  refine pratt 3 [2, 2, 2, 2, 5, 5, 5, 5, 7, 29, 53] (by norm_num) (by decide +kernel) ?_ (by norm_num) (by decide +kernel) (by decide +kernel)
  simp only [List.mem_cons, List.not_mem_nil, or_false, forall_eq_or_imp, forall_eq]
  exact ⟨by norm_num, by norm_num, by norm_num, by norm_num, by norm_num, by norm_num, by norm_num, by norm_num, by norm_num, by norm_num, by norm_num⟩

theorem prime_255515944373312847190720520512484175977 : Nat.Prime 255515944373312847190720520512484175977 := by
  refine pratt 3 [2, 2, 2, 7, 7, 11, 1627, 2657, 4423, 41201, 96557, 7240687, 107590001] (by norm_num) (by decide +kernel) ?_ (by norm_num) (by decide +kernel) (by decide +kernel)
  simp only [List.mem_cons, List.not_mem_nil, or_false, forall_eq_or_imp, forall_eq]
  exact ⟨by norm_num, by norm_num, by norm_num, by norm_num, by norm_num, by norm_num, by norm_num, by norm_num, by norm_num, by norm_num, by norm_num, by norm_num, prime_107590001⟩

theorem prime_173378833005251801 : Nat.Prime 173378833005251801 := by
  refine pratt 6 [2, 2, 2, 5, 5, 2621, 24809, 13331831] (by norm_num) (by decide +kernel) ?_ (by norm_num) (by decide +kernel) (by decide +kernel)
  simp only [List.mem_cons, List.not_mem_nil, or_false, forall_eq_or_imp, forall_eq]
  exact ⟨by norm_num, by norm_num, by norm_num, by norm_num, by norm_num, by norm_num, by norm_num, by norm_num⟩

theorem prime_22149492674086928081353 : Nat.Prime 22149492674086928081353 := by
  refine pratt 5 [2, 2, 2, 3, 5323, 173378833005251801] (by norm_num) (by decide +kernel) ?_ (by norm_num) (by decide +kernel) (by decide +kernel)
  simp only [List.mem_cons, List.not_mem_nil, or_false, forall_eq_or_imp, forall_eq]
  exact ⟨by norm_num, by norm_num, by norm_num, by norm_num, by norm_num, prime_173378833005251801⟩

theorem prime_132896956044521568488119 : Nat.Prime 132896956044521568488119 := by
  refine pratt 6 [2, 3, 22149492674086928081353] (by norm_num) (by decide +kernel) ?_ (by norm_num) (by decide +kernel) (by decide +kernel)
  simp only [List.mem_cons, List.not_mem_nil, or_false, forall_eq_or_imp, forall_eq]
  exact ⟨by norm_num, by norm_num, prime_22149492674086928081353⟩

theorem prime_205115282021455665897114700593932402728804164701536103180137503955397371 : Nat.Prime 205115282021455665897114700593932402728804164701536103180137503955397371 := by
  refine pratt 10 [2, 3, 5, 29, 29, 31, 7723, 132896956044521568488119, 255515944373312847190720520512484175977] (by norm_num) (by decide +kernel) ?_ (by norm_num) (by decide +kernel) (by decide +kernel)
  simp only [List.mem_cons, List.not_mem_nil, or_false, forall_eq_or_imp, forall_eq]
  exact ⟨by norm_num, by norm_num, by norm_num, by norm_num, by norm_num, by norm_num, by norm_num, prime_132896956044521568488119, prime_255515944373312847190720520512484175977⟩

theorem prime_P : Nat.Prime 115792089237316195423570985008687907853269984665640564039457584007908834671663 := by
  refine pratt 3 [2, 3, 7, 13441, 205115282021455665897114700593932402728804164701536103180137503955397371] (by norm_num) (by decide +kernel) ?_ (by norm_num) (by decide +kernel) (by decide +kernel)
  simp only [List.mem_cons, List.not_mem_nil, or_false, forall_eq_or_imp, forall_eq]
  exact ⟨by norm_num, by norm_num, by norm_num, by norm_num, prime_205115282021455665897114700593932402728804164701536103180137503955397371⟩

theorem prime_174723607534414371449 : Nat.Prime 174723607534414371449 := by
  refine pratt 3 [2, 2, 2, 17, 59, 4051, 120233, 44706919] (by norm_num) (by decide +kernel) ?_ (by norm_num) (by decide +kernel) (by decide +kernel)
  simp only [List.mem_cons, List.not_mem_nil, or_false, forall_eq_or_imp, forall_eq]
  exact ⟨by norm_num, by norm_num, by norm_num, by norm_num, by norm_num, by norm_num, by norm_num, by norm_num⟩

theorem prime_107361793816595537 : Nat.Prime 107361793816595537 := by
  refine pratt 3 [2, 2, 2, 2, 16699, 85831, 4681609] (by norm_num) (by decide +kernel) ?_ (by norm_num) (by decide +kernel) (by decide +kernel)
  simp only [List.mem_cons, List.not_mem_nil, or_false, forall_eq_or_imp, forall_eq]
  exact ⟨by norm_num, by norm_num, by norm_num, by norm_num, by norm_num, by norm_num, by norm_num⟩

theorem prime_297159362677 : Nat.Prime 297159362677 := by
  refine pratt 2 [2, 2, 3, 3, 11, 461, 1627771] (by norm_num) (by decide +kernel) ?_ (by norm_num) (by decide +kernel) (by decide +kernel)
  simp only [List.mem_cons, List.not_mem_nil, or_false, forall_eq_or_imp, forall_eq]
  exact ⟨by norm_num, by norm_num, by norm_num, by norm_num, by norm_num, by norm_num, by norm_num⟩

theorem prime_545358713 : Nat.Prime 545358713 := by
  refine pratt 5 [2, 2, 2, 41, 59, 28181] (by norm_num) (by decide +kernel) ?_ (by norm_num) (by decide +kernel) (by decide +kernel)
  simp only [List.mem_cons, List.not_mem_nil, or_false, forall_eq_or_imp, forall_eq]
  exact ⟨by norm_num, by norm_num, by norm_num, by norm_num, by norm_num, by norm_num⟩

theorem prime_29047611873442575647497758179 : Nat.Prime 29047611873442575647497758179 := by
  refine pratt 2 [2, 293, 305873, 545358713, 297159362677] (by norm_num) (by decide +kernel) ?_ (by norm_num) (by decide +kernel) (by decide +kernel)
  simp only [List.mem_cons, List.not_mem_nil, or_false, forall_eq_or_imp, forall_eq]
  exact ⟨by norm_num, by norm_num, by norm_num, prime_545358713, prime_297159362677⟩

theorem prime_341948486974166000522343609283189 : Nat.Prime 341948486974166000522343609283189 := by
  refine pratt 2 [2, 2, 3, 3, 3, 109, 29047611873442575647497758179] (by norm_num) (by decide +kernel) ?_ (by norm_num) (by decide +kernel) (by decide +kernel)
  simp only [List.mem_cons, List.not_mem_nil, or_false, forall_eq_or_imp, forall_eq]
  exact ⟨by norm_num, by norm_num, by norm_num, by norm_num, by norm_num, by norm_num, prime_29047611873442575647497758179⟩

theorem prime_N : Nat.Prime 115792089237316195423570985008687907852837564279074904382605163141518161494337 := by
  refine pratt 7 [2, 2, 2, 2, 2, 2, 3, 149, 631, 107361793816595537, 174723607534414371449, 341948486974166000522343609283189] (by norm_num) (by decide +kernel) ?_ (by norm_num) (by decide +kernel) (by decide +kernel)
  simp only [List.mem_cons, List.not_mem_nil, or_false, forall_eq_or_imp, forall_eq]
  exact ⟨by norm_num, by norm_num, by norm_num, by norm_num, by norm_num, by norm_num, by norm_num, by norm_num, by norm_num, prime_107361793816595537, prime_174723607534414371449, prime_341948486974166000522343609283189⟩

end Toku.Primes
