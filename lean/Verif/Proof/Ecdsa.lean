import Verif.Model.Ecdsa
import Verif.Proof.Keys
/-
The algebra of ECDSA.
-/
namespace Toku.Ecdsa
open Toku.Spec Toku.Curve Toku.Keys

theorem N_pos : (0 : ℤ) < N := by decide +kernel

theorem castN_inj {x y : ℤ} (hx : 0 ≤ x ∧ x < N) (hy : 0 ≤ y ∧ y < N) : (x : ZMod N) = y ↔ x = y :=
  cast_inj (p := N) hx hy

/-- Multiples of the generator depend on the scalar modulo N only. -/
theorem smul_eq {a b : ℕ} (h : (a : ZMod N) = b) : a • G = b • G := by
  rw [nsmul_eq_nsmul_iff_modEq, order_G]
  exact (ZMod.natCast_eq_natCast_iff a b N).mp h

theorem smul_neg' {a b : ℕ} (h : (a : ZMod N) = -(b : ZMod N)) : a • G = -(b • G) := by
  rw [eq_neg_iff_add_eq_zero, ← add_nsmul]
  have : ((a + b : ℕ) : ZMod N) = (0 : ℕ) := by push_cast; rw [h]; simp
  rw [smul_eq this, zero_nsmul]

theorem smul_ne {k : ℕ} (h1 : 1 ≤ k) (h2 : k < N) : k • G ≠ 0 := by
  intro h
  have := addOrderOf_dvd_of_nsmul_eq_zero h
  rw [order_G] at this
  exact absurd (Nat.le_of_dvd h1 this) (by omega)

/-- Opposite points have the same x coordinate. -/
theorem coords_neg (q : Pt) : (coords (-q)).1 = (coords q).1 := by
  cases q with
  | zero => rfl
  | some x y h => rfl

theorem mod_N (x : ℤ) : ((x % N : ℤ) : ZMod N) = x := ZMod.intCast_mod x N

theorem toNat_cast {x : ℤ} (h : 0 ≤ x) : ((x.toNat : ℕ) : ZMod N) = (x : ZMod N) := by
  rw [← Int.cast_natCast, Int.toNat_of_nonneg h]

/-- What a signature is. -/
theorem signWith_ok {k d : ℕ} {hash : Bytes} (hk1 : 1 ≤ k) (hk2 : k < N) {r s : ℤ} (h : signWith k d hash = .ok (r, s)) :
    r = (coords (k • G)).1 % N ∧ (1 ≤ r ∧ r < N) ∧ (1 ≤ s ∧ s ≤ (N / 2 : ℕ)) ∧
    ((s : ZMod N) * k = d * r + hashToInt hash ∨ (s : ZMod N) * k = -(d * r + hashToInt hash)) := by
  unfold signWith at h
  rw [baseMult_coords, natOfBE_natToBE] at h
  generalize coords (k • G) = c at h ⊢
  obtain ⟨x, y⟩ := c
  simp only [Res.ok_bind] at h ⊢
  split at h
  · cases h
  rename_i hr
  have hkz : ((k : ℤ) : ZMod N) ≠ 0 := by
    rw [Ne, cast_zero_iff (p := N) ⟨Int.natCast_nonneg _, by exact_mod_cast hk2⟩]
    omega
  obtain ⟨w, e, w0, w1, hw⟩ := Num.modInverse_prime (n := N) Primes.prime_N k hkz
  rw [e] at h
  dsimp only at h
  generalize hs0 : ((d * (x % N) + hashToInt hash) * w) % (N : ℤ) = s0 at h
  have hs0r : 0 ≤ s0 ∧ s0 < N := by rw [← hs0]; exact mod_range (p := N) _
  have hrr : 0 ≤ x % N ∧ x % N < N := mod_range (p := N) _
  generalize hrg : x % (N : ℤ) = r0 at h hr hrr hs0
  have hs0k : (s0 : ZMod N) * k = d * r0 + hashToInt hash := by
    rw [← hs0, mod_N]
    push_cast
    have hw : (w : ZMod N) * (k : ZMod N) = 1 := by exact_mod_cast hw
    linear_combination (d * r0 + hashToInt hash) * hw
  split at h
  · rename_i hgt
    split at h
    · cases h
    rename_i hne
    have h := Res.ok.inj h
    obtain ⟨rfl, rfl⟩ := Prod.mk.inj h
    refine ⟨rfl, ⟨by omega, hrr.2⟩, ⟨by omega, by omega⟩, Or.inr ?_⟩
    push_cast
    rw [ZMod.natCast_self]
    linear_combination -hs0k
  · rename_i hgt
    split at h
    · cases h
    rename_i hne
    have h := Res.ok.inj h
    obtain ⟨rfl, rfl⟩ := Prod.mk.inj h
    exact ⟨rfl, ⟨by omega, hrr.2⟩, ⟨by omega, by omega⟩, Or.inl hs0k⟩

/-- Verification in terms of the group. -/
theorem verify_eq (q : Pt) (hash : Bytes) {r s : ℤ} (hr : 1 ≤ r ∧ r < N) (hs : 1 ≤ s ∧ s < N) :
    ∃ w : ZMod N, w * s = 1 ∧ ∃ u1 u2 : ℕ, (u1 : ZMod N) = hashToInt hash * w ∧ (u2 : ZMod N) = r * w ∧
      verify ⟨(coords q).1, (coords q).2⟩ hash r s =
        .ok (decide (u1 • G + u2 • q ≠ 0) && ((coords (u1 • G + u2 • q)).1 % N == r)) := by
  have hsz : (s : ZMod N) ≠ 0 := by
    rw [Ne, cast_zero_iff (p := N) ⟨by omega, hs.2⟩]; omega
  obtain ⟨w, e, w0, w1, hw⟩ := Num.modInverse_prime (n := N) Primes.prime_N s hsz
  have h1 : 0 ≤ (hashToInt hash * w : ℤ) % N := (mod_range (p := N) _).1
  have h2 : 0 ≤ (r * w : ℤ) % N := (mod_range (p := N) _).1
  refine ⟨w, hw, ((hashToInt hash * w : ℤ) % N).toNat, ((r * w : ℤ) % N).toNat, ?_, ?_, ?_⟩
  · rw [toNat_cast h1, mod_N]; push_cast; rfl
  · rw [toNat_cast h2, mod_N]; push_cast; rfl
  · unfold verify
    rw [if_neg (by omega), if_neg (by omega)]
    dsimp only
    rw [e]
    dsimp only
    rw [baseMult_coords, natOfBE_natToBE, mult_coords, natOfBE_natToBE]
    simp only [Res.ok_bind]
    rw [add_coords]
    simp only [Res.ok_bind, Res.pure_eq]
    generalize ((hashToInt hash * w : ℤ) % N).toNat • G + ((r * w : ℤ) % N).toNat • q = p
    by_cases hp : p = 0
    · subst hp
      rw [if_pos ⟨rfl, rfl⟩]
      simp
    · rw [if_neg]
      · simp [hp]
      · rintro ⟨a, c⟩
        exact hp (coords_eq_zero.mp (Prod.ext a c))

/-- Verification is the textbook test: the scalars may be any numbers in the right classes. -/
theorem verify_iff (q : Pt) (hq : N • q = 0) (hash : Bytes) {r s : ℤ} (hr : 1 ≤ r ∧ r < N) (hs : 1 ≤ s ∧ s < N) (u1 u2 : ℕ)
    (h1 : (u1 : ZMod N) * s = hashToInt hash) (h2 : (u2 : ZMod N) * s = r) :
    verify ⟨(coords q).1, (coords q).2⟩ hash r s =
      .ok (decide (u1 • G + u2 • q ≠ 0) && ((coords (u1 • G + u2 • q)).1 % N == r)) := by
  obtain ⟨w, hw, v1, v2, e1, e2, h⟩ := verify_eq q hash hr hs
  have a1 : (u1 : ZMod N) = v1 := by rw [e1]; linear_combination -(u1 : ZMod N) * hw + w * h1
  have a2 : (u2 : ZMod N) = v2 := by rw [e2]; linear_combination -(u2 : ZMod N) * hw + w * h2
  rw [h, smul_eq a1]
  have : u2 • q = v2 • q := by
    rw [nsmul_eq_nsmul_iff_modEq]
    exact ((ZMod.natCast_eq_natCast_iff u2 v2 N).mp a2).of_dvd (addOrderOf_dvd_of_nsmul_eq_zero hq)
  rw [this]

/-- A signature verifies. -/
theorem verify_sign {k d : ℕ} {hash : Bytes} (hk1 : 1 ≤ k) (hk2 : k < N) {r s : ℤ} (h : signWith k d hash = .ok (r, s)) :
    verify ⟨(coords (d • G)).1, (coords (d • G)).2⟩ hash r s = .ok true := by
  obtain ⟨hr, hrr, hss, hs⟩ := signWith_ok hk1 hk2 h
  have hsN : s < N := by
    have : ((N / 2 : ℕ) : ℤ) < N := by decide +kernel
    omega
  obtain ⟨w, hw, u1, u2, e1, e2, hv⟩ := verify_eq (d • G) hash hrr ⟨hss.1, hsN⟩
  rw [hv, smul_smul, ← add_smul]
  have hpt : ((u1 + u2 * d) • G = k • G ∨ (u1 + u2 * d) • G = -(k • G)) := by
    rcases hs with hs | hs
    · left
      apply smul_eq
      push_cast
      rw [e1, e2]
      linear_combination -w * hs + (k : ZMod N) * hw
    · right
      apply smul_neg'
      push_cast
      rw [e1, e2]
      linear_combination w * hs - (k : ZMod N) * hw
  have hne : (u1 + u2 * d) • G ≠ 0 := by
    rcases hpt with e | e
    · rw [e]; exact smul_ne hk1 hk2
    · rw [e, neg_ne_zero]; exact smul_ne hk1 hk2
  have hx : (coords ((u1 + u2 * d) • G)).1 % N = r := by
    rcases hpt with e | e
    · rw [e, hr]
    · rw [e, coords_neg, hr]
  rw [hx]
  simp [hne]

/-- When signing from a given nonce fails. -/
theorem signWith_cases {k d : ℕ} {hash : Bytes} (hk1 : 1 ≤ k) (hk2 : k < N) :
    signWith k d hash = .err errRZero ∨ signWith k d hash = .err errSZero ∨ ∃ rs, signWith k d hash = .ok rs := by
  unfold signWith
  rw [baseMult_coords, natOfBE_natToBE]
  generalize coords (k • G) = c
  obtain ⟨x, y⟩ := c
  simp only [Res.ok_bind]
  split
  · exact Or.inl rfl
  have hkz : ((k : ℤ) : ZMod N) ≠ 0 := by
    rw [Ne, cast_zero_iff (p := N) ⟨Int.natCast_nonneg _, by exact_mod_cast hk2⟩]
    omega
  obtain ⟨w, e, w0, w1, hw⟩ := Num.modInverse_prime (n := N) Primes.prime_N k hkz
  rw [e]
  dsimp only
  have key : ∀ s : ℤ, (if s = 0 then Res.err errSZero else .ok (x % (N : ℤ), s)) = .err errRZero ∨
      (if s = 0 then Res.err errSZero else .ok (x % (N : ℤ), s)) = .err errSZero ∨
      ∃ rs, (if s = 0 then Res.err errSZero else .ok (x % (N : ℤ), s)) = .ok rs := by
    intro s
    by_cases hs : s = 0
    · exact Or.inr (Or.inl (if_pos hs))
    · exact Or.inr (Or.inr ⟨_, if_neg hs⟩)
  exact key _

/-! ### the nonce -/

variable [Hashes]

theorem nonceLoop_range (q qlen fuel : ℕ) : ∀ (k v : Bytes) (n : ℕ), nonceLoop q qlen fuel k v = some n → 1 ≤ n ∧ n < q := by
  induction fuel with
  | zero => intro k v n h; cases h
  | succ f ih =>
    intro k v n h
    unfold nonceLoop at h
    dsimp only at h
    split at h
    · rename_i hr
      cases h
      exact hr
    · exact ih _ _ _ h

theorem nonce_range {q fuel x : ℕ} {hash : Bytes} {n : ℕ} (h : nonce q fuel x hash = some n) : 1 ≤ n ∧ n < q :=
  nonceLoop_range _ _ _ _ _ _ h

theorem sign_ok {fuel d : ℕ} {hash : Bytes} {r s : ℤ} (h : sign fuel d hash = .ok (r, s)) :
    ∃ k, nonce N fuel d hash = some k ∧ (1 ≤ k ∧ k < N) ∧ signWith k d hash = .ok (r, s) := by
  unfold sign at h
  cases e : nonce N fuel d hash with
  | none => rw [e] at h; cases h
  | some k =>
    rw [e] at h
    exact ⟨k, rfl, nonce_range e, h⟩

end Toku.Ecdsa
