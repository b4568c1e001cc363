import Verif.Model.Num
import Mathlib.Data.ZMod.Basic
import Mathlib.Data.Nat.Prime.Basic
import Mathlib.Tactic.Ring
/-
The modular inverse.
-/
namespace Toku.Num

theorem egcd_spec (n : ℕ) (g : ℤ) (fuel : ℕ) : ∀ (r0 r1 : ℕ) (t0 t1 : ℤ), r1 < fuel →
    ((r0 : ℤ) : ZMod n) = t0 * g → ((r1 : ℤ) : ZMod n) = t1 * g →
    (egcd fuel r0 r1 t0 t1).1 = Nat.gcd r0 r1 ∧ (((egcd fuel r0 r1 t0 t1).1 : ℤ) : ZMod n) = (egcd fuel r0 r1 t0 t1).2 * g := by
  induction fuel with
  | zero => intro r0 r1 t0 t1 h; omega
  | succ f ih =>
    intro r0 r1 t0 t1 h h0 h1
    unfold egcd
    split
    · rename_i hz
      rw [hz]
      exact ⟨(Nat.gcd_zero_right r0).symm, h0⟩
    · rename_i hz
      have hlt : r0 % r1 < r1 := Nat.mod_lt _ (by omega)
      have key := ih r1 (r0 % r1) t1 (t0 - (r0 / r1 : ℕ) * t1) (by omega) h1 ?_
      · rw [key.1]
        refine ⟨?_, ?_⟩
        · rw [Nat.gcd_comm r0 r1, Nat.gcd_rec r1 r0, Nat.gcd_comm]
        · rw [← key.1]; exact key.2
      · have e : (r0 : ℤ) = (r1 : ℤ) * (r0 / r1 : ℕ) + (r0 % r1 : ℕ) := by exact_mod_cast (Nat.div_add_mod r0 r1).symm
        have e' : (((r0 % r1 : ℕ) : ℤ) : ZMod n) = ((r0 : ℤ) : ZMod n) - ((r1 : ℤ) : ZMod n) * (((r0 / r1 : ℕ) : ℤ) : ZMod n) := by
          rw [eq_sub_iff_add_eq, show ((r0 : ℤ) : ZMod n) = (((r1 : ℤ) * (r0 / r1 : ℕ) + (r0 % r1 : ℕ) : ℤ) : ZMod n) by
            rw [← e], Int.cast_add, Int.cast_mul, add_comm]
        rw [e', h0, h1]
        push_cast
        ring

/-- The inverse exists exactly for numbers coprime to the modulus. -/
theorem modInverse_eq {n : ℕ} (hn : 1 < n) (g : ℤ) :
    (Int.gcd g n = 1 → ∃ w, modInverse g n = some w ∧ 0 ≤ w ∧ w < n ∧ (w : ZMod n) * (g : ZMod n) = 1) ∧
    (Int.gcd g n ≠ 1 → modInverse g n = none) := by
  have hpos : (0 : ℤ) < n := by omega
  have hm : 0 ≤ g % n := Int.emod_nonneg _ (by omega)
  have hlt : (g % n).toNat < n + 1 := by have := Int.emod_lt_of_pos g hpos; omega
  have hs := egcd_spec n g (n + 1) n (g % n).toNat 0 1 hlt (by simp) (by rw [Int.toNat_of_nonneg hm]; simp)
  have hg : Nat.gcd n (g % n).toNat = Int.gcd g n := by
    have e : Int.gcd g n = Int.gcd (g % n) n := (Int.gcd_emod g n).symm
    rw [e, Int.gcd_def, Int.natAbs_natCast, Nat.gcd_comm]
    congr 1
    omega
  rw [hg] at hs
  unfold modInverse
  generalize egcd (n + 1) n (g % n).toNat 0 1 = r at hs
  obtain ⟨d, t⟩ := r
  obtain ⟨h1, h2⟩ := hs
  dsimp only at h1 h2
  constructor
  · intro hc
    rw [hc] at h1
    subst h1
    refine ⟨t % n, rfl, Int.emod_nonneg _ (by omega), Int.emod_lt_of_pos _ hpos, ?_⟩
    rw [ZMod.intCast_mod, ← h2]
    simp
  · intro hc
    rw [← h1] at hc
    split
    · rename_i heq; cases heq; exact absurd rfl hc
    · rfl

theorem modInverse_prime {n : ℕ} (hn : n.Prime) (g : ℤ) (hg : (g : ZMod n) ≠ 0) :
    ∃ w, modInverse g n = some w ∧ 0 ≤ w ∧ w < n ∧ (w : ZMod n) * (g : ZMod n) = 1 := by
  refine (modInverse_eq hn.one_lt g).1 ?_
  rw [Int.gcd_def, Int.natAbs_natCast]
  refine Nat.Coprime.symm ((Nat.Prime.coprime_iff_not_dvd hn).mpr ?_)
  intro hd
  apply hg
  rw [ZMod.intCast_zmod_eq_zero_iff_dvd]
  exact Int.natCast_dvd.mpr hd

end Toku.Num
