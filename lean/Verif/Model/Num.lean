import Verif.Model.Basic
import Mathlib.Data.Int.Notation
import Mathlib.Data.Nat.Notation
/-
`ModInverse` and `ModSqrt` of Go's math/big, which is outside the repository: the definitions state the documented
results, which determine the value.
-/
namespace Toku.Num

/-- Extended Euclid on remainders `r0, r1` with coefficients `t0, t1`: the last nonzero remainder and its
coefficient. `fuel` bounds the number of steps. -/
def egcd : ℕ → ℕ → ℕ → ℤ → ℤ → ℕ × ℤ
  | 0, r0, _, t0, _ => (r0, t0)
  | fuel + 1, r0, r1, t0, t1 => if r1 = 0 then (r0, t0) else egcd fuel r1 (r0 % r1) t1 (t0 - (r0 / r1 : ℕ) * t1)

/-- `new(big.Int).ModInverse(g, n)` for `n > 0`: the inverse in `0 .. n-1`, nil (`none`) if there is none. -/
def modInverse (g : ℤ) (n : ℕ) : Option ℤ :=
  match egcd (n + 1) n (g % n).toNat 0 1 with
  | (1, t) => some (t % n)
  | _ => none

end Toku.Num
