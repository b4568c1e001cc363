import Mathlib.AlgebraicGeometry.EllipticCurve.Affine.Point
import Verif.Model.Curve
import Verif.Proof.Primes
/-
The group of secp256k1, from Mathlib: points of y^2 = x^3 + 7 over the integers modulo P.
-/
namespace Toku.Spec
open Toku

instance factP : Fact (Nat.Prime Curve.P) := ⟨Primes.prime_P⟩
instance factN : Fact (Nat.Prime Curve.N) := ⟨Primes.prime_N⟩

/-- The curve y^2 = x^3 + b. -/
def shortCurve (p b : ℕ) : WeierstrassCurve.Affine (ZMod p) := ⟨0, 0, 0, 0, b⟩

/-- The curve y^2 = x^3 + 7. -/
abbrev secp : WeierstrassCurve.Affine (ZMod Curve.P) := shortCurve Curve.P 7

/-- A point of the group: infinity or a pair of coordinates satisfying the equation. -/
abbrev Pt := secp.Point

/-- The pair of numbers representing a point: (0, 0) for infinity, else the coordinates between 0 and p. -/
def coordsOf {p b : ℕ} : (shortCurve p b).Point → ℤ × ℤ
  | .zero => (0, 0)
  | .some x y _ => (x.val, y.val)

abbrev coords (q : Pt) : ℤ × ℤ := coordsOf q

end Toku.Spec
