import Verif.Spec.Keys
import Verif.Spec.Ecdsa
/-
Schnorr signatures as in the draft BIP of 2019 cited by xcrypto/schnorr/schnorr.go.
-/
namespace Toku.Spec

/-- A number has a square root modulo P and is not zero: the Jacobi symbol is 1. -/
def Residue (y : ℤ) : Prop := (y : ZMod Curve.P) ≠ 0 ∧ ∃ z : ZMod Curve.P, z * z = y

/-- `hash(bytes(r) || bytes(q) || m) mod n` -/
def Challenge [Hashes] (q : Pt) (m : Bytes) (r : ℤ) (e : ℕ) : Prop :=
  ∃ rb qb, Is32 rb r ∧ Compressed q qb ∧ e = beNat (Hashes.sha256 (rb ++ qb ++ m)) % Curve.N

/-- The equation of verification: `R = sG - eq` is finite, its y coordinate is a residue and its x coordinate is r. -/
def SchnorrEquation (q : Pt) (e : ℕ) (r s : ℤ) : Prop :=
  ∃ g : Pt, coords g = (Curve.Gx, Curve.Gy) ∧ s • g - e • q ≠ 0 ∧ Residue (coords (s • g - e • q)).2 ∧
    (coords (s • g - e • q)).1 = r

/-- (r, s) is a signature of m under the point q. -/
def SchnorrSignature [Hashes] (q : Pt) (m : Bytes) (r s : ℤ) : Prop :=
  (0 ≤ r ∧ r < Curve.P) ∧ (0 ≤ s ∧ s < Curve.N) ∧ ∃ e, Challenge q m r e ∧ SchnorrEquation q e r s

end Toku.Spec
