import Verif.Model.Basic
/-
Specification vocabulary: a list of w-bit groups as a stream of bits, most significant first.
-/
namespace Toku.Spec

/-- The low `w` bits of `n`, most significant first. -/
def bitsOf (w n : Nat) : List Bool := (List.range w).map (fun i => n.testBit (w - 1 - i))

/-- The bit stream of a list of `w`-bit groups. -/
def bitStream (w : Nat) (l : Bytes) : List Bool := l.flatMap (fun b => bitsOf w b.toNat)

/-- Hexadecimal digit characters. -/
def IsHexChar (c : UInt8) : Prop :=
  (0x30 ≤ c.toNat ∧ c.toNat ≤ 0x39) ∨ (0x61 ≤ c.toNat ∧ c.toNat ≤ 0x66) ∨ (0x41 ≤ c.toNat ∧ c.toNat ≤ 0x46)

/-- Lower-case form of an ASCII letter, other bytes unchanged. -/
def lowerAscii (c : UInt8) : UInt8 := if 0x41 ≤ c.toNat ∧ c.toNat ≤ 0x5a then UInt8.ofNat (c.toNat + 32) else c

end Toku.Spec
