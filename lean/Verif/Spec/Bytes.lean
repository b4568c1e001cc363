import Verif.Model.Basic
/-
Specification vocabulary for byte strings, independent of the model: numbers written in base 256.
-/
namespace Toku.Spec

/-- Value of a byte string read as a little-endian number. -/
def leNat : Bytes → Nat
  | [] => 0
  | b :: bs => b.toNat + 256 * leNat bs

/-- Value of a byte string read as a big-endian number. -/
def beNat (bs : Bytes) : Nat := bs.foldl (fun acc b => acc * 256 + b.toNat) 0

/-- `e` is one of the Bitcoin CompactSize encodings of `n`: one byte below 0xfd, or a marker byte
followed by a 2-, 4- or 8-byte little-endian number. -/
def IsVarInt (e : Bytes) (n : Nat) : Prop :=
  (∃ b : UInt8, b.toNat < 0xfd ∧ e = [b] ∧ n = b.toNat) ∨
  (∃ t : Bytes, t.length = 2 ∧ e = 0xfd :: t ∧ n = leNat t) ∨
  (∃ t : Bytes, t.length = 4 ∧ e = 0xfe :: t ∧ n = leNat t) ∨
  (∃ t : Bytes, t.length = 8 ∧ e = 0xff :: t ∧ n = leNat t)

end Toku.Spec
