import Verif.Spec.Curve
import Verif.Spec.Bytes
/-
The serialisations of a finite point of SEC 1, section 2.3.3, and the hybrid form.
-/
namespace Toku.Spec

/-- The 32-byte big-endian form of a number. -/
def Is32 (bs : Bytes) (n : ℤ) : Prop := bs.length = 32 ∧ (beNat bs : ℤ) = n

/-- Prefix 2 for even y, 3 for odd, then x. -/
def Compressed (q : Pt) (bs : Bytes) : Prop :=
  ∃ xb, Is32 xb (coords q).1 ∧ bs = (if (coords q).2 % 2 = 1 then 3 else 2) :: xb

/-- Prefix 4, then x and y. -/
def Uncompressed (q : Pt) (bs : Bytes) : Prop :=
  ∃ xb yb, Is32 xb (coords q).1 ∧ Is32 yb (coords q).2 ∧ bs = 4 :: (xb ++ yb)

/-- Prefix 6 for even y, 7 for odd, then x and y. -/
def Hybrid (q : Pt) (bs : Bytes) : Prop :=
  ∃ xb yb, Is32 xb (coords q).1 ∧ Is32 yb (coords q).2 ∧ bs = (if (coords q).2 % 2 = 1 then 7 else 6) :: (xb ++ yb)

end Toku.Spec
