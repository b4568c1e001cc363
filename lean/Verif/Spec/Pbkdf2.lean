import Verif.Model.Basic
/-
RFC 2898 section 5.2.
-/
namespace Toku.Spec.Pbkdf2

/-- U_1 = PRF (P, S || INT (i)), U_j = PRF (P, U_(j-1)); numbered from 0 here. -/
def U (prf : Bytes → Bytes) (salt : Bytes) (int4 : Bytes) : Nat → Bytes
  | 0 => prf (salt ++ int4)
  | j + 1 => prf (U prf salt int4 j)

/-- Byte `p` of F (P, S, c, i) = U_1 xor U_2 xor … xor U_c. -/
def F (prf : Bytes → Bytes) (salt : Bytes) (c : Nat) (int4 : Bytes) (p : Nat) : UInt8 :=
  (List.range c).foldl (fun acc j => acc ^^^ (U prf salt int4 j).getD p 0) 0

/-- Byte `q` of DK = T_1 || T_2 || …: block number `q / hLen + 1`, most significant byte of the number
first. -/
def byte (prf : Bytes → Bytes) (hLen : Nat) (salt : Bytes) (c q : Nat) : UInt8 :=
  let i := q / hLen + 1
  F prf salt c [UInt8.ofNat (i / 256^3), UInt8.ofNat (i / 256^2), UInt8.ofNat (i / 256), UInt8.ofNat i] (q % hLen)

end Toku.Spec.Pbkdf2
