import Verif.Spec.Curve
import Verif.Spec.Bytes
import Verif.Model.Hmac
/-
Specifications for signatures: the ECDSA equations (SEC 1, section 4.1), the nonces of RFC 6979 for a 256-bit group order
and HMAC-SHA256, and the DER form of a signature (X.690, section 8 and 10.1).
-/
namespace Toku.Spec

/-! ### ECDSA -/

/-- The number signed: the leftmost 256 bits of the hash. -/
def hashNum (hash : Bytes) : ℕ := beNat (hash.take 32)

/-- (r, s) is a signature under the point q: with w the inverse of s modulo N, the point `(ew)G + (rw)q` is finite and
its x coordinate is r modulo N. -/
def Signature (q : Pt) (hash : Bytes) (r s : ℤ) : Prop :=
  (1 ≤ r ∧ r < Curve.N) ∧ (1 ≤ s ∧ s < Curve.N) ∧ ∃ w u1 u2 : ℕ, (w * s) % Curve.N = 1 ∧ w < Curve.N ∧
    u1 = (hashNum hash * w) % Curve.N ∧ (u2 : ℤ) = (r * w) % Curve.N ∧
    ∃ g : Pt, coords g = (Curve.Gx, Curve.Gy) ∧ u1 • g + u2 • q ≠ 0 ∧ (coords (u1 • g + u2 • q)).1 % Curve.N = r

/-! ### RFC 6979 -/

/-- The big-endian form in `k` bytes. -/
def be : ℕ → ℕ → Bytes
  | 0, _ => []
  | k + 1, n => be k (n / 256) ++ [UInt8.ofNat (n % 256)]

section
variable [Hashes]

/-- Steps a to g of section 3.2: the pair (K, V) at the start of step h, for group order q of 256 bits, private key x
and message hash `hash`. -/
def rfcStart (q x : ℕ) (hash : Bytes) : Bytes × Bytes :=
  let msg := be 32 x ++ be 32 (hashNum hash % q)
  let V := List.replicate 32 0x01
  let K := List.replicate 32 0x00
  let K := hmac256 K (V ++ [0x00] ++ msg)
  let V := hmac256 K V
  let K := hmac256 K (V ++ [0x01] ++ msg)
  let V := hmac256 K V
  (K, V)

/-- The pair (K, V) after `i` candidates have been rejected (step h.3). -/
def rfcState (q x : ℕ) (hash : Bytes) : ℕ → Bytes × Bytes
  | 0 => rfcStart q x hash
  | i + 1 =>
    let (K, V) := rfcState q x hash i
    let V := hmac256 K V
    let K := hmac256 K (V ++ [0x00])
    (K, hmac256 K V)

/-- The i-th candidate (steps h.1 and h.2): one HMAC value gives all 256 bits. -/
def rfcCandidate (q x : ℕ) (hash : Bytes) (i : ℕ) : ℕ :=
  beNat (hmac256 (rfcState q x hash i).1 (rfcState q x hash i).2)

end

/-! ### DER -/

/-- The two's complement value of a byte string. -/
def twosComplement : Bytes → ℤ
  | [] => 0
  | c :: b => (beNat (c :: b) : ℤ) - if 128 ≤ c.toNat then 256 ^ (c :: b).length else 0

/-- The contents of an INTEGER: two's complement, not empty, the first nine bits not all equal. -/
def IsInt (x : ℤ) (c : Bytes) : Prop :=
  c ≠ [] ∧ twosComplement c = x ∧
    ∀ a b t, c = a :: b :: t → ¬ (a = 0x00 ∧ b.toNat < 128) ∧ ¬ (a = 0xff ∧ 128 ≤ b.toNat)

/-- The definite length: one byte below 128, otherwise the number of bytes plus 128 and the bytes without leading
zero. -/
def IsLen (n : ℕ) (l : Bytes) : Prop :=
  (n < 128 ∧ l = [UInt8.ofNat n]) ∨
  (128 ≤ n ∧ ∃ c b, beNat (c :: b) = n ∧ c ≠ 0 ∧ (c :: b).length < 127 ∧ l = UInt8.ofNat (128 + (c :: b).length) :: c :: b)

/-- Tag, length, contents. -/
def Element (tag : UInt8) (content bs : Bytes) : Prop := ∃ l, IsLen content.length l ∧ bs = tag :: (l ++ content)

/-- The DER form of a signature: a SEQUENCE of two INTEGERs. -/
def DerSignature (r s : ℤ) (bs : Bytes) : Prop :=
  ∃ rc sc re se, IsInt r rc ∧ IsInt s sc ∧ Element 0x02 rc re ∧ Element 0x02 sc se ∧ Element 0x30 (re ++ se) bs

end Toku.Spec
