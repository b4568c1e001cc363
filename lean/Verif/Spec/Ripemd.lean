import Verif.Spec.Bytes
import Mathlib.Data.Nat.Sqrt
import Mathlib.Logic.Function.Iterate
/-
RIPEMD-160 as published (Dobbertin, Bosselaers, Preneel): padding, the five Boolean functions, constants
from square and cube roots, word order from the permutations rho and pi, one shift table for both lines.
-/
namespace Toku.Spec.Ripemd

/-- Five 32-bit words. -/
abbrev H := UInt32 × UInt32 × UInt32 × UInt32 × UInt32

/-- The Boolean functions f1 … f5 (index 0 to 4). -/
def f (round : Nat) (x y z : UInt32) : UInt32 :=
  match round with
  | 0 => x ^^^ y ^^^ z
  | 1 => (x &&& y) ||| (~~~x &&& z)
  | 2 => (x ||| ~~~y) ^^^ z
  | 3 => (x &&& z) ||| (y &&& ~~~z)
  | _ => x ^^^ (y ||| ~~~z)

/-- floor(2^30 * sqrt p) for p = 2, 3, 5, 7, and 0 first. -/
def kLeft (round : Nat) : UInt32 :=
  match round with
  | 0 => 0
  | 1 => UInt32.ofNat (Nat.sqrt (2 * 2^60))
  | 2 => UInt32.ofNat (Nat.sqrt (3 * 2^60))
  | 3 => UInt32.ofNat (Nat.sqrt (5 * 2^60))
  | _ => UInt32.ofNat (Nat.sqrt (7 * 2^60))

/-- Integer cube root by bisection of bits: the largest k below 2^32 with k^3 ≤ n. -/
def cbrt (n : Nat) : Nat :=
  (List.range 32).reverse.foldl (fun k i => if (k + 2^i)^3 ≤ n then k + 2^i else k) 0

/-- floor(2^30 * cbrt p) for p = 2, 3, 5, 7, and 0 last. -/
def kRight (round : Nat) : UInt32 :=
  match round with
  | 0 => UInt32.ofNat (cbrt (2 * 2^90))
  | 1 => UInt32.ofNat (cbrt (3 * 2^90))
  | 2 => UInt32.ofNat (cbrt (5 * 2^90))
  | 3 => UInt32.ofNat (cbrt (7 * 2^90))
  | _ => 0

/-- The permutation rho. -/
def rho (i : Nat) : Nat := [7, 4, 13, 1, 10, 6, 15, 3, 12, 0, 9, 5, 2, 14, 11, 8].getD i 0

/-- The permutation pi. -/
def pi (i : Nat) : Nat := (9 * i + 5) % 16

/-- Word used at step j: rho iterated `round` times, on the right line after pi. -/
def wordLeft (j : Nat) : Nat := Nat.iterate rho (j / 16) (j % 16)
def wordRight (j : Nat) : Nat := Nat.iterate rho (j / 16) (pi (j % 16))

/-- Rotation amount by round and word. -/
def shift (round word : Nat) : Nat :=
  ([[11, 14, 15, 12, 5, 8, 7, 9, 11, 13, 14, 15, 6, 7, 9, 8],
    [12, 13, 11, 15, 6, 9, 9, 7, 12, 15, 11, 13, 7, 8, 7, 7],
    [13, 15, 14, 11, 7, 7, 6, 8, 13, 14, 13, 12, 5, 5, 6, 9],
    [14, 11, 12, 14, 8, 6, 5, 5, 15, 12, 15, 14, 9, 9, 8, 6],
    [15, 12, 13, 13, 9, 5, 8, 6, 14, 11, 12, 11, 8, 6, 5, 5]].getD round []).getD word 0

/-- Cyclic left rotation of a 32-bit word. -/
def rol (s : Nat) (x : UInt32) : UInt32 :=
  UInt32.ofNat ((x.toNat * 2^s) % 2^32 + x.toNat / 2^(32 - s))

/-- One step of a line with Boolean function number `fn`, constant `k`, word `w`, rotation `s`. -/
def stepLine (fn : Nat) (k w : UInt32) (s : Nat) : H → H
  | (a, b, c, d, e) => (e, rol s (a + f fn b c d + w + k) + e, b, rol 10 c, d)

/-- The word number `i` of a 64-byte block, least significant byte first. -/
def word (block : Bytes) (i : Nat) : UInt32 := UInt32.ofNat (leNat ((block.drop (4 * i)).take 4))

/-- The left line: functions in the order f1 … f5. -/
def lineLeft (block : Bytes) (h : H) : H :=
  (List.range 80).foldl (fun v j =>
    stepLine (j / 16) (kLeft (j / 16)) (word block (wordLeft j)) (shift (j / 16) (wordLeft j)) v) h

/-- The right line: functions in the order f5 … f1. -/
def lineRight (block : Bytes) (h : H) : H :=
  (List.range 80).foldl (fun v j =>
    stepLine (4 - j / 16) (kRight (j / 16)) (word block (wordRight j)) (shift (j / 16) (wordRight j)) v) h

/-- The compression function. -/
def compress (h : H) (block : Bytes) : H :=
  match h, lineLeft block h, lineRight block h with
  | (h0, h1, h2, h3, h4), (a, b, c, d, e), (a', b', c', d', e') =>
    (h1 + c + d', h2 + d + e', h3 + e + a', h4 + a + b', h0 + b + c')

/-- The padding: a one bit, zero bits up to 56 bytes modulo 64, the length in bits as 8 bytes. -/
def pad (m : Bytes) : Bytes :=
  m ++ [0x80] ++ List.replicate ((119 - m.length % 64) % 64) 0 ++
    (List.range 8).map fun i => UInt8.ofNat (8 * m.length / 256^i)

/-- The first `n` blocks of `m` absorbed one after another. -/
def absorb : Nat → H → Bytes → H
  | 0, h, _ => h
  | n + 1, h, m => absorb n (compress h (m.take 64)) (m.drop 64)

/-- RIPEMD-160. -/
def ripemd160 (m : Bytes) : Bytes :=
  match absorb ((pad m).length / 64) (0x67452301, 0xefcdab89, 0x98badcfe, 0x10325476, 0xc3d2e1f0) (pad m) with
  | (h0, h1, h2, h3, h4) => [h0, h1, h2, h3, h4].flatMap fun h => (List.range 4).map fun i => UInt8.ofNat (h.toNat / 256^i)

end Toku.Spec.Ripemd
