import Verif.Model.Buffer
import Verif.Model.Hash
/-
xcrypto/ripemd160/ripemd160.go and ripemd160block.go, modelled concretely; and Ripemd160, Hash160 of
xcrypto/hash.go.
-/
namespace Toku.Ripemd

/-- The running context `s [5]uint32` (ripemd160.go:32), also used for the five working variables. -/
structure Ctx where
  a : UInt32
  b : UInt32
  c : UInt32
  d : UInt32
  e : UInt32
  deriving DecidableEq, Repr

/-- ripemd160.go:22-28 -/
def initial : Ctx := ⟨0x67452301, 0xefcdab89, 0x98badcfe, 0x10325476, 0xc3d2e1f0⟩

/-- ripemd160block.go:16-22 -/
def tabN : List Nat := [
  0, 1, 2, 3, 4, 5, 6, 7, 8, 9, 10, 11, 12, 13, 14, 15,
  7, 4, 13, 1, 10, 6, 15, 3, 12, 0, 9, 5, 2, 14, 11, 8,
  3, 10, 14, 4, 9, 15, 8, 1, 2, 7, 0, 6, 13, 11, 5, 12,
  1, 9, 11, 10, 0, 8, 12, 4, 13, 3, 7, 15, 14, 5, 6, 2,
  4, 0, 5, 9, 7, 12, 2, 10, 14, 1, 3, 8, 11, 6, 15, 13]

/-- ripemd160block.go:24-30 -/
def tabR : List Nat := [
  11, 14, 15, 12, 5, 8, 7, 9, 11, 13, 14, 15, 6, 7, 9, 8,
  7, 6, 8, 13, 11, 9, 7, 15, 7, 12, 15, 9, 11, 7, 13, 12,
  11, 13, 6, 7, 14, 9, 13, 15, 14, 8, 13, 6, 5, 12, 7, 5,
  11, 12, 14, 15, 14, 15, 9, 8, 9, 14, 5, 6, 8, 6, 5, 12,
  9, 15, 5, 11, 6, 8, 13, 12, 5, 12, 13, 14, 11, 8, 5, 6]

/-- ripemd160block.go:33-39 -/
def tabNN : List Nat := [
  5, 14, 7, 0, 9, 2, 11, 4, 13, 6, 15, 8, 1, 10, 3, 12,
  6, 11, 3, 7, 0, 13, 5, 10, 14, 15, 8, 12, 4, 9, 1, 2,
  15, 5, 1, 3, 7, 14, 6, 9, 11, 8, 12, 2, 10, 0, 4, 13,
  8, 6, 4, 1, 3, 11, 15, 0, 5, 12, 2, 13, 9, 7, 10, 14,
  12, 15, 10, 4, 1, 5, 8, 7, 6, 2, 13, 14, 0, 3, 9, 11]

/-- ripemd160block.go:41-47 -/
def tabRR : List Nat := [
  8, 9, 9, 11, 13, 15, 15, 5, 7, 7, 8, 11, 14, 14, 12, 6,
  9, 13, 15, 7, 12, 8, 9, 11, 7, 7, 12, 7, 6, 15, 13, 11,
  9, 7, 15, 11, 8, 6, 6, 14, 12, 13, 5, 14, 13, 13, 7, 5,
  15, 5, 8, 11, 14, 14, 6, 14, 6, 9, 12, 9, 12, 5, 15, 8,
  8, 5, 12, 9, 12, 5, 14, 6, 8, 13, 6, 5, 15, 13, 11, 11]

/-- `bits.RotateLeft32(x, k)` for `0 < k < 32` (standard library; `x<<k | x>>(32-k)`). -/
def rotl (x : UInt32) (k : Nat) : UInt32 := (x <<< UInt32.ofNat k) ||| (x >>> UInt32.ofNat (32 - k))

/-- ripemd160block.go:56-60: the sixteen little-endian words of a block. -/
def words (p : Bytes) : List UInt32 :=
  (List.range 16).map fun i =>
    (p.getD (4 * i) 0).toUInt32 ||| ((p.getD (4 * i + 1) 0).toUInt32 <<< 8) |||
    ((p.getD (4 * i + 2) 0).toUInt32 <<< 16) ||| ((p.getD (4 * i + 3) 0).toUInt32 <<< 24)

/-- The value `alpha` before rotation on the main line, by round: ripemd160block.go:65, 83, 101, 119, 137. -/
def alphaLeft (i : Nat) (v : Ctx) (w : UInt32) : UInt32 :=
  if i < 16 then v.a + (v.b ^^^ v.c ^^^ v.d) + w
  else if i < 32 then v.a + ((v.b &&& v.c) ||| (~~~v.b &&& v.d)) + w + 0x5a827999
  else if i < 48 then v.a + ((v.b ||| ~~~v.c) ^^^ v.d) + w + 0x6ed9eba1
  else if i < 64 then v.a + ((v.b &&& v.d) ||| (v.c &&& ~~~v.d)) + w + 0x8f1bbcdc
  else v.a + (v.b ^^^ (v.c ||| ~~~v.d)) + w + 0xa953fd4e

/-- The same on the parallel line: ripemd160block.go:72, 90, 108, 126, 144. -/
def alphaRight (i : Nat) (v : Ctx) (w : UInt32) : UInt32 :=
  if i < 16 then v.a + (v.b ^^^ (v.c ||| ~~~v.d)) + w + 0x50a28be6
  else if i < 32 then v.a + ((v.b &&& v.d) ||| (v.c &&& ~~~v.d)) + w + 0x5c4dd124
  else if i < 48 then v.a + ((v.b ||| ~~~v.c) ^^^ v.d) + w + 0x6d703ef3
  else if i < 64 then v.a + ((v.b &&& v.c) ||| (~~~v.b &&& v.d)) + w + 0x7a6d76e9
  else v.a + (v.b ^^^ v.c ^^^ v.d) + w

/-- ripemd160block.go:66-69 and 73-76: rotate, add, shift the working variables. -/
def shiftVars (v : Ctx) (alpha : UInt32) (s : Nat) : Ctx :=
  ⟨v.e, rotl alpha s + v.e, v.b, rotl v.c 10, v.d⟩

/-- One step `i` of both lines (ripemd160block.go:62-151). -/
def step (x : List UInt32) (v : Ctx × Ctx) (i : Nat) : Ctx × Ctx :=
  (shiftVars v.1 (alphaLeft i v.1 (x.getD (tabN.getD i 0) 0)) (tabR.getD i 0),
   shiftVars v.2 (alphaRight i v.2 (x.getD (tabNN.getD i 0) 0)) (tabRR.getD i 0))

/-- ripemd160block.go:153-159 -/
def combine (s : Ctx) (v : Ctx × Ctx) : Ctx :=
  ⟨v.2.d + (v.1.c + s.b), s.c + v.1.d + v.2.e, s.d + v.1.e + v.2.a, s.e + v.1.a + v.2.b, s.a + v.1.b + v.2.c⟩

/-- The body of the loop in `_Block` (ripemd160block.go:54-159) on the first 64 bytes of `p`. -/
def compress (s : Ctx) (p : Bytes) : Ctx := combine s ((List.range 80).foldl (step (words p)) (s, s))

/-- `_Block`, ripemd160block.go:49-165: the new context and the number of bytes used. The first argument
bounds the loop; `blockFn` passes the length, which is enough. -/
def blockLoop : Nat → Ctx → Bytes → Ctx × Nat
  | 0, s, _ => (s, 0)
  | k + 1, s, p =>
    if p.length ≥ 64 then
      let r := blockLoop k (compress s (p.take 64)) (p.drop 64)
      (r.1, r.2 + 64)
    else (s, 0)

/-- `_Block` -/
def blockFn (s : Ctx) (p : Bytes) : Ctx × Nat := blockLoop p.length s p

/-- ripemd160.go:31-36. The array `x` has 64 elements. -/
structure Digest where
  s : Ctx
  x : Bytes
  nx : Nat
  tc : UInt64
  deriving DecidableEq, Repr

/-- ripemd160.go:38-49: `New`. -/
def new : Digest := ⟨initial, List.replicate 64 0, 0, 0⟩

/-- ripemd160.go:38-42: `Reset` leaves the bytes in `x`. -/
def reset (d : Digest) : Digest := ⟨initial, d.x, 0, 0⟩

/-- ripemd160.go:63-65: copy `q` into `x` at `at`. -/
def putAt (x : Bytes) (pos : Nat) (q : Bytes) : Bytes := x.take pos ++ q ++ x.drop (pos + q.length)

/-- ripemd160.go:58-72: fill the buffer first; returns the digest and the bytes left over. -/
def fill (d : Digest) (p : Bytes) : Digest × Bytes :=
  if d.nx > 0 then
    let n := min p.length (64 - d.nx)
    let d := { d with x := putAt d.x d.nx (p.take n), nx := d.nx + n }
    let d := if d.nx = 64 then { d with s := (blockFn d.s d.x).1, nx := 0 } else d
    (d, p.drop n)
  else (d, p)

/-- ripemd160.go:55-79 -/
def write (d : Digest) (p : Bytes) : Digest :=
  let d := { d with tc := d.tc + UInt64.ofNat p.length }
  let (d, p) := fill d p
  let (s, n) := blockFn d.s p
  let d := { d with s := s }
  let p := p.drop n
  if p.length > 0 then { d with x := putAt d.x 0 (p.take 64), nx := min 64 p.length } else d

/-- The padding written by `Sum`, ripemd160.go:86-97; the slice bounds are at most 64, the size of `tmp`. -/
def padding (tc : UInt64) : Bytes :=
  let tmp : Bytes := 0x80 :: List.replicate 63 0
  if tc % 64 < 56 then tmp.take (56 - (tc % 64).toNat)
  else tmp.take (64 + 56 - (tc % 64).toNat)

/-- ripemd160.go:112-118 -/
def output (s : Ctx) : Bytes :=
  Buffer.le32 s.a ++ Buffer.le32 s.b ++ Buffer.le32 s.c ++ Buffer.le32 s.d ++ Buffer.le32 s.e

/-- ripemd160.go:81-106: the copy `d0` after the padding and the length have been written. -/
def finish (d : Digest) : Digest := write (write d (padding d.tc)) (Buffer.le64 (d.tc <<< 3))

/-- `Sum(nil)`, ripemd160.go:81-120. It works on a copy, so the digest itself is unchanged. -/
def sum (d : Digest) : Res Bytes :=
  let d0 := finish d
  if d0.nx ≠ 0 then .panic else .ok (output d0.s)

/-- xcrypto/hash.go Ripemd160 with calcHash -/
def ripemd160 (data : Bytes) : Res Bytes := sum (write new data)

end Toku.Ripemd
namespace Toku

/-- xcrypto/hash.go Hash160. The panic in `sum` is unreachable (theorem C73_no_panic), so the function is
total here: `ripemd160 x = .ok (output …)`. -/
def hash160 [Hashes] (x : Bytes) : Bytes :=
  Ripemd.output (Ripemd.finish (Ripemd.write Ripemd.new (Hashes.sha256 x))).s

end Toku
