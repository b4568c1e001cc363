import Verif.Model.Slices
import Verif.Model.Bech32
import Verif.Model.Schnorr
import Verif.Model.Ripemd
/-
Exported functions that append to a slice of their caller, with the memory: Bech32Encode (xbase/bech32.go), GetK0 and GetE
(xcrypto/schnorr/schnorr.go) and Sum (xcrypto/ripemd160). Each returns its result and the memory afterwards. `extra` is the spare
capacity of a new array as in Model/Slices.
-/
namespace Toku.ArgMem
open Toku.Slices

/-- Bech32Encode, xbase/bech32.go:79-92: the checksum is computed before line 82 appends it to `data`. -/
def bech32Encode (extra : Bytes) (h : Heap UInt8) (hrp : Bytes) (data : Slice) : Res Bytes × Heap UInt8 :=
  let r := append extra h data (Bech32.checksum hrp (elems h data))
  (Bech32.toChars (elems r.1 r.2) >>= fun cs => .ok (hrp ++ [0x31] ++ cs), r.1)

/-- Sum, xcrypto/ripemd160/ripemd160.go:81-120; it panics before it appends. -/
def sum (extra : Bytes) (h : Heap UInt8) (d : Ripemd.Digest) (dst : Slice) : Res Slice × Heap UInt8 :=
  match Ripemd.sum d with
  | .ok digest => (.ok (append extra h dst digest).2, (append extra h dst digest).1)
  | .err e => (.err e, h)
  | .panic => (.panic, h)

section
variable [Hashes]

/-- GetK0, xcrypto/schnorr/schnorr.go:112-120, for the order `N` of the group. -/
def getK0 (extra : Bytes) (h : Heap UInt8) (m d : Slice) : Res ℕ × Heap UInt8 :=
  let r := append extra h d (elems h m)
  let k0 := natOfBE (Hashes.sha256 (elems r.1 r.2)) % Curve.N
  (if k0 = 0 then .err Schnorr.errK0 else .ok k0, r.1)

/-- GetE, xcrypto/schnorr/schnorr.go:134-141: `m` is read at line 137, after line 136 has written the public key behind `rX`. -/
def getE (extra extra' : Bytes) (h : Heap UInt8) (m : Slice) (px py : ℤ) (rX : Slice) : Res ℕ × Heap UInt8 :=
  match Keys.secMarshal px py with
  | .ok sec =>
    let r := append extra h rX sec
    let q := append extra' r.1 r.2 (elems r.1 m)
    (.ok (natOfBE (Hashes.sha256 (elems q.1 q.2)) % Curve.N), q.1)
  | .err e => (.err e, h)
  | .panic => (.panic, h)

end

end Toku.ArgMem
