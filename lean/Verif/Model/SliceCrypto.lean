import Verif.Model.Slices
import Verif.Model.Ecdsa
import Verif.Model.Pbkdf2
/-
xcrypto/ecdsa/rfc6979.go and xcrypto/pbkdf2/pbkdf2.go with their memory: both write hashes into the arrays of slices they still
use. Model/Ecdsa.lean and Model/Pbkdf2.lean have values instead.

`g` gives the spare capacity of a new array; it may depend on everything in memory, and memory is different at each call.
-/
namespace Toku.SliceCrypto
open Toku.Slices

abbrev Grow := Heap UInt8 → Bytes

def app (g : Grow) (h : Heap UInt8) (s : Slice) (xs : Bytes) : Heap UInt8 × Slice := append (g h) h s xs

/-- A new slice with the given bytes. -/
def alloc (g : Grow) (h : Heap UInt8) (xs : Bytes) : Heap UInt8 × Slice := (h ++ [xs ++ g h], ⟨h.length, 0, xs.length⟩)

/-- `copy(dst, src)` for slices of one length; also `T[x] ^= U[x]` for all `x`, with `src` the new bytes of `T`. -/
def overwrite (h : Heap UInt8) (dst : Slice) (src : Bytes) : Heap UInt8 :=
  h.set dst.arr (writeAt (array h dst) dst.off src)

/-! ### xcrypto/ecdsa/rfc6979.go -/

section
variable [Hashes]

/-- mac, rfc6979.go:71-77. `Sum` appends to `buf[:0]`. -/
def mac (g : Grow) (h : Heap UInt8) (k m buf : Slice) : Heap UInt8 × Slice :=
  app g h { buf with len := 0 } (hmac256 (elems h k) (elems h m))

/-- `k = mac(alg, k, append(append(v, c), bx...), k)`, rfc6979.go:39 and 45. -/
def macV (g : Grow) (h : Heap UInt8) (k v : Slice) (c : UInt8) (bx : Slice) : Heap UInt8 × Slice :=
  let a := app g h v [c]
  let m := app g a.1 a.2 (elems a.1 bx)
  mac g m.1 k m.2 k

/-- rfc6979.go:54-57 as `Ecdsa.fill`: memory, `v` and `t`. -/
def fill (g : Grow) (k : Slice) (want : Nat) : Nat → Heap UInt8 → Slice → Slice → Heap UInt8 × Slice × Slice
  | 0, h, v, t => (h, v, t)
  | n + 1, h, v, t =>
    if t.len < want then
      let r := mac g h k v v
      let q := app g r.1 t (elems r.1 r.2)
      fill g k want n q.1 r.2 q.2
    else (h, v, t)

/-- rfc6979.go:49-66 as `Ecdsa.nonceLoop`, with the memory afterwards. -/
def nonceLoop (g : Grow) (q qlen : Nat) : Nat → Heap UInt8 → Slice → Slice → Heap UInt8 × Option Nat
  | 0, h, _, _ => (h, none)
  | fuel + 1, h, k, v =>
    let (h, v, t) := fill g k (qlen / 8) qlen (h ++ [[]]) v ⟨h.length, 0, 0⟩
    let secret := Ecdsa.bits2int (elems h t) qlen
    if 1 ≤ secret ∧ secret < q then (h, some secret)
    else
      let m := app g h v [0]
      let k' := mac g m.1 k m.2 k
      let v' := mac g k'.1 k'.2 v v
      nonceLoop g q qlen fuel v'.1 k'.2 v'.2

/-- NonceRFC6979, rfc6979.go:25-67. -/
def nonce (g : Grow) (q fuel x : Nat) (h : Heap UInt8) (hash : Slice) : Heap UInt8 × Option Nat :=
  let qlen := Ecdsa.bitLen q
  let rolen := (qlen + 7) / 8
  let x := alloc g h (Ecdsa.int2octets x rolen)
  let bx := app g x.1 x.2 (Ecdsa.bits2octets (elems x.1 hash) q qlen rolen)
  let v := alloc g bx.1 (List.replicate 32 1)
  let k := alloc g v.1 (List.replicate 32 0)
  let k1 := macV g k.1 k.2 v.2 0 bx.2
  let v1 := mac g k1.1 k1.2 v.2 v.2
  let k2 := macV g v1.1 k1.2 v1.2 1 bx.2
  let v2 := mac g k2.1 k2.2 v1.2 v1.2
  nonceLoop g q qlen fuel v2.1 k2.2 v2.2

end

/-! ### xcrypto/pbkdf2/pbkdf2.go -/

/-- pbkdf2.go:56-66: `n` rounds of the inner loop: memory and `U`. -/
def inner (g : Grow) (prf : Bytes → Bytes) (T : Slice) : Nat → Heap UInt8 → Slice → Heap UInt8 × Slice
  | 0, h, U => (h, U)
  | n + 1, h, U =>
    let r := app g h { U with len := 0 } (prf (elems h U))
    inner g prf T n (overwrite r.1 T (Pbkdf2.xorBytes (elems r.1 T) (elems r.1 r.2))) r.2

/-- pbkdf2.go:36-67: `n` blocks from number `block` on: memory and `dk`. `T` is the end of `dk` itself. -/
def outer (g : Grow) (prf : Bytes → Bytes) (hashLen : Nat) (salt : Slice) (iter : Int) :
    Nat → Nat → Heap UInt8 → Slice → Slice → Heap UInt8 × Slice
  | 0, _, h, dk, _ => (h, dk)
  | n + 1, block, h, dk, U =>
    let d := app g h dk (prf (elems h salt ++ Pbkdf2.blockBytes block))
    let T : Slice := ⟨d.2.arr, d.2.off + (d.2.len - hashLen), hashLen⟩
    let r := inner g prf T (iter - 1).toNat (overwrite d.1 U (elems d.1 T)) U
    outer g prf hashLen salt iter n (block + 1) r.1 d.2 r.2

/-- Key, pbkdf2.go:28-69, with panics as in `Pbkdf2.key`; the key is the slice `dk[:keyLen]`, whose bound is the capacity
of `dk`. -/
def key (g : Grow) (prf : Bytes → Bytes) (hashLen : Nat) (salt : Slice) (iter keyLen : Int) (h : Heap UInt8) : Res (Heap UInt8 × Slice) :=
  if hashLen = 0 then .panic
  else
    let numBlocks := (wrap64 (wrap64 (keyLen + hashLen) - 1)).tdiv hashLen
    if wrap64 (numBlocks * hashLen) < 0 then .panic
    else
      let h0 := h ++ [List.replicate (wrap64 (numBlocks * hashLen)).toNat 0]
      let U := alloc g h0 (List.replicate hashLen 0)
      let r := outer g prf hashLen salt iter numBlocks.toNat 1 U.1 ⟨h.length, 0, 0⟩ U.2
      if keyLen < 0 ∨ keyLen > capacity r.1 r.2 then .panic else .ok (r.1, { r.2 with len := keyLen.toNat })

end Toku.SliceCrypto
