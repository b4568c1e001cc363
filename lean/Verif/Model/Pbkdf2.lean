import Verif.Model.Basic
/-
xcrypto/pbkdf2/pbkdf2.go. The standard library's HMAC keyed with the password is a parameter `prf`: the
result of `Reset`, some `Write`s and `Sum` is `prf` of the concatenation written; `hashLen` is `prf.Size()`.
-/
namespace Toku.Pbkdf2

/-- pbkdf2.go:44-47: the block number as four bytes, most significant first (`byte` truncates). -/
def blockBytes (block : Nat) : Bytes :=
  [UInt8.ofNat (block / 2^24), UInt8.ofNat (block / 2^16), UInt8.ofNat (block / 2^8), UInt8.ofNat block]

/-- pbkdf2.go:63-65: `T[x] ^= U[x]` for the indices of `U`; `T` and `U` have the same length. -/
def xorBytes (t u : Bytes) : Bytes := List.zipWith (· ^^^ ·) t u

/-- pbkdf2.go:56-66: `k` rounds of the inner loop on `(U, T)`. -/
def inner (prf : Bytes → Bytes) : Nat → Bytes × Bytes → Bytes × Bytes
  | 0, ut => ut
  | k + 1, (u, t) =>
    let u := prf u
    inner prf k (u, xorBytes t u)

/-- pbkdf2.go:36-67: the loop over the blocks `block`, `block + 1`, …, `n` of them, appending to `dk`. -/
def outer (prf : Bytes → Bytes) (salt : Bytes) (iter : Int) : Nat → Nat → Bytes → Bytes
  | 0, _, dk => dk
  | n + 1, block, dk =>
    let u1 := prf (salt ++ blockBytes block)
    let t := (inner prf (iter - 1).toNat (u1, u1)).2
    outer prf salt iter n (block + 1) (dk ++ t)

/-- pbkdf2.go:28-69. `iter` and `keyLen` are Go `int`s. Division truncates toward zero; a negative capacity
in `make` and a negative or too large slice bound panic; division by zero panics. Exhausting memory is not
modelled. -/
def key (prf : Bytes → Bytes) (hashLen : Nat) (salt : Bytes) (iter keyLen : Int) : Res Bytes :=
  if hashLen = 0 then .panic
  else
    let numBlocks := (wrap64 (wrap64 (keyLen + hashLen) - 1)).tdiv hashLen
    if wrap64 (numBlocks * hashLen) < 0 then .panic
    else
      let dk := outer prf salt iter numBlocks.toNat 1 []
      if keyLen < 0 ∨ keyLen > dk.length then .panic else .ok (dk.take keyLen.toNat)

end Toku.Pbkdf2
