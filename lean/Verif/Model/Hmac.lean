import Verif.Model.Hash
/-
crypto/hmac of the Go standard library over SHA-256 and SHA-512, as in RFC 2104. The hash functions are parameters.
-/
namespace Toku

/-- HMAC over the hash `h` with blocks of `block` bytes: a long key is hashed, the key is filled with zero bytes. -/
def hmacWith (h : Bytes → Bytes) (block : Nat) (key msg : Bytes) : Bytes :=
  let key := if key.length > block then h key else key
  let key := key ++ List.replicate (block - key.length) 0
  h (key.map (· ^^^ 0x5c) ++ h (key.map (· ^^^ 0x36) ++ msg))

/-- `hmac.New(sha256.New, key)`, written `msg`, summed. -/
def hmac256 [Hashes] (key msg : Bytes) : Bytes := hmacWith Hashes.sha256 64 key msg

/-- `hmac.New(sha512.New, key)`, written `msg`, summed. -/
def hmac512 [Hashes] (key msg : Bytes) : Bytes := hmacWith Hashes.sha512 128 key msg

theorem hmac256_length [Hashes] (key msg : Bytes) : (hmac256 key msg).length = 32 := Hashes.sha256_length _
theorem hmac512_length [Hashes] (key msg : Bytes) : (hmac512 key msg).length = 64 := Hashes.sha512_length _

end Toku
