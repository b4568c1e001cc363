import Verif.Model.Basic
/-
Standard-library hashes. crypto/sha256 and crypto/sha512 are outside the repository: they are parameters
of the model about which only the output length is assumed.
-/
namespace Toku

/-- `crypto/sha256.Sum256` and `crypto/sha512.Sum512` as arbitrary functions with the right output
length. -/
class Hashes where
  sha256 : Bytes → Bytes
  sha256_length : ∀ x, (sha256 x).length = 32
  sha512 : Bytes → Bytes
  sha512_length : ∀ x, (sha512 x).length = 64

/-- xcrypto/hash.go DoubleSha256, and xbase/base58.go:128-129: SHA-256 applied twice. -/
def sha256d [Hashes] (x : Bytes) : Bytes := Hashes.sha256 (Hashes.sha256 x)

theorem sha256d_length [Hashes] (x : Bytes) : (sha256d x).length = 32 := Hashes.sha256_length _

/-- A toy instance used only in non-vacuity examples: folds the input into 32/64 bytes. -/
@[instance_reducible] def toyHashes : Hashes where
  sha256 x := (List.range 32).map (fun i =>
    x.foldl (fun a b => a * 31 + b + UInt8.ofNat i) (UInt8.ofNat x.length))
  sha256_length x := by simp
  sha512 x := (List.range 64).map (fun i =>
    x.foldl (fun a b => a * 31 + b + UInt8.ofNat i) (UInt8.ofNat x.length))
  sha512_length x := by simp

end Toku
