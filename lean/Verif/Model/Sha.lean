import Verif.Model.Hash
/-
SHA-256 and SHA-512 of FIPS 180-4 (crypto/sha256, crypto/sha512 of the Go standard library). The theorems hold for any
functions with outputs of the right size (`Hashes`); this instance is for checking the model against test vectors of
/repo and for examples.
-/
namespace Toku.Sha

namespace S256

def k : List UInt32 := [
  0x428a2f98, 0x71374491, 0xb5c0fbcf, 0xe9b5dba5, 0x3956c25b, 0x59f111f1, 0x923f82a4, 0xab1c5ed5,
  0xd807aa98, 0x12835b01, 0x243185be, 0x550c7dc3, 0x72be5d74, 0x80deb1fe, 0x9bdc06a7, 0xc19bf174,
  0xe49b69c1, 0xefbe4786, 0x0fc19dc6, 0x240ca1cc, 0x2de92c6f, 0x4a7484aa, 0x5cb0a9dc, 0x76f988da,
  0x983e5152, 0xa831c66d, 0xb00327c8, 0xbf597fc7, 0xc6e00bf3, 0xd5a79147, 0x06ca6351, 0x14292967,
  0x27b70a85, 0x2e1b2138, 0x4d2c6dfc, 0x53380d13, 0x650a7354, 0x766a0abb, 0x81c2c92e, 0x92722c85,
  0xa2bfe8a1, 0xa81a664b, 0xc24b8b70, 0xc76c51a3, 0xd192e819, 0xd6990624, 0xf40e3585, 0x106aa070,
  0x19a4c116, 0x1e376c08, 0x2748774c, 0x34b0bcb5, 0x391c0cb3, 0x4ed8aa4a, 0x5b9cca4f, 0x682e6ff3,
  0x748f82ee, 0x78a5636f, 0x84c87814, 0x8cc70208, 0x90befffa, 0xa4506ceb, 0xbef9a3f7, 0xc67178f2]

structure St where
  a : UInt32
  b : UInt32
  c : UInt32
  d : UInt32
  e : UInt32
  f : UInt32
  g : UInt32
  h : UInt32

def iv : St := ⟨
  0x6a09e667, 0xbb67ae85, 0x3c6ef372, 0xa54ff53a,
  0x510e527f, 0x9b05688c, 0x1f83d9ab, 0x5be0cd19⟩

def rotr (x n : UInt32) : UInt32 := (x >>> n) ||| (x <<< (32 - n))
def big0 (x : UInt32) : UInt32 := rotr x 2 ^^^ rotr x 13 ^^^ rotr x 22
def big1 (x : UInt32) : UInt32 := rotr x 6 ^^^ rotr x 11 ^^^ rotr x 25
def small0 (x : UInt32) : UInt32 := rotr x 7 ^^^ rotr x 18 ^^^ (x >>> 3)
def small1 (x : UInt32) : UInt32 := rotr x 17 ^^^ rotr x 19 ^^^ (x >>> 10)

/-- One round with constant `k` and word `w`. -/
def round (s : St) (k w : UInt32) : St :=
  let t1 := s.h + big1 s.e + ((s.e &&& s.f) ^^^ (~~~ s.e &&& s.g)) + k + w
  let t2 := big0 s.a + ((s.a &&& s.b) ^^^ (s.a &&& s.c) ^^^ (s.b &&& s.c))
  ⟨t1 + t2, s.a, s.b, s.c, s.d + t1, s.e, s.f, s.g⟩

/-- The rounds; `ws` are the next 16 words of the schedule. -/
def rounds : List UInt32 → St → List UInt32 → St
  | [], s, _ => s
  | k :: ks, s, ws =>
    let w := ws.getD 0 0
    let n := small1 (ws.getD 14 0) + ws.getD 9 0 + small0 (ws.getD 1 0) + w
    rounds ks (round s k w) (ws.drop 1 ++ [n])

def word (b : Bytes) : UInt32 := b.foldl (fun x c => x <<< 8 ||| c.toUInt32) 0

def words : Nat → Bytes → List UInt32
  | 0, _ => []
  | n + 1, b => word (b.take 4) :: words n (b.drop 4)

def block (s : St) (b : Bytes) : St :=
  let t := rounds k s (words 16 b)
  ⟨s.a + t.a, s.b + t.b, s.c + t.c, s.d + t.d, s.e + t.e, s.f + t.f, s.g + t.g, s.h + t.h⟩

def blocks : Nat → St → Bytes → St
  | 0, s, _ => s
  | n + 1, s, b => blocks n (block s (b.take 64)) (b.drop 64)

def unword (w : UInt32) : Bytes := (List.range 4).map (fun i => (w >>> (8 * (4 - 1 - UInt32.ofNat i))).toUInt8)

def bytesOf (s : St) : Bytes :=
  unword s.a ++ unword s.b ++ unword s.c ++ unword s.d ++ unword s.e ++ unword s.f ++ unword s.g ++ unword s.h

def pad (m : Bytes) : Bytes :=
  m ++ 0x80 :: List.replicate ((2 * 64 - 1 - 8 - m.length % 64) % 64) 0 ++
    (List.range 8).map (fun i => UInt8.ofNat (m.length * 8 / 256 ^ (8 - 1 - i)))

def hash (m : Bytes) : Bytes :=
  let p := pad m
  bytesOf (blocks (p.length / 64) iv p)

theorem hash_length (m : Bytes) : (hash m).length = 32 := by
  simp [hash, bytesOf, unword]

end S256

namespace S512

def k : List UInt64 := [
  0x428a2f98d728ae22, 0x7137449123ef65cd, 0xb5c0fbcfec4d3b2f, 0xe9b5dba58189dbbc,
  0x3956c25bf348b538, 0x59f111f1b605d019, 0x923f82a4af194f9b, 0xab1c5ed5da6d8118,
  0xd807aa98a3030242, 0x12835b0145706fbe, 0x243185be4ee4b28c, 0x550c7dc3d5ffb4e2,
  0x72be5d74f27b896f, 0x80deb1fe3b1696b1, 0x9bdc06a725c71235, 0xc19bf174cf692694,
  0xe49b69c19ef14ad2, 0xefbe4786384f25e3, 0x0fc19dc68b8cd5b5, 0x240ca1cc77ac9c65,
  0x2de92c6f592b0275, 0x4a7484aa6ea6e483, 0x5cb0a9dcbd41fbd4, 0x76f988da831153b5,
  0x983e5152ee66dfab, 0xa831c66d2db43210, 0xb00327c898fb213f, 0xbf597fc7beef0ee4,
  0xc6e00bf33da88fc2, 0xd5a79147930aa725, 0x06ca6351e003826f, 0x142929670a0e6e70,
  0x27b70a8546d22ffc, 0x2e1b21385c26c926, 0x4d2c6dfc5ac42aed, 0x53380d139d95b3df,
  0x650a73548baf63de, 0x766a0abb3c77b2a8, 0x81c2c92e47edaee6, 0x92722c851482353b,
  0xa2bfe8a14cf10364, 0xa81a664bbc423001, 0xc24b8b70d0f89791, 0xc76c51a30654be30,
  0xd192e819d6ef5218, 0xd69906245565a910, 0xf40e35855771202a, 0x106aa07032bbd1b8,
  0x19a4c116b8d2d0c8, 0x1e376c085141ab53, 0x2748774cdf8eeb99, 0x34b0bcb5e19b48a8,
  0x391c0cb3c5c95a63, 0x4ed8aa4ae3418acb, 0x5b9cca4f7763e373, 0x682e6ff3d6b2b8a3,
  0x748f82ee5defb2fc, 0x78a5636f43172f60, 0x84c87814a1f0ab72, 0x8cc702081a6439ec,
  0x90befffa23631e28, 0xa4506cebde82bde9, 0xbef9a3f7b2c67915, 0xc67178f2e372532b,
  0xca273eceea26619c, 0xd186b8c721c0c207, 0xeada7dd6cde0eb1e, 0xf57d4f7fee6ed178,
  0x06f067aa72176fba, 0x0a637dc5a2c898a6, 0x113f9804bef90dae, 0x1b710b35131c471b,
  0x28db77f523047d84, 0x32caab7b40c72493, 0x3c9ebe0a15c9bebc, 0x431d67c49c100d4c,
  0x4cc5d4becb3e42b6, 0x597f299cfc657e2a, 0x5fcb6fab3ad6faec, 0x6c44198c4a475817]

structure St where
  a : UInt64
  b : UInt64
  c : UInt64
  d : UInt64
  e : UInt64
  f : UInt64
  g : UInt64
  h : UInt64

def iv : St := ⟨
  0x6a09e667f3bcc908, 0xbb67ae8584caa73b, 0x3c6ef372fe94f82b, 0xa54ff53a5f1d36f1,
  0x510e527fade682d1, 0x9b05688c2b3e6c1f, 0x1f83d9abfb41bd6b, 0x5be0cd19137e2179⟩

def rotr (x n : UInt64) : UInt64 := (x >>> n) ||| (x <<< (64 - n))
def big0 (x : UInt64) : UInt64 := rotr x 28 ^^^ rotr x 34 ^^^ rotr x 39
def big1 (x : UInt64) : UInt64 := rotr x 14 ^^^ rotr x 18 ^^^ rotr x 41
def small0 (x : UInt64) : UInt64 := rotr x 1 ^^^ rotr x 8 ^^^ (x >>> 7)
def small1 (x : UInt64) : UInt64 := rotr x 19 ^^^ rotr x 61 ^^^ (x >>> 6)

/-- One round with constant `k` and word `w`. -/
def round (s : St) (k w : UInt64) : St :=
  let t1 := s.h + big1 s.e + ((s.e &&& s.f) ^^^ (~~~ s.e &&& s.g)) + k + w
  let t2 := big0 s.a + ((s.a &&& s.b) ^^^ (s.a &&& s.c) ^^^ (s.b &&& s.c))
  ⟨t1 + t2, s.a, s.b, s.c, s.d + t1, s.e, s.f, s.g⟩

/-- The rounds; `ws` are the next 16 words of the schedule. -/
def rounds : List UInt64 → St → List UInt64 → St
  | [], s, _ => s
  | k :: ks, s, ws =>
    let w := ws.getD 0 0
    let n := small1 (ws.getD 14 0) + ws.getD 9 0 + small0 (ws.getD 1 0) + w
    rounds ks (round s k w) (ws.drop 1 ++ [n])

def word (b : Bytes) : UInt64 := b.foldl (fun x c => x <<< 8 ||| c.toUInt64) 0

def words : Nat → Bytes → List UInt64
  | 0, _ => []
  | n + 1, b => word (b.take 8) :: words n (b.drop 8)

def block (s : St) (b : Bytes) : St :=
  let t := rounds k s (words 16 b)
  ⟨s.a + t.a, s.b + t.b, s.c + t.c, s.d + t.d, s.e + t.e, s.f + t.f, s.g + t.g, s.h + t.h⟩

def blocks : Nat → St → Bytes → St
  | 0, s, _ => s
  | n + 1, s, b => blocks n (block s (b.take 128)) (b.drop 128)

def unword (w : UInt64) : Bytes := (List.range 8).map (fun i => (w >>> (8 * (8 - 1 - UInt64.ofNat i))).toUInt8)

def bytesOf (s : St) : Bytes :=
  unword s.a ++ unword s.b ++ unword s.c ++ unword s.d ++ unword s.e ++ unword s.f ++ unword s.g ++ unword s.h

def pad (m : Bytes) : Bytes :=
  m ++ 0x80 :: List.replicate ((2 * 128 - 1 - 16 - m.length % 128) % 128) 0 ++
    (List.range 16).map (fun i => UInt8.ofNat (m.length * 8 / 256 ^ (16 - 1 - i)))

def hash (m : Bytes) : Bytes :=
  let p := pad m
  bytesOf (blocks (p.length / 128) iv p)

theorem hash_length (m : Bytes) : (hash m).length = 64 := by
  simp [hash, bytesOf, unword]

end S512

@[instance_reducible] def realHashes : Hashes where
  sha256 := S256.hash
  sha256_length := S256.hash_length
  sha512 := S512.hash
  sha512_length := S512.hash_length

end Toku.Sha
