import Verif.Model.Bip39
/-
The generator behind xcore/bip39/bip39.go:108-111: `rand.New(rand.NewSource(time.Now().UnixNano()))` and `Read`, of
package math/rand of the Go library (rng.go and rand.go, which are not in /repo; written down from the published source,
unchanged since Go 1.0 for `NewSource` and since 1.6 for `Read`). The table `rngCooked` of 607 numbers in rng.go is a
parameter `cooked`: what is proved holds for every table.
-/
namespace Toku.Rand

/-- rng.go: `int32max` -/
def int32max : Int := 2 ^ 31 - 1

/-- rng.go: `seedrand`, x[n+1] = 48271 * x[n] mod (2**31 - 1). Division truncates. The numbers are `int32` in the code;
for arguments from 0 to 2^31 - 2 nothing overflows (`seedrand_spec`). -/
def seedrand (x : Int) : Int :=
  let hi := x.tdiv 44488
  let lo := x.tmod 44488
  let x := 48271 * lo - 3399 * hi
  if x < 0 then x + int32max else x

/-- rng.go: the first lines of `Seed`. -/
def start (seed : Int) : Int :=
  let seed := seed.tmod int32max
  let seed := if seed < 0 then seed + int32max else seed
  if seed = 0 then 89482311 else seed

/-- rng.go: the first twenty rounds of the loop of `Seed`, in which nothing is stored. -/
def warm : Nat → Int → Int
  | 0, x => x
  | n + 1, x => warm n (seedrand x)

/-- The word of a number that is not negative. -/
def word (x : Int) : UInt64 := UInt64.ofNat x.toNat

/-- rng.go: the other rounds of the loop of `Seed`: the words from number `i` on. -/
def fill (cooked : Nat → UInt64) : Nat → Nat → Int → List UInt64
  | 0, _, _ => []
  | n + 1, i, x =>
    let x := seedrand x
    let u := word x <<< 40
    let x := seedrand x
    let u := u ^^^ (word x <<< 20)
    let x := seedrand x
    let u := u ^^^ word x
    let u := u ^^^ cooked i
    u :: fill cooked n (i + 1) x

/-- rng.go: `rngSource` -/
structure Source where
  tap : Nat
  feed : Nat
  vec : List UInt64

/-- rng.go: `Seed` -/
def seed (cooked : Nat → UInt64) (s : Int) : Source := ⟨0, 607 - 273, fill cooked 607 0 (warm 20 (start s))⟩

/-- rng.go: an index one less, 606 after 0. -/
def back (i : Nat) : Nat := if i = 0 then 606 else i - 1

/-- rng.go: `Uint64` -/
def uint64 (r : Source) : UInt64 × Source :=
  let tap := back r.tap
  let feed := back r.feed
  let x := r.vec.getD feed 0 + r.vec.getD tap 0
  (x, ⟨tap, feed, r.vec.set feed x⟩)

/-- rng.go: `Int63` -/
def int63 (r : Source) : UInt64 × Source :=
  let (x, r) := uint64 r
  (x &&& 0x7fffffffffffffff, r)

/-- rand.go: `read`: the next `n` bytes. A number gives seven bytes. -/
def readLoop : Nat → Source → UInt64 → Nat → Bytes
  | 0, _, _, _ => []
  | n + 1, r, val, pos =>
    if pos = 0 then
      let (val, r) := int63 r
      val.toUInt8 :: readLoop n r (val >>> 8) 6
    else val.toUInt8 :: readLoop n r (val >>> 8) (pos - 1)

/-- The bytes that `Read` of a new generator with the given seed puts in a slice of `n` bytes. -/
def read (cooked : Nat → UInt64) (s : Int) (n : Nat) : Bytes := readLoop n (seed cooked s) 0 0

/-- xcore/bip39/bip39.go:102-112 with the generator: `now` is `time.Now().UnixNano()`. -/
def newEntropyAt (cooked : Nat → UInt64) (now : Int) (bitSize : Nat) : Res Bytes :=
  Bip39.newEntropy bitSize (fun i => (read cooked now (bitSize / 8)).getD i 0)

/-- xcore/bip39/bip39.go:397-418 with the generator. -/
def newBIP39At [Hashes] (cooked : Nat → UInt64) (now : Int) (english chinese japanese : List Bytes) (list : Nat) :
    List Bytes × Res (Bytes × Bytes) :=
  Bip39.newBIP39 english chinese japanese list (fun i => (read cooked now 16).getD i 0)

end Toku.Rand
