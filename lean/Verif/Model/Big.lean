import Verif.Model.Basic
/-
The parts of Go's math/big used by the code, on non-negative numbers. math/big itself is outside the
repository; these definitions state its documented behaviour (arbitrary precision, big-endian bytes).
-/
namespace Toku

/-- Base-`b` digits of `n`, least significant first, no leading (most significant) zeros. `fuel` bounds
the number of division steps; `n` steps always suffice for `b ≥ 2`. -/
def digitsLE (b : Nat) : Nat → Nat → List Nat
  | 0, _ => []
  | fuel + 1, n => if n = 0 then [] else n % b :: digitsLE b fuel (n / b)

/-- `new(big.Int).SetBytes(bs)`: big-endian value. -/
def natOfBE (bs : Bytes) : Nat := bs.foldl (fun acc b => acc * 256 + b.toNat) 0

/-- `x.Bytes()`: big-endian bytes without leading zeros. -/
def natToBE (n : Nat) : Bytes := (digitsLE 256 n n).reverse.map UInt8.ofNat

end Toku
