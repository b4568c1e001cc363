import Verif.Model.Keys
/-
xcrypto/paillier/paillier.go and xcrypto/paillier/homomorphism.go. Random numbers (`crypto/rand`) are parameters. A
pointer to a ciphertext is an `Option`, nil is `none`; the keys and messages passed are not nil.
-/
namespace Toku.Num

/-- `new(big.Int).Exp(x, y, m)` of math/big for `m > 0`: the power modulo m, for a negative exponent the power of the
inverse, nil (`none`) if there is none. -/
def expMod (x y : ℤ) (m : ℕ) : Option ℤ :=
  if 0 ≤ y then some (powMod m (y.toNat.log2 + 1) (x % m).toNat y.toNat : ℕ)
  else match modInverse x m with
    | none => none
    | some i => some (powMod m ((-y).toNat.log2 + 1) i.toNat (-y).toNat : ℕ)

end Toku.Num

namespace Toku.Paillier

/-- xcrypto/paillier/paillier.go:22-26 -/
structure PubKey where
  g : ℤ
  n : ℕ
  nn : ℕ
  deriving DecidableEq, Repr

/-- xcrypto/paillier/paillier.go:29-33. `mu` is nil (`none`) if `lambda` has no inverse. -/
structure PrvKey where
  mu : Option ℤ
  pk : PubKey
  lambda : ℤ
  deriving DecidableEq, Repr

def errPlaintext : Err := .other 50
def errCiphertext : Err := .other 51
def errInput : Err := .other 52

/-- xcrypto/paillier/paillier.go:100-105 -/
def phi (x y : ℤ) : ℤ := (x - 1) * (y - 1)

/-- xcrypto/paillier/paillier.go:36-65, from the two primes on; `rand.Prime` is outside the repository. -/
def generateKeyPair (p q : ℕ) : PubKey × PrvKey :=
  let n := p * q
  let nn := n * n
  let g : ℤ := n + 1
  let lambda := phi p q
  let mu := Num.modInverse lambda n
  let pk : PubKey := ⟨g, n, nn⟩
  (pk, ⟨mu, pk, lambda⟩)

/-- xcrypto/paillier/paillier.go:68-84. The random number `r` below N comes from `getRandom`, lines 123-125, and need
not be coprime to N. `Exp` with a nil result would be dereferenced: the exponents are not negative. -/
def encrypt (pk : PubKey) (r : ℕ) (msg : ℤ) : Res ℤ :=
  if msg < 0 ∨ msg ≥ pk.n then .err errPlaintext
  else match Num.expMod r pk.n pk.nn, Num.expMod pk.g msg pk.nn with
    | some rn, some m => .ok ((m * rn) % pk.nn)
    | _, _ => .panic

/-- xcrypto/paillier/paillier.go:108-110. `Div` rounds down for a positive divisor. -/
def l (x : ℤ) (n : ℕ) : ℤ := (x - 1) / n

/-- `ct == nil || ct.Cmp(zero) != 1`: otherwise the number. -/
def positive (ct : Option ℤ) : Option ℤ :=
  match ct with
  | none => none
  | some c => if c > 0 then some c else none

/-- xcrypto/paillier/paillier.go:87-98 -/
def decrypt (sk : PrvKey) (ct : Option ℤ) : Res ℤ :=
  match positive ct with
  | none => .err errCiphertext
  | some c =>
    match Num.expMod c sk.lambda sk.pk.nn, sk.mu with
    | some clambda, some mu => .ok ((l clambda sk.pk.n * mu) % sk.pk.n)
    | _, _ => .panic

/-- xcrypto/paillier/homomorphism.go:16-22. A nil result of `Exp` is returned. -/
def multPlaintext (pk : PubKey) (ct : Option ℤ) (msg : ℤ) : Res (Option ℤ) :=
  match positive ct with
  | none => .err errInput
  | some c => .ok (Num.expMod c msg pk.nn)

/-- xcrypto/paillier/homomorphism.go:26-34 -/
def addPlaintext (pk : PubKey) (ct : Option ℤ) (msg : ℤ) : Res (Option ℤ) :=
  match positive ct with
  | none => .err errInput
  | some c =>
    match Num.expMod pk.g msg pk.nn with
    | none => .panic
    | some ct2 => .ok (some ((c * ct2) % pk.nn))

/-- xcrypto/paillier/homomorphism.go:38-44. A nil inverse is dereferenced by `Exp`. -/
def divPlaintext (pk : PubKey) (ct : Option ℤ) (msg : ℤ) : Res (Option ℤ) :=
  match positive ct with
  | none => .err errInput
  | some c =>
    match Num.modInverse msg pk.nn with
    | none => .panic
    | some m => .ok (Num.expMod c m pk.nn)

/-- xcrypto/paillier/homomorphism.go:49-55 -/
def add (pk : PubKey) (ct1 ct2 : Option ℤ) : Res (Option ℤ) :=
  match positive ct1, positive ct2 with
  | some c1, some c2 => .ok (some ((c1 * c2) % pk.nn))
  | _, _ => .err errInput

/-- xcrypto/paillier/homomorphism.go:62-66. Nothing is checked: nil pointers and a nil inverse are dereferenced. -/
def sub (pk : PubKey) (ct1 ct2 : Option ℤ) : Res (Option ℤ) :=
  match ct1, ct2 with
  | some c1, some c2 =>
    match Num.modInverse c2 pk.nn with
    | none => .panic
    | some neg => .ok (some ((c1 * neg) % pk.nn))
  | _, _ => .panic

end Toku.Paillier
