import Verif.Model.Ecdsa
import Verif.Model.Paillier
import Verif.Model.Schnorr
/-
xcrypto/mpc_ecdsa.go, xcrypto/scriptless_ecdsa.go and xcrypto/mpc_schnorr.go, on secp256k1. A party is its state; a
method that changes it returns the new one. The fields `N`, `curve` and `pub` are the curve's and the key's.
-/
namespace Toku.Mpc
open Toku.Curve Toku.Keys

/-- xcrypto/secp256k1/scalar.go:15-18: a point. -/
structure Scalar where
  x : ℤ
  y : ℤ
  deriving DecidableEq, Repr

/-- xcrypto/secp256k1/scalar.go:29-32 -/
def Scalar.add (s s2 : Scalar) : Res Scalar := do
  let (x, y) ← Curve.add s.x s.y s2.x s2.y
  return ⟨x, y⟩

/-- xcrypto/mpc_ecdsa.go:24-34. The fields set by Phase2 are nil (`none`) before. -/
structure EcdsaParty where
  prv : PrvKey
  k : Option ℕ
  kinv : Option ℤ
  hash : Bytes
  encprv : Option Paillier.PrvKey
  deriving DecidableEq, Repr

/-- xcrypto/mpc_ecdsa.go:37-48 -/
def newEcdsaParty (prv : PrvKey) : EcdsaParty := ⟨prv, none, none, [], none⟩

/-- xcrypto/mpc_ecdsa.go:52-59 -/
def EcdsaParty.phase1 (party : EcdsaParty) (pub2 : PubKey) : Res PubKey := do
  let (px, py) ← mult pub2.x pub2.y (natToBE party.prv.d)
  return ⟨px, py⟩

/-- Not an error of the code, which returns three nil pointers: the private key is not below the Paillier modulus. -/
def errNil : Err := .other 60

/-- xcrypto/mpc_ecdsa.go:77-81: nil pointers are returned if the key cannot be encrypted. -/
def encryptKey (encpub : Paillier.PubKey) (rnd d : ℕ) : Res ℤ :=
  match Paillier.encrypt encpub rnd d with
  | .ok c => .ok c
  | .err _ => .err errNil
  | .panic => .panic

/-- xcrypto/mpc_ecdsa.go:63-92, the nonce `k` given. The primes `p`, `q` of the Paillier key and the randomiser `rnd` are
arguments. `kinv` is nil only if `k` is a multiple of N. -/
def EcdsaParty.phase2With (k p q rnd : ℕ) (party : EcdsaParty) (hash : Bytes) :
    Res (EcdsaParty × ℤ × Paillier.PubKey × Scalar) := do
  let encpub := (Paillier.generateKeyPair p q).1
  let encprv := (Paillier.generateKeyPair p q).2
  let encpk ← encryptKey encpub rnd party.prv.d
  let kinv := Num.modInverse k N
  let (rx, ry) ← baseMult (natToBE k)
  return (⟨party.prv, some k, kinv, hash, some encprv⟩, encpk, encpub, ⟨rx, ry⟩)

/-- xcrypto/mpc_ecdsa.go:63-92. `fuel` is the number of rounds of the nonce function. -/
def EcdsaParty.phase2 [Hashes] (fuel p q rnd : ℕ) (party : EcdsaParty) (hash : Bytes) :
    Res (EcdsaParty × ℤ × Paillier.PubKey × Scalar) :=
  match Ecdsa.nonce N fuel party.prv.d hash with
  | none => .err Ecdsa.errRunning
  | some k => party.phase2With k p q rnd hash

/-- xcrypto/mpc_ecdsa.go:96-102 -/
def EcdsaParty.phase3 (party : EcdsaParty) (r2 : Scalar) : Res Scalar :=
  match party.k with
  | none => .panic
  | some k => do
    let (rx, ry) ← mult r2.x r2.y (natToBE k)
    return ⟨rx, ry⟩

/-- xcrypto/paillier/homomorphism.go:16-22 with a message pointer that may be nil: the ciphertext is checked first, then
the nil pointer is dereferenced by `Exp`. -/
def multNil (pk : Paillier.PubKey) (ct : Option ℤ) (msg : Option ℤ) : Res (Option ℤ) :=
  match msg with
  | some msg => Paillier.multPlaintext pk ct msg
  | none =>
    match Paillier.positive ct with
    | none => .err Paillier.errInput
    | some _ => .panic

/-- xcrypto/paillier/paillier.go:87-98 with a receiver that may be nil: the ciphertext is checked first, then the nil pointer
is dereferenced. -/
def decryptNil (sk : Option Paillier.PrvKey) (ct : Option ℤ) : Res ℤ :=
  match sk with
  | some sk => Paillier.decrypt sk ct
  | none =>
    match Paillier.positive ct with
    | none => .err Paillier.errCiphertext
    | some _ => .panic

/-- xcrypto/mpc_ecdsa.go:106-139. A nil `kinv` is dereferenced by the last multiplication. -/
def EcdsaParty.phase4 (party : EcdsaParty) (encpk2 : Option ℤ) (encpub2 : Paillier.PubKey) (shareR : Scalar) : Res (Option ℤ) := do
  let z := Ecdsa.hashToInt party.hash
  let ct ← Paillier.multPlaintext encpub2 encpk2 party.prv.d
  let ct ← Paillier.multPlaintext encpub2 ct shareR.x
  let ct ← Paillier.addPlaintext encpub2 ct z
  multNil encpub2 ct party.kinv

/-- xcrypto/mpc_ecdsa.go:153-163 and xcrypto/scriptless_ecdsa.go:132-144: from the number s to the bytes. `R` is the x
coordinate as it is, not modulo N. -/
def finish (shareR : Scalar) (s : ℤ) : Res Bytes :=
  let s := if s > (N / 2 : ℕ) then N - s else s
  if s = 0 then .err Ecdsa.errSZero else .ok (Der.marshal shareR.x s)

/-- xcrypto/mpc_ecdsa.go:143-152 and xcrypto/scriptless_ecdsa.go:48-58: the number s before it is made low. -/
def EcdsaParty.partialS (party : EcdsaParty) (sign2 : Option ℤ) : Res ℤ := do
  let sig ← decryptNil party.encprv sign2
  match party.kinv with
  | none => .panic
  | some kinv => return (sig * kinv) % N

/-- xcrypto/mpc_ecdsa.go:143-164 -/
def EcdsaParty.phase5 (party : EcdsaParty) (shareR : Scalar) (sign2 : Option ℤ) : Res Bytes := do
  let s ← party.partialS sign2
  finish shareR s

/-! ### The scriptless exchange. Alice's phases 1 to 4 and Bob's phases 1 and 4 are those of the party,
xcrypto/scriptless_ecdsa.go:28-45, 83-85, 108-110. -/

/-- xcrypto/scriptless_ecdsa.go:48-59 -/
def alicePhase5 (alice : EcdsaParty) (sign2 : Option ℤ) : Res ℤ := alice.partialS sign2

/-- xcrypto/scriptless_ecdsa.go:62-68. A nil inverse is dereferenced. -/
def alicePhase6 (alicesig bobsig : ℤ) : Res ℤ :=
  match Num.modInverse bobsig N with
  | none => .panic
  | some inv => .ok ((alicesig * inv) % N)

/-- xcrypto/scriptless_ecdsa.go:71-74 -/
structure EcdsaBob where
  secret : ℕ
  party : EcdsaParty
  deriving DecidableEq, Repr

/-- xcrypto/scriptless_ecdsa.go:89-96. From the result of the party's Phase2 on; if that
is nil, the pointer is dereferenced. -/
def EcdsaBob.phase2From (bob : EcdsaBob) (res : Res (EcdsaParty × ℤ × Paillier.PubKey × Scalar)) :
    Res (EcdsaBob × ℤ × Paillier.PubKey × Scalar) := do
  let (party, encpk, encpub, scalar) ← res
  let (tx, ty) ← mult scalar.x scalar.y (natToBE bob.secret)
  return (⟨bob.secret, party⟩, encpk, encpub, ⟨tx, ty⟩)

/-- xcrypto/scriptless_ecdsa.go:89-96 -/
def EcdsaBob.phase2 [Hashes] (fuel p q rnd : ℕ) (bob : EcdsaBob) (hash : Bytes) :
    Res (EcdsaBob × ℤ × Paillier.PubKey × Scalar) :=
  bob.phase2From (bob.party.phase2 fuel p q rnd hash)

/-- xcrypto/scriptless_ecdsa.go:99-105 -/
def EcdsaBob.phase3 (bob : EcdsaBob) (r2 : Scalar) : Res Scalar := do
  let scalar ← bob.party.phase3 r2
  let (tx, ty) ← mult scalar.x scalar.y (natToBE bob.secret)
  return ⟨tx, ty⟩

/-- xcrypto/scriptless_ecdsa.go:113-126. A nil inverse of the secret is dereferenced. -/
def EcdsaBob.phase5 (bob : EcdsaBob) (sign2 : Option ℤ) : Res ℤ := do
  let sig ← decryptNil bob.party.encprv sign2
  match bob.party.kinv, Num.modInverse bob.secret N with
  | some kinv, some tinv => return (sig * kinv * tinv) % N
  | _, _ => .panic

/-- xcrypto/scriptless_ecdsa.go:129-145 -/
def EcdsaBob.phase6 (_bob : EcdsaBob) (shareR : Scalar) (sig : ℤ) : Res Bytes := finish shareR sig

/-! ### Schnorr -/

/-- xcrypto/mpc_schnorr.go:18-26. The fields set by Phase2 are nil (`none`) before. -/
structure SchnorrParty where
  prv : PrvKey
  hash : Bytes
  k0 : Option ℕ
  r : Option Scalar
  deriving DecidableEq, Repr

/-- xcrypto/mpc_schnorr.go:29-39 -/
def newSchnorrParty (prv : PrvKey) : SchnorrParty := ⟨prv, [], none, none⟩

/-- xcrypto/mpc_schnorr.go:43-46 -/
def SchnorrParty.phase1 (party : SchnorrParty) (pub2 : PubKey) : Res PubKey := pubAdd party.prv.pub pub2

/-- xcrypto/mpc_schnorr.go:50-69. An error of `GetK0` is a nil result in the code. -/
def SchnorrParty.phase2 [Hashes] (party : SchnorrParty) (hash : Bytes) : Res (SchnorrParty × Scalar) := do
  let d ← Schnorr.intToByte party.prv.d
  let k0 ← Schnorr.getK0 hash d
  let (rx, ry) ← baseMult (natToBE k0)
  return (⟨party.prv, hash, some k0, some ⟨rx, ry⟩⟩, ⟨rx, ry⟩)

/-- xcrypto/mpc_schnorr.go:72-78 -/
def SchnorrParty.phase3 (party : SchnorrParty) (r2 : Scalar) : Res Scalar :=
  match party.r with
  | none => .panic
  | some r => r.add r2

/-- xcrypto/mpc_schnorr.go:81-105. The challenge takes the x coordinate of this party's own R, line 92. `GetK` stores its
result in `k0` (xcrypto/schnorr/schnorr.go:123-131), a number between 1 and N - 1, so the party changes. -/
def SchnorrParty.phase4 [Hashes] (party : SchnorrParty) (sharePub : PubKey) (shareR : Scalar) : Res (SchnorrParty × Bytes) :=
  match party.k0, party.r with
  | some k0, some r => do
    let rX ← Schnorr.intToByte r.x
    let e ← Schnorr.getE party.hash sharePub.x sharePub.y rX
    let k := Schnorr.getK shareR.y k0
    let s ← Schnorr.intToByte ((k + e * party.prv.d) % N)
    return (⟨party.prv, party.hash, some k.toNat, party.r⟩, s)
  | _, _ => .panic

/-- xcrypto/mpc_schnorr.go:108-124 -/
def SchnorrParty.phase5 (_party : SchnorrParty) (shareR : Scalar) (sigs : List Bytes) : Res Bytes := do
  let aggs := (sigs.foldl (fun a sig => a + natOfBE sig) 0) % N
  let rb ← Schnorr.intToByte shareR.x
  let sb ← Schnorr.intToByte aggs
  return rb ++ sb

end Toku.Mpc
