import Verif.Model.Mpc
/-
The parties of xcrypto/mpc_ecdsa.go, xcrypto/scriptless_ecdsa.go and xcrypto/mpc_schnorr.go as objects: their methods may be
called in any order, also after Close, and a method that stops half way leaves what it has stored. The private key is
a pointer that Close sets to nil. Failures of `crypto/rand` are arguments. A panic leaves the object as it is: each
of the methods dereferences its nil pointers before it stores anything, except where said.
-/
namespace Toku.Mpc
open Toku.Curve Toku.Keys

/-- xcrypto/mpc_ecdsa.go:24-34 and, for Bob, xcrypto/scriptless_ecdsa.go:71-74. The embedded party's methods can be called on
Alice and Bob too. For a plain party and for Alice `secret` has no meaning. -/
structure Obj where
  prv : Option PrvKey
  k : Option ℕ
  kinv : Option ℤ
  hash : Bytes
  encprv : Option Paillier.PrvKey
  secret : ℕ
  deriving DecidableEq, Repr

/-- xcrypto/mpc_ecdsa.go:37-48, xcrypto/scriptless_ecdsa.go:22-25, 77-80 -/
def newObj (prv : PrvKey) (secret : ℕ) : Obj := ⟨some prv, none, none, [], none, secret⟩

/-- The party with the private key `prv` in place. -/
def Obj.live (o : Obj) (prv : PrvKey) : EcdsaParty := ⟨prv, o.k, o.kinv, o.hash, o.encprv⟩

/-- xcrypto/mpc_ecdsa.go:63-92. `primes` is `none` if `GenerateKeyPair` fails, `rnd` is `none` if the randomiser cannot be
drawn: nil pointers are returned, and the hash (and the Paillier key) has been stored. -/
def Obj.phase2 [Hashes] (fuel : ℕ) (primes : Option (ℕ × ℕ)) (rnd : Option ℕ) (o : Obj) (hash : Bytes) :
    Obj × Res (ℤ × Paillier.PubKey × Scalar) :=
  match o.prv with
  | none => (o, .panic)
  | some prv =>
    match primes with
    | none => ({ o with hash := hash }, .err errNil)
    | some (p, q) =>
      let o := { o with hash := hash, encprv := some (Paillier.generateKeyPair p q).2 }
      let encpub := (Paillier.generateKeyPair p q).1
      match rnd with
      | none => (o, .err errNil)
      | some rnd =>
        match encryptKey encpub rnd prv.d with
        | .err e => (o, .err e)
        | .panic => (o, .panic)
        | .ok encpk =>
          match Ecdsa.nonce N fuel prv.d hash with
          | none => (o, .err Ecdsa.errRunning)
          | some k =>
            ({ o with k := some k, kinv := Num.modInverse k N },
              (baseMult (natToBE k)).bind fun r => .ok (encpk, encpub, ⟨r.1, r.2⟩))

/-- xcrypto/mpc_ecdsa.go:167-174. `prv` and `encprv` are nil before a nil `kinv` is dereferenced. -/
def Obj.close (o : Obj) : Obj × Res Unit :=
  let o := { o with prv := none, encprv := none }
  match o.k, o.kinv with
  | none, _ => (o, .ok ())
  | some _, some _ => ({ o with k := some 0, kinv := some 0 }, .ok ())
  | some _, none => ({ o with k := some 0 }, .panic)

/-- The methods and their arguments; `alice…` and `bob…` are those of xcrypto/scriptless_ecdsa.go that are more than a call
of the party's method. -/
inductive Call where
  | phase1 (pub2 : PubKey)
  | phase2 (fuel : ℕ) (primes : Option (ℕ × ℕ)) (rnd : Option ℕ) (hash : Bytes)
  | phase3 (r2 : Scalar)
  | phase4 (encpk2 : Option ℤ) (encpub2 : Paillier.PubKey) (shareR : Scalar)
  | phase5 (shareR : Scalar) (sign2 : Option ℤ)
  | alice5 (sign2 : Option ℤ)
  | alice6 (alicesig bobsig : ℤ)
  | bob2 (fuel : ℕ) (primes : Option (ℕ × ℕ)) (rnd : Option ℕ) (hash : Bytes)
  | bob3 (r2 : Scalar)
  | bob5 (sign2 : Option ℤ)
  | bob6 (shareR : Scalar) (sig : ℤ)
  | close

/-- What the methods return. -/
inductive Out where
  | key (k : PubKey)
  | start (encpk : ℤ) (encpub : Paillier.PubKey) (r : Scalar)
  | point (r : Scalar)
  | cipher (ct : Option ℤ)
  | num (s : ℤ)
  | sig (b : Bytes)
  | done
  deriving DecidableEq

/-- `party.k.Bytes()` and the multiplication, xcrypto/mpc_ecdsa.go:96-102 -/
def Obj.phase3 (o : Obj) (r2 : Scalar) : Res Scalar :=
  match o.k with
  | none => .panic
  | some k => (mult r2.x r2.y (natToBE k)).bind fun r => .ok ⟨r.1, r.2⟩

/-- xcrypto/mpc_ecdsa.go:143-152 and xcrypto/scriptless_ecdsa.go:48-58 -/
def Obj.partialS (o : Obj) (sign2 : Option ℤ) : Res ℤ :=
  (decryptNil o.encprv sign2).bind fun sig =>
    match o.kinv with
    | none => .panic
    | some kinv => .ok ((sig * kinv) % N)

/-- One call: the object afterwards and the result. xcrypto/mpc_ecdsa.go:52-174, xcrypto/scriptless_ecdsa.go:28-145. The
private key is dereferenced by phases 1, 2 and 4 before anything else. -/
def Obj.step [Hashes] (o : Obj) : Call → Obj × Res Out
  | .phase1 pub2 => (o, match o.prv with
    | none => .panic
    | some prv => ((o.live prv).phase1 pub2).bind fun k => .ok (.key k))
  | .phase2 fuel primes rnd hash =>
    let (o, r) := o.phase2 fuel primes rnd hash
    (o, r.bind fun x => .ok (.start x.1 x.2.1 x.2.2))
  | .phase3 r2 => (o, (o.phase3 r2).bind fun r => .ok (.point r))
  | .phase4 encpk2 encpub2 shareR => (o, match o.prv with
    | none => .panic
    | some prv => ((o.live prv).phase4 encpk2 encpub2 shareR).bind fun c => .ok (.cipher c))
  | .phase5 shareR sign2 => (o, (o.partialS sign2).bind fun s => (finish shareR s).bind fun b => .ok (.sig b))
  | .alice5 sign2 => (o, (o.partialS sign2).bind fun s => .ok (.num s))
  | .alice6 alicesig bobsig => (o, (alicePhase6 alicesig bobsig).bind fun s => .ok (.num s))
  | .bob2 fuel primes rnd hash =>
    let (o, r) := o.phase2 fuel primes rnd hash
    (o, match r with
      | .ok x => (mult x.2.2.x x.2.2.y (natToBE o.secret)).bind fun t => .ok (.start x.1 x.2.1 ⟨t.1, t.2⟩)
      | .err e => if e = errNil then .panic else .err e
      | .panic => .panic)
  | .bob3 r2 => (o, (o.phase3 r2).bind fun r => (mult r.x r.y (natToBE o.secret)).bind fun t => .ok (.point ⟨t.1, t.2⟩))
  | .bob5 sign2 => (o, (decryptNil o.encprv sign2).bind fun sig =>
      match o.kinv, Num.modInverse o.secret N with
      | some kinv, some tinv => .ok (.num ((sig * kinv * tinv) % N))
      | _, _ => .panic)
  | .bob6 shareR sig => (o, (finish shareR sig).bind fun b => .ok (.sig b))
  | .close =>
    let (o, r) := o.close
    (o, r.bind fun _ => .ok .done)

/-- A sequence of calls; a panic of one of them is recovered and the object used further. -/
def Obj.run [Hashes] (o : Obj) (cs : List Call) : Obj := cs.foldl (fun o c => (o.step c).1) o

/-- The results of a sequence of calls. -/
def Obj.results [Hashes] (o : Obj) : List Call → List (Res Out)
  | [] => []
  | c :: cs => (o.step c).2 :: (o.step c).1.results cs

/-! ### Schnorr -/

/-- xcrypto/mpc_schnorr.go:18-26. `pub` is kept beside the private key. -/
structure SObj where
  prv : Option PrvKey
  pub : PubKey
  hash : Bytes
  k0 : Option ℕ
  r : Option Scalar
  deriving DecidableEq, Repr

/-- xcrypto/mpc_schnorr.go:29-39 -/
def newSObj (prv : PrvKey) : SObj := ⟨some prv, prv.pub, [], none, none⟩

inductive SCall where
  | phase1 (pub2 : PubKey)
  | phase2 (hash : Bytes)
  | phase3 (r2 : Scalar)
  | phase4 (sharePub : PubKey) (shareR : Scalar)
  | phase5 (shareR : Scalar) (sigs : List Bytes)
  | close

/-- xcrypto/mpc_schnorr.go:50-69: the hash is stored before `GetK0` can fail. `none` is a nil result. -/
def SObj.phase2 [Hashes] (o : SObj) (hash : Bytes) : SObj × Res (Option Scalar) :=
  match o.prv with
  | none => (o, .panic)
  | some prv =>
    match Schnorr.intToByte prv.d with
    | .err e => (o, .err e)
    | .panic => (o, .panic)
    | .ok d =>
      match Schnorr.getK0 hash d with
      | .err _ => ({ o with hash := hash }, .ok none)
      | .panic => ({ o with hash := hash }, .panic)
      | .ok k0 =>
        match baseMult (natToBE k0) with
        | .ok r => ({ o with hash := hash, k0 := some k0, r := some ⟨r.1, r.2⟩ }, .ok (some ⟨r.1, r.2⟩))
        | .err e => ({ o with hash := hash, k0 := some k0 }, .err e)
        | .panic => ({ o with hash := hash, k0 := some k0 }, .panic)

/-- What the methods return. -/
inductive SOut where
  | key (k : PubKey)
  | point (r : Option Scalar)
  | sig (b : Bytes)
  | done
  deriving DecidableEq

/-- One call. xcrypto/mpc_schnorr.go:43-132. In Phase4 the nil private key is dereferenced after the challenge has been
computed, of which only a panic can come, and before `k0` is touched. -/
def SObj.step [Hashes] (o : SObj) : SCall → SObj × Res SOut
  | .phase1 pub2 => (o, (pubAdd o.pub pub2).bind fun k => .ok (.key k))
  | .phase2 hash =>
    let (o, r) := o.phase2 hash
    (o, r.bind fun r => .ok (.point r))
  | .phase3 r2 => (o, match o.r with
    | none => .panic
    | some r => (r.add r2).bind fun r => .ok (.point (some r)))
  | .phase4 sharePub shareR =>
    match o.prv with
    | none => (o, .panic)
    | some prv =>
      match (⟨prv, o.hash, o.k0, o.r⟩ : SchnorrParty).phase4 sharePub shareR with
      | .ok (p, s) => ({ o with k0 := p.k0 }, .ok (.sig s))
      | .err e => (o, .err e)
      | .panic => (o, .panic)
  | .phase5 shareR sigs => (o, ((⟨⟨⟨0, 0⟩, 0⟩, [], none, none⟩ : SchnorrParty).phase5 shareR sigs).bind fun b => .ok (.sig b))
  | .close => ({ o with prv := none, k0 := o.k0.map fun _ => 0 }, .ok .done)

def SObj.run [Hashes] (o : SObj) (cs : List SCall) : SObj := cs.foldl (fun o c => (o.step c).1) o

def SObj.results [Hashes] (o : SObj) : List SCall → List (Res SOut)
  | [] => []
  | c :: cs => (o.step c).2 :: (o.step c).1.results cs

end Toku.Mpc
