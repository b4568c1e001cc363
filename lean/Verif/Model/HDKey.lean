import Verif.Model.Keys
import Verif.Model.Hmac
import Verif.Model.Base58
import Verif.Model.Ripemd
/-
xcore/bip32/hdkey.go.
-/
namespace Toku.HDKey
open Toku.Curve Toku.Keys

/-- The key of an extended key. The code has the fields `isPrivate`, `prvkey` and `pubkey`; all functions that make an
extended key set exactly one of the two keys, the private one when `isPrivate`. -/
inductive Material where
  | prv (k : PrvKey)
  | pub (k : PubKey)
  deriving DecidableEq, Repr

/-- xcore/bip32/hdkey.go:51-59 -/
structure HDKey where
  childNum : Bytes
  parentFP : Bytes
  chainCode : Bytes
  depth : UInt8
  key : Material
  deriving DecidableEq, Repr

/-- xcore/bip32/hdkey.go:36 -/
def hardenedKeyStart : UInt32 := 0x80000000

def errHardened : Err := .other 50
def errPath : Err := .other 51
def errSize : Err := .other 52
def errChecksum : Err := .other 53

/-- xcore/bip32/hdkey.go:324-328 -/
def uint32ToBytes (i : UInt32) : Bytes :=
  [(i >>> 24).toUInt8, (i >>> 16).toUInt8, (i >>> 8).toUInt8, i.toUInt8]

/-- `[]byte("Bitcoin seed")` -/
def seedKey : Bytes := ascii ['B', 'i', 't', 'c', 'o', 'i', 'n', ' ', 's', 'e', 'e', 'd']

/-- xcore/bip32/hdkey.go:243-248 -/
def publicKey (k : HDKey) : PubKey :=
  match k.key with
  | .prv p => p.pub
  | .pub p => p

section
variable [Hashes]

/-- xcore/bip32/hdkey.go:62-81 -/
def new (seed : Bytes) : Res HDKey := do
  let i := hmac512 seedKey seed
  let prv ← prvFromBytes (i.take 32)
  return ⟨[0, 0, 0, 0], [0, 0, 0, 0], i.drop 32, 0, .prv prv⟩

/-- xcore/bip32/hdkey.go:208-216: the key data hashed for a child. Asking a public key for a hardened child would dereference nil; `derive` refuses
before. -/
def hashedKey (k : HDKey) (childIdx : UInt32) : Res Bytes :=
  if childIdx ≥ hardenedKeyStart then
    match k.key with
    | .prv p => .ok (0 :: prvSerialize p)
    | .pub _ => .panic
  else serializeCompressed (publicKey k)

/-- xcore/bip32/hdkey.go:205-224 -/
def getIntermediary (k : HDKey) (childIdx : UInt32) : Res Bytes := do
  let data ← hashedKey k childIdx
  return hmac512 k.chainCode (data ++ uint32ToBytes childIdx)

/-- xcore/bip32/hdkey.go:113-163 -/
def derive (k : HDKey) (childIdx : UInt32) : Res HDKey :=
  match k.key with
  | .prv p => do
    let i ← getIntermediary k childIdx
    let pb ← serializeCompressed p.pub
    let prv ← prvAdd p (i.take 32)
    return ⟨uint32ToBytes childIdx, (hash160 pb).take 4, i.drop 32, k.depth + 1, .prv prv⟩
  | .pub p =>
    if childIdx ≥ hardenedKeyStart then .err errHardened
    else do
      let i ← getIntermediary k childIdx
      let pb ← serializeCompressed p
      let prv ← prvFromBytes (i.take 32)
      let ub ← serializeUncompressed prv.pub
      let p2 ← pubFromBytes ub
      let sum ← pubAdd p p2
      return ⟨uint32ToBytes childIdx, (hash160 pb).take 4, i.drop 32, k.depth + 1, .pub sum⟩

/-- `strings.Split(s, "/")` -/
def split : Bytes → List Bytes
  | [] => [[]]
  | c :: s => if c = 0x2f then [] :: split s else
    match split s with
    | [] => [[c]]
    | w :: ws => (c :: w) :: ws

/-- `strconv.ParseUint(s, 10, 32)`: decimal digits, at least one, below 2^32. -/
def parseUint32 (s : Bytes) : Option ℕ :=
  if s = [] then none
  else if s.all (fun c => 0x30 ≤ c && c ≤ 0x39) then
    let v := s.foldl (fun n c => n * 10 + (c.toNat - 48)) 0
    if v < 2 ^ 32 then some v else none
  else none

/-- xcore/bip32/hdkey.go:179-194: the index meant by one step of a path. The sum is converted to `uint32`. -/
def stepIndex (step : Bytes) : Res UInt32 :=
  match step.getLast? with
  | none => .panic
  | some c =>
    let hardened := c == 0x27
    let digits := if hardened then step.dropLast else step
    match parseUint32 digits with
    | none => .err errPath
    | some v => .ok (UInt32.ofNat (if hardened then v + 2 ^ 31 else v))

/-- xcore/bip32/hdkey.go:177-198: the loop. -/
def deriveSteps (k : HDKey) : List Bytes → Res HDKey
  | [] => .ok k
  | s :: ss => do
    let i ← stepIndex s
    let k ← derive k i
    deriveSteps k ss

/-- xcore/bip32/hdkey.go:167-199 -/
def deriveByPath (k : HDKey) (path : Bytes) : Res HDKey :=
  if path = [] then .ok k
  else match split path with
    | [] => .panic
    | m :: steps => if m ≠ [0x6d] then .err errPath else deriveSteps k steps

/-- xcore/bip32/hdkey.go:227-240 -/
def hdPublicKey (k : HDKey) : HDKey := { k with key := .pub (publicKey k) }

/-- xcore/bip32/hdkey.go:261-267: the 33 bytes of the key. -/
def keyBytes (k : HDKey) : Res Bytes :=
  match k.key with
  | .prv p => .ok (0 :: prvSerialize p)
  | .pub p => serializeCompressed p

/-- xcore/bip32/hdkey.go:257-283. The two version prefixes are those of the network. -/
def toString (prvID pubID : Bytes) (k : HDKey) : Res Bytes := do
  let body ← keyBytes k
  let version := match k.key with
    | .prv _ => prvID
    | .pub _ => pubID
  let data := version ++ [k.depth] ++ k.parentFP ++ k.childNum ++ k.chainCode ++ body
  return Base58.encode (data ++ (sha256d data).take 4)

/-- xcore/bip32/hdkey.go:301-312: the 33 bytes `data[45:78]`. -/
def parseKey (b : Bytes) : Res Material :=
  if b.getD 0 0 = 0 then do
    let p ← prvFromBytes (b.drop 1)
    return Material.prv p
  else do
    let p ← pubFromBytes b
    return Material.pub p

/-- xcore/bip32/hdkey.go:286-322 -/
def fromString (wif : Bytes) : Res HDKey :=
  let data := Base58.decode wif
  if data.length ≠ 82 then .err errSize
  else do
    let key ← parseKey ((data.drop 45).take 33)
    if (sha256d (data.take 78)).take 4 ≠ data.drop 78 then .err errChecksum
    else .ok ⟨(data.drop 9).take 4, (data.drop 5).take 4, (data.drop 13).take 32, data.getD 4 0, key⟩

end

end Toku.HDKey
