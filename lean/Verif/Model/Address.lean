import Verif.Model.Locking
import Verif.Model.Base58
import Verif.Model.Witness
/-
network/network.go, xcore/address.go, xcore/address_p2pkh.go, xcore/address_p2sh.go,
xcore/address_p2wpkh_v0.go, xcore/address_p2wsh_v0.go.
-/
namespace Toku

/-- network/network.go:9-30, the fields used by the modelled code. -/
structure Network where
  pubKeyHashAddrID : UInt8
  scriptHashAddrID : UInt8
  privateKeyID : UInt8
  bech32HRPSegwit : Bytes
  hdPrivateKeyID : Bytes
  hdPublicKeyID : Bytes
  magic : Bytes
  deriving DecidableEq, Repr

/-- network/network.go:34-55 -/
def mainNet : Network where
  pubKeyHashAddrID := 0x00
  scriptHashAddrID := 0x05
  privateKeyID := 0x80
  bech32HRPSegwit := ascii ['b', 'c']
  hdPrivateKeyID := [0x04, 0x88, 0xad, 0xe4]
  hdPublicKeyID := [0x04, 0x88, 0xb2, 0x1e]
  magic := [0xf9, 0xbe, 0xb4, 0xd9]

/-- network/network.go:58-79 -/
def testNet : Network where
  pubKeyHashAddrID := 0x6f
  scriptHashAddrID := 0xc4
  privateKeyID := 0xef
  bech32HRPSegwit := ascii ['t', 'b']
  hdPrivateKeyID := [0x04, 0x35, 0x83, 0x94]
  hdPublicKeyID := [0x04, 0x35, 0x87, 0xcf]
  magic := [0x0b, 0x11, 0x09, 0x07]

namespace Address
open Locking

/-- The four implementations of `Address` (xcore/address_p2pkh.go:18-20, address_p2sh.go:18-20,
address_p2wpkh_v0.go:22-25, address_p2wsh_v0.go:21-24) with their byte array; the field `witnessVersion`
is always 0. -/
structure Addr where
  kind : Kind
  hash : Bytes
  deriving DecidableEq, Repr

/-- Size of the byte array of each kind. -/
def hashLen : Kind → Nat
  | .p2wsh => 32
  | _ => 20

/-- NewPayTo…Address: `none` is the Go `nil`, returned when the length is wrong
(address_p2pkh.go:23-33, address_p2sh.go:23-33, address_p2wpkh_v0.go:28-39, address_p2wsh_v0.go:27-38). -/
def make (k : Kind) (hash : Bytes) : Option Addr := if hash.length = hashLen k then some ⟨k, hash⟩ else none

/-- `WitnessEncode` with any error turned into the empty string (address_p2wpkh_v0.go:42-48,
address_p2wsh_v0.go:41-47). `WitnessEncode` never panics. -/
def witnessText (hrp program : Bytes) : Bytes :=
  match Witness.encode hrp 0 program with
  | .ok s => s
  | _ => []

/-- ToString: address_p2pkh.go:36-38, address_p2sh.go:36-38, address_p2wpkh_v0.go:42-48,
address_p2wsh_v0.go:41-47 -/
def text [Hashes] (a : Addr) (net : Network) : Bytes :=
  match a.kind with
  | .p2pkh => Base58.checkEncode a.hash net.pubKeyHashAddrID
  | .p2sh => Base58.checkEncode a.hash net.scriptHashAddrID
  | .p2wpkh => witnessText net.bech32HRPSegwit a.hash
  | .p2wsh => witnessText net.bech32HRPSegwit a.hash

/-- LockingScript: address_p2pkh.go:46-48 and the same in the other three files. -/
def lockingScript (a : Addr) : Bytes := rawLocking ⟨a.kind, a.hash⟩

def errType : Err := .num 3102
def errFormat : Err := .num 3103
def errSize : Err := .num 3104
def errVersion : Err := .num 3105

/-- xcore/address.go:57-73, the Base58Check branch. -/
def decodeBase58 [Hashes] (addr : Bytes) (net : Network) : Res Addr :=
  match Base58.checkDecode addr with
  | .panic => .panic
  | .err _ => .err errFormat
  | .ok (decoded, netID) =>
    if decoded.length = 20 then
      if netID = net.pubKeyHashAddrID then .ok ⟨.p2pkh, decoded⟩
      else if netID = net.scriptHashAddrID then .ok ⟨.p2sh, decoded⟩
      else .err errType
    else .err errSize

/-- xcore/address.go:33-74. `strings.IndexByte(addr, '1') == 2` says that the first `'1'` is the third
byte; the human-readable part returned by `WitnessDecode` is dropped. -/
def decode [Hashes] (addr : Bytes) (net : Network) : Res Addr :=
  if addr.idxOf? 0x31 = some 2 ∧ addr.take 2 = net.bech32HRPSegwit then do
    let (_, version, program) ← Witness.decode addr
    if version = 0 then
      if program.length = 20 then .ok ⟨.p2wpkh, program⟩
      else if program.length = 32 then .ok ⟨.p2wsh, program⟩
      else decodeBase58 addr net
    else .err errVersion
  else decodeBase58 addr net

end Address
end Toku
