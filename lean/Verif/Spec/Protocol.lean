import Verif.Model.Protocol
import Verif.Spec.Tx
/-
Bitcoin's peer-to-peer messages as the protocol documentation lays them out, and what it means for bytes on a
connection to be a frame; independent of the model's buffers and readers.
-/
namespace Toku.Spec
open Toku.Protocol

/-- An inventory vector: type and hash. -/
def wireInv (i : InvVect) : Bytes := le 4 i.typ.toNat ++ i.hash

/-- A block header: 80 bytes when both hashes have 32. -/
def wireHeader (h : BlockHeader) : Bytes :=
  le 4 h.version.toNat ++ h.prevBlock ++ h.merkleRoot ++ le 4 h.timestamp.toNat ++ le 4 h.bits.toNat ++ le 4 h.nonce.toNat

/-- A port number in network byte order. -/
def bePort (p : Nat) : Bytes := [UInt8.ofNat (p / 256 % 256), UInt8.ofNat (p % 256)]

/-- A version message, for a way of writing port numbers. -/
def wireVersion (port : Nat → Bytes) (m : MsgVersion) : Bytes :=
  le 4 m.version.toNat ++ le 8 m.services.toNat ++ le 8 m.timestamp.toNat ++
  (le 8 m.servicesYou.toNat ++ m.addressYou ++ port m.portYou.toNat) ++
  (le 8 m.servicesMe.toNat ++ m.addressMe ++ port m.portMe.toNat) ++
  le 8 m.nonce.toNat ++ varStr m.userAgent ++ le 4 m.lastBlock.toNat ++ [m.relay]

/-- The payload of each message, for a way of writing port numbers. A `reject` names a hash when it is about a block or
a transaction. -/
def payloadWith (port : Nat → Bytes) : Msg → Bytes
  | .version m => wireVersion port m
  | .verack => []
  | .inv l => counted wireInv l
  | .getdata l => counted wireInv l
  | .getheaders v l s => le 4 v.toNat ++ counted id l ++ s
  | .headers l => counted (fun h => wireHeader h ++ [0]) l
  | .ping n => le 8 n.toNat
  | .pong n => le 8 n.toNat
  | .reject r => varStr r.cmd ++ [r.code] ++ varStr r.reason ++
      (if r.cmd = ascii ['b', 'l', 'o', 'c', 'k'] ∨ r.cmd = ascii ['t', 'x'] then r.hash else [])
  | .tx d => d
  | .unhandle _ => []

/-- The payload the protocol prescribes. -/
def payload : Msg → Bytes := payloadWith bePort

/-- The fields are within the ranges of the protocol: hashes of 32 bytes, addresses of 16, ports of 16 bits, at most
50000 inventory vectors, a hash in a `reject` exactly if it is about a block or a transaction. -/
def Fits : Msg → Prop
  | .version m => m.addressYou.length = 16 ∧ m.addressMe.length = 16 ∧ m.portYou.toNat < 65536 ∧ m.portMe.toNat < 65536
  | .inv l => l.length ≤ 50000 ∧ ∀ i ∈ l, i.hash.length = 32
  | .getdata l => l.length ≤ 50000 ∧ ∀ i ∈ l, i.hash.length = 32
  | .getheaders _ l s => (∀ h ∈ l, h.length = 32) ∧ s.length = 32
  | .headers l => ∀ h ∈ l, h.prevBlock.length = 32 ∧ h.merkleRoot.length = 32
  | .reject r =>
      if r.cmd = ascii ['b', 'l', 'o', 'c', 'k'] ∨ r.cmd = ascii ['t', 'x'] then r.hash.length = 32 else r.hash = []
  | _ => True

/-- A new message of the same type: the zero value of the Go struct. A message of unknown type keeps its command. -/
def blank : Msg → Msg
  | .version _ => .version ⟨0, 0, 0, 0, [], 0, 0, [], 0, 0, [], 0, 0⟩
  | .verack => .verack
  | .inv _ => .inv []
  | .getdata _ => .getdata []
  | .getheaders _ _ _ => .getheaders 0 [] (List.replicate 32 0)
  | .headers _ => .headers []
  | .ping _ => .ping 0
  | .pong _ => .pong 0
  | .reject _ => .reject ⟨[], 0, [], []⟩
  | .tx _ => .tx []
  | .unhandle c => .unhandle c

/-- A `getheaders` that names at least one locator and no stopping point; any other message. -/
def NoStop : Msg → Prop
  | .getheaders _ l s => l ≠ [] ∧ s = List.replicate 32 0
  | _ => True

/-- The bytes `f` are a frame with these parts: network, twelve bytes of command, payload length, first four bytes of the
double SHA-256 of the payload, payload. -/
def IsFrame [Hashes] (f magic command data : Bytes) : Prop :=
  magic.length = 4 ∧ command.length = 12 ∧ data.length < 2^32 ∧
  f = magic ++ command ++ le 4 data.length ++ (Hashes.sha256 (Hashes.sha256 data)).take 4 ++ data

/-- `c` is the command named by a command field: the field is `c` filled up with zeros, and `c` does not end in zero. -/
def Names (field c : Bytes) : Prop := ∃ k, field = c ++ List.replicate k 0 ∧ c.getLast? ≠ some 0

/-- The bytes `r`, which follow `pos` others, start with a length so large that the string it announces would reach
position 2^63. -/
def Huge (pos : Nat) (r : Bytes) : Prop := ∃ e t n, r = e ++ t ∧ IsVarInt e n ∧ 2^63 ≤ pos + e.length + n

/-- The commands the protocol defines and a connection knows. -/
def knownCommands : List Bytes :=
  [ascii ['v', 'e', 'r', 's', 'i', 'o', 'n'], ascii ['v', 'e', 'r', 'a', 'c', 'k'], ascii ['i', 'n', 'v'],
   ascii ['g', 'e', 't', 'd', 'a', 't', 'a'], ascii ['g', 'e', 't', 'h', 'e', 'a', 'd', 'e', 'r', 's'],
   ascii ['t', 'x'], ascii ['h', 'e', 'a', 'd', 'e', 'r', 's'], ascii ['r', 'e', 'j', 'e', 'c', 't']]

/-- Messages of unknown type carry a command of at most twelve bytes, not ending in zero, that is not the command of
another type; the payload of any message fits the 32-bit length of a frame. -/
def Sendable (m : Msg) : Prop :=
  (encode m).length < 2^32 ∧
  ∀ c, m = .unhandle c → c.length ≤ 12 ∧ c.getLast? ≠ some 0 ∧ c ∉ knownCommands

/-- What becomes of a message: pings and pongs arrive as messages of unknown type without their nonce, a `getheaders`
loses its stopping point and gains a locator of zeros if it had none. -/
def arrives : Msg → Msg
  | .ping _ => .unhandle (ascii ['p', 'i', 'n', 'g'])
  | .pong _ => .unhandle (ascii ['p', 'o', 'n', 'g'])
  | .getheaders v l _ => .getheaders v (if l = [] then [List.replicate 32 0] else l) (List.replicate 32 0)
  | m => m

/-- The frame `f` is complete, its checksum is right, and its payload decodes to `m` as a message of the type that its
command names. -/
def Accepts [Hashes] (f : Bytes) (m : Msg) : Prop :=
  ∃ magic field c data, IsFrame f magic field data ∧ Names field c ∧ decode (makeEmptyMessage c) data = .ok m

/-- `w` starts with frames carrying the messages `ms`, one after another, and goes on with `rest`. -/
def Carries [Hashes] : Bytes → List Msg → Bytes → Prop
  | w, [], rest => w = rest
  | w, m :: ms, rest => ∃ f t, w = f ++ t ∧ Accepts f m ∧ Carries t ms rest

/-- What is left of a message list after a sequence of `Add` calls; a call that fails changes nothing. -/
def added {α : Type} (add : List α → List α → Res (List α)) (batches : List (List α)) : List α :=
  batches.foldl (fun l batch => match add l batch with | .ok l' => l' | _ => l) []

end Toku.Spec
