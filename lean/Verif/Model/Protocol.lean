import Verif.Model.Tx
import Verif.Model.Base58
/-
xprotocol: messages, their encodings, and frames on a stream. Concurrency is in Model/Stream.lean.

Go slices of pointers (`[]*InvVect`, `[]*BlockHeader`) hold values here: nil elements and sharing are not modelled.
`Decode` is a method that fills in its receiver; here it takes the receiver and returns the filled-in one. When it
fails the Go receiver is left half filled in; `ReadMessage` drops it, and it is not modelled.
-/
namespace Toku.Protocol
open Toku.Tx (readMany)

/-! ### Commands: xprotocol/command.go -/

/-- command.go:12 -/
def cmdVersion : Bytes := ascii ['v', 'e', 'r', 's', 'i', 'o', 'n']
/-- command.go:15 -/
def cmdVerAck : Bytes := ascii ['v', 'e', 'r', 'a', 'c', 'k']
/-- command.go:19 -/
def cmdInv : Bytes := ascii ['i', 'n', 'v']
/-- command.go:22 -/
def cmdPing : Bytes := ascii ['p', 'i', 'n', 'g']
/-- command.go:25 -/
def cmdPong : Bytes := ascii ['p', 'o', 'n', 'g']
/-- command.go:28 -/
def cmdBlock : Bytes := ascii ['b', 'l', 'o', 'c', 'k']
/-- command.go:35 -/
def cmdGetData : Bytes := ascii ['g', 'e', 't', 'd', 'a', 't', 'a']
/-- command.go:39 -/
def cmdGetHeaders : Bytes := ascii ['g', 'e', 't', 'h', 'e', 'a', 'd', 'e', 'r', 's']
/-- command.go:42 -/
def cmdHeaders : Bytes := ascii ['h', 'e', 'a', 'd', 'e', 'r', 's']
/-- command.go:45 -/
def cmdTx : Bytes := ascii ['t', 'x']
/-- command.go:48 -/
def cmdReject : Bytes := ascii ['r', 'e', 'j', 'e', 'c', 't']

/-! ### Messages -/

/-- invvect.go:46-49; `InvType` is a uint32. -/
structure InvVect where
  typ : UInt32
  hash : Bytes
  deriving DecidableEq, Repr

/-- blockheader.go:15-34 -/
structure BlockHeader where
  version : UInt32
  prevBlock : Bytes
  merkleRoot : Bytes
  timestamp : UInt32
  bits : UInt32
  nonce : UInt32
  deriving DecidableEq, Repr

/-- msgversion.go:20-64 -/
structure MsgVersion where
  version : UInt32
  services : UInt64
  timestamp : UInt64
  servicesYou : UInt64
  addressYou : Bytes
  portYou : UInt32
  servicesMe : UInt64
  addressMe : Bytes
  portMe : UInt32
  nonce : UInt64
  userAgent : Bytes
  lastBlock : UInt32
  relay : UInt8
  deriving DecidableEq, Repr

/-- `&MsgVersion{}`, message.go:19 -/
def MsgVersion.empty : MsgVersion := ⟨0, 0, 0, 0, [], 0, 0, [], 0, 0, [], 0, 0⟩

/-- msgversion.go:16: the text "::ffff:127.0.0.1" -/
def ip : Bytes := ascii [':', ':', 'f', 'f', 'f', 'f', ':', '1', '2', '7', '.', '0', '.', '0', '.', '1']

/-- NewMsgVersion, msgversion.go:67-78, given the fields of the network it uses and the time. -/
def newMsgVersion (protocolVersion port : UInt32) (userAgent : Bytes) (now : UInt64) : MsgVersion :=
  { MsgVersion.empty with
    version := protocolVersion, timestamp := now, addressYou := ip, portYou := port, addressMe := ip, portMe := port,
    userAgent := userAgent, lastBlock := 1 }

/-- msgreject.go:28-33 -/
structure MsgReject where
  cmd : Bytes
  code : UInt8
  reason : Bytes
  hash : Bytes
  deriving DecidableEq, Repr

/-- The types implementing `Message` (message.go:9-14). `getheaders` holds version, locators and stop hash
(msggetheaders.go:14-18; the stop hash is a `[32]byte`). -/
inductive Msg where
  | version (v : MsgVersion)
  | verack
  | inv (l : List InvVect)
  | getdata (l : List InvVect)
  | getheaders (version : UInt32) (locators : List Bytes) (stop : Bytes)
  | headers (l : List BlockHeader)
  | ping (nonce : UInt64)
  | pong (nonce : UInt64)
  | reject (r : MsgReject)
  | tx (data : Bytes)
  | unhandle (command : Bytes)
  deriving DecidableEq, Repr

/-- The `Command` methods: msgversion.go:155-157, msgverack.go:32-34, msginv.go:79-81, msggetdata.go:79-81,
msggetheaders.go:88-90, msgheaders.go:101-103, msgping.go:48-50, msgpong.go:48-50, msgreject.go:84-86,
msgtx.go:35-37, msgunhandle.go:36-38. -/
def command : Msg → Bytes
  | .version _ => cmdVersion
  | .verack => cmdVerAck
  | .inv _ => cmdInv
  | .getdata _ => cmdGetData
  | .getheaders _ _ _ => cmdGetHeaders
  | .headers _ => cmdHeaders
  | .ping _ => cmdPing
  | .pong _ => cmdPong
  | .reject _ => cmdReject
  | .tx _ => cmdTx
  | .unhandle c => c

/-! ### Limits -/

/-- invvect.go:14 -/
def maxInvPerMsg : Nat := 50000
/-- msgheaders.go:16 -/
def maxBlockHeadersPerMsg : Nat := 2000

def errTooManyInv : Err := .other 1301
def errTooManyHeaders : Err := .other 1302

/-- MsgInv.AddInvVect, msginv.go:25-31: checks room for one more, then appends the whole batch. -/
def addInv (l batch : List InvVect) : Res (List InvVect) :=
  if l.length + 1 > maxInvPerMsg then .err errTooManyInv else .ok (l ++ batch)

/-- MsgGetData.AddInvVect, msggetdata.go:25-31 -/
def addGetData (l batch : List InvVect) : Res (List InvVect) :=
  if l.length + batch.length > maxInvPerMsg then .err errTooManyInv else .ok (l ++ batch)

/-- MsgHeaders.AddBlockHeader, msgheaders.go:29-35 -/
def addHeaders (l batch : List BlockHeader) : Res (List BlockHeader) :=
  if l.length + 1 > maxBlockHeadersPerMsg then .err errTooManyHeaders else .ok (l ++ batch)

/-! ### Encode -/

/-- The loop body of msginv.go:37-40 and msggetdata.go:37-40. -/
def writeInv (b : Buffer) (i : InvVect) : Buffer := (b.writeU32 i.typ).writeBytes i.hash

/-- msginv.go:34-42 and msggetdata.go:34-42 -/
def encodeInvs (l : List InvVect) : Bytes :=
  (l.foldl writeInv (Buffer.new.writeVarInt (UInt64.ofNat l.length))).data

/-- The six fields, msgheaders.go:42-47 and blockheader.go:40-45 -/
def writeHeader (b : Buffer) (h : BlockHeader) : Buffer :=
  (((((b.writeU32 h.version).writeBytes h.prevBlock).writeBytes h.merkleRoot).writeU32 h.timestamp).writeU32
    h.bits).writeU32 h.nonce

/-- msgheaders.go:38-51 -/
def encodeHeaders (l : List BlockHeader) : Bytes :=
  (l.foldl (fun b h => (writeHeader b h).writeU8 0) (Buffer.new.writeVarInt (UInt64.ofNat l.length))).data

/-- BlockHash, blockheader.go:37-47 -/
def blockHash [Hashes] (h : BlockHeader) : Bytes := sha256d (writeHeader Buffer.new h).data

/-- The locators a message holds when it is written out: msggetheaders.go:35-40 adds a hash of zeros to a message
without any. -/
def filled (locators : List Bytes) : List Bytes :=
  if locators.length = 0 then locators ++ [List.replicate 32 0] else locators

/-- msggetheaders.go:34-50 -/
def encodeGetHeaders (version : UInt32) (locators : List Bytes) (stop : Bytes) : Bytes :=
  (((filled locators).foldl (fun b l => b.writeBytes l)
    ((Buffer.new.writeU32 version).writeVarInt (UInt64.ofNat (filled locators).length))).writeBytes stop).data

/-- msgversion.go:81-97 -/
def encodeVersion (m : MsgVersion) : Bytes :=
  let b := Buffer.new.writeU32 m.version
  let b := b.writeU64 m.services
  let b := b.writeU64 m.timestamp
  let b := b.writeU64 m.servicesYou
  let b := b.writeBytes m.addressYou
  let b := b.writeU16 m.portYou
  let b := b.writeU64 m.servicesMe
  let b := b.writeBytes m.addressMe
  let b := b.writeU16 m.portMe
  let b := b.writeU64 m.nonce
  let b := b.writeVarString m.userAgent
  let b := b.writeU32 m.lastBlock
  (b.writeU8 m.relay).data

/-- msgreject.go:45-54 -/
def encodeReject (m : MsgReject) : Bytes :=
  let b := Buffer.new.writeVarString m.cmd
  let b := b.writeU8 m.code
  let b := b.writeVarString m.reason
  (if m.cmd = cmdBlock ∨ m.cmd = cmdTx then b.writeBytes m.hash else b).data

/-- The `Encode` methods: the above, msgping.go:25-29, msgpong.go:25-29, msgtx.go:19-21, msgunhandle.go:21-23,
msgverack.go:17-19. -/
def encode : Msg → Bytes
  | .version v => encodeVersion v
  | .verack => []
  | .inv l => encodeInvs l
  | .getdata l => encodeInvs l
  | .getheaders v l s => encodeGetHeaders v l s
  | .headers l => encodeHeaders l
  | .ping n => (Buffer.new.writeU64 n).data
  | .pong n => (Buffer.new.writeU64 n).data
  | .reject r => encodeReject r
  | .tx d => d
  | .unhandle _ => []

/-- The message after `Encode` has run: msggetheaders.go:35-40 changes its receiver. -/
def afterEncode : Msg → Msg
  | .getheaders v l s => .getheaders v (filled l) s
  | m => m

/-! ### Decode -/

/-- The loop body of msginv.go:55-65 and msggetdata.go:55-65. -/
def readInv (b : Buffer) : Res (InvVect × Buffer) := do
  let (typ, b) ← b.readU32
  let (hash, b) ← b.readBytes 32
  return (⟨typ, hash⟩, b)

/-- msginv.go:45-67 and msggetdata.go:45-67; `old` is what the receiver held. -/
def decodeInvs (old : List InvVect) (data : Bytes) : Res (List InvVect) := do
  let (count, b) ← (Buffer.reader data).readVarInt
  if count.toNat > maxInvPerMsg then .err errTooManyInv
  else do
    let (l, _) ← readMany readInv (intOfU64 count).toNat b
    return old ++ l

/-- The loop body of msgheaders.go:63-87. -/
def readHeader (b : Buffer) : Res (BlockHeader × Buffer) := do
  let (version, b) ← b.readU32
  let (prevBlock, b) ← b.readBytes 32
  let (merkleRoot, b) ← b.readBytes 32
  let (timestamp, b) ← b.readU32
  let (bits, b) ← b.readU32
  let (nonce, b) ← b.readU32
  let (_, b) ← b.readU8
  return (⟨version, prevBlock, merkleRoot, timestamp, bits, nonce⟩, b)

/-- msgheaders.go:54-89. The bound of the loop is `int(count)`, which is negative for counts of 2^63 or more. -/
def decodeHeaders (old : List BlockHeader) (data : Bytes) : Res (List BlockHeader) := do
  let (count, b) ← (Buffer.reader data).readVarInt
  let (l, _) ← readMany readHeader (intOfU64 count).toNat b
  return old ++ l

/-- msggetheaders.go:53-74. The stop hash is not read. -/
def decodeGetHeaders (old : List Bytes) (stop : Bytes) (data : Bytes) : Res Msg := do
  let (version, b) ← (Buffer.reader data).readU32
  let (count, b) ← b.readVarInt
  let (l, _) ← readMany (fun b => b.readBytes 32) (intOfU64 count).toNat b
  return .getheaders version (old ++ l) stop

/-- msgversion.go:100-144 -/
def decodeVersion (data : Bytes) : Res MsgVersion := do
  let (version, b) ← (Buffer.reader data).readU32
  let (services, b) ← b.readU64
  let (timestamp, b) ← b.readU64
  let (servicesYou, b) ← b.readU64
  let (addressYou, b) ← b.readBytes 16
  let (portYou, b) ← b.readU16
  let (servicesMe, b) ← b.readU64
  let (addressMe, b) ← b.readBytes 16
  let (portMe, b) ← b.readU16
  let (nonce, b) ← b.readU64
  let (userAgent, b) ← b.readVarString
  let (lastBlock, b) ← b.readU32
  let (relay, _) ← b.readU8
  return ⟨version, services, timestamp, servicesYou, addressYou, portYou, servicesMe, addressMe, portMe, nonce,
    userAgent, lastBlock, relay⟩

/-- msgreject.go:70-74; `old` is the hash the receiver held. -/
def readRejectHash (cmd old : Bytes) (b : Buffer) : Res (Bytes × Buffer) :=
  if cmd = cmdBlock ∨ cmd = cmdTx then b.readBytes 32 else .ok (old, b)

/-- msgreject.go:57-76 -/
def decodeReject (old : MsgReject) (data : Bytes) : Res MsgReject := do
  let (cmd, b) ← (Buffer.reader data).readVarString
  let (code, b) ← b.readU8
  let (reason, b) ← b.readVarString
  let (hash, _) ← readRejectHash cmd old.hash b
  return ⟨cmd, code, reason, hash⟩

/-- msgping.go:32-40 and msgpong.go:32-40 -/
def decodeNonce (data : Bytes) : Res UInt64 := do
  let (n, _) ← (Buffer.reader data).readU64
  return n

/-- The `Decode` methods: the above, msgtx.go:24-27, msgunhandle.go:26-28, msgverack.go:22-24. -/
def decode (m : Msg) (data : Bytes) : Res Msg :=
  match m with
  | .version _ => do let v ← decodeVersion data; return .version v
  | .verack => .ok .verack
  | .inv l => do let l ← decodeInvs l data; return .inv l
  | .getdata l => do let l ← decodeInvs l data; return .getdata l
  | .getheaders _ l s => decodeGetHeaders l s data
  | .headers l => do let l ← decodeHeaders l data; return .headers l
  | .ping _ => do let n ← decodeNonce data; return .ping n
  | .pong _ => do let n ← decodeNonce data; return .pong n
  | .reject r => do let r ← decodeReject r data; return .reject r
  | .tx _ => .ok (.tx data)
  | .unhandle c => .ok (.unhandle c)

/-! ### Size -/

/-- invvect.go:60-62 -/
def invSize (i : InvVect) : Nat := 4 + i.hash.length

/-- blockheader.go:50-52 -/
def headerSize (h : BlockHeader) : Nat := 4 + h.prevBlock.length + h.merkleRoot.length + 4 + 4 + 4

/-- The `Size` methods: msgversion.go:147-152, msgverack.go:27-29, msginv.go:70-76, msggetdata.go:70-76,
msggetheaders.go:77-85, msgheaders.go:92-98, msgping.go:43-45, msgpong.go:43-45, msgreject.go:79-81, msgtx.go:30-32,
msgunhandle.go:31-33. Sums are Go ints, taken not to overflow. -/
def size : Msg → Nat
  | .version m => 4 + 8 + 8 + 8 + m.addressYou.length + 2 + 8 + m.addressMe.length + 2 + 8 +
      Buffer.varIntSerializeSize (UInt64.ofNat m.userAgent.length) + m.userAgent.length + 4 + 1
  | .verack => cmdVerAck.length
  | .inv l => l.foldl (fun s i => s + invSize i) (Buffer.varIntSerializeSize (UInt64.ofNat l.length))
  | .getdata l => l.foldl (fun s i => s + invSize i) (Buffer.varIntSerializeSize (UInt64.ofNat l.length))
  | .getheaders _ l s =>
      l.foldl (fun s h => s + h.length) (4 + Buffer.varIntSerializeSize (UInt64.ofNat l.length)) + s.length
  | .headers l =>
      l.foldl (fun s h => s + (headerSize h + 1)) (Buffer.varIntSerializeSize (UInt64.ofNat l.length))
  | .ping _ => 8
  | .pong _ => 8
  | .reject r => r.cmd.length + 1 + r.reason.length + r.hash.length
  | .tx d => d.length
  | .unhandle c => c.length

/-! ### Frames: xprotocol/stream.go, xprotocol/message.go -/

/-- makeEmptyMessage, message.go:16-36. A fresh `[32]byte` stop hash is zeros. -/
def makeEmptyMessage (c : Bytes) : Msg :=
  if c = cmdVersion then .version MsgVersion.empty
  else if c = cmdVerAck then .verack
  else if c = cmdInv then .inv []
  else if c = cmdGetData then .getdata []
  else if c = cmdGetHeaders then .getheaders 0 [] (List.replicate 32 0)
  else if c = cmdTx then .tx []
  else if c = cmdHeaders then .headers []
  else if c = cmdReject then .reject ⟨[], 0, [], []⟩
  else .unhandle c

/-- stream.go:130-134 -/
def checksum [Hashes] (data : Bytes) : Bytes := (sha256d data).take 4

/-- stream.go:112-113: `make([]byte, 12)` and `copy`. -/
def commandField (c : Bytes) : Bytes := c.take 12 ++ List.replicate (12 - c.length) 0

/-- The bytes that WriteMessage hands to the writer, stream.go:110-123. `uint32(len(datas))` drops the upper half. -/
def frame [Hashes] (magic : Bytes) (m : Msg) : Bytes :=
  magic ++ commandField (command m) ++ Buffer.le32 (UInt32.ofNat (encode m).length) ++ checksum (encode m) ++ encode m

/-- bytes.TrimRight(command, "\x00"), stream.go:94 -/
def trimZeros (c : Bytes) : Bytes := (c.reverse.dropWhile (· = 0)).reverse

/-- Reading stopped because the input ended (or timed out) before the frame was complete. -/
def errShortRead : Err := .other 1303
/-- stream.go:91 -/
def errChecksum : Err := .other 1304

/-- io.ReadFull for `n` bytes from what the peer sent: too few are consumed and give an error. -/
def readFull (n : Nat) (w : Bytes) : Option (Bytes × Bytes) :=
  if n ≤ w.length then some (w.take n, w.drop n) else none

/-- binary.LittleEndian.Uint32, as binary.Read uses it (stream.go:77-79); `b` has four bytes. -/
def u32of : Bytes → UInt32
  | [a, b, c, d] => a.toUInt32 ||| (b.toUInt32 <<< 8) ||| (c.toUInt32 <<< 16) ||| (d.toUInt32 <<< 24)
  | _ => 0

/-- The parts of a frame that is there in full, and what follows it: stream.go:69-88. -/
def readParts (w : Bytes) : Option ((Bytes × Bytes × Bytes × Bytes) × Bytes) := do
  let (magic, w) ← readFull 4 w
  let (command, w) ← readFull 12 w
  let (size, w) ← readFull 4 w
  let (check, w) ← readFull 4 w
  let (data, w) ← readFull (u32of size).toNat w
  return ((magic, command, check, data), w)

/-- What ReadMessage makes of a complete frame, stream.go:90-99. The stream's own magic `_own` is not compared with
the frame's. -/
def openFrame [Hashes] (_own : Bytes) (p : Bytes × Bytes × Bytes × Bytes) : Res Msg :=
  if p.2.2.1 ≠ checksum p.2.2.2 then .err errChecksum
  else decode (makeEmptyMessage (trimZeros p.2.1)) p.2.2.2

/-- ReadMessage, stream.go:63-100, of a stream made for the network with magic `own`, on everything the peer will have
sent before the stream ends or the read deadline passes: the result and the bytes not yet consumed. Failure of
`SetReadDeadline` is not modelled, nor is `make([]byte, size)` running out of memory. -/
def readMessage [Hashes] (own : Bytes) (w : Bytes) : Res Msg × Bytes :=
  match readParts w with
  | none => (.err errShortRead, [])
  | some (p, rest) => (openFrame own p, rest)

/-- What the user of a connection sees: calls of the two handlers, or the process going down in a panic. -/
inductive Event where
  | receive (m : Msg)
  | disconnect
  | crash
  deriving DecidableEq, Repr

theorem readFull_length {n : Nat} {w a b : Bytes} (h : readFull n w = some (a, b)) : b.length + n = w.length := by
  unfold readFull at h
  split at h
  · cases h; simp; omega
  · cases h

theorem readParts_length {w : Bytes} {p} {rest : Bytes} (h : readParts w = some (p, rest)) :
    rest.length < w.length := by
  simp only [readParts, bind, Option.bind_eq_some_iff, pure, Option.some.injEq, Prod.mk.injEq] at h
  obtain ⟨⟨a, w1⟩, h1, ⟨b, w2⟩, h2, ⟨c, w3⟩, h3, ⟨d, w4⟩, h4, ⟨e, w5⟩, h5, _, rfl⟩ := h
  have := readFull_length h1
  have := readFull_length h2
  have := readFull_length h3
  have := readFull_length h4
  have := readFull_length h5
  simp only at *
  omega

/-- ReadLoop, connection.go:41-51, given everything the peer will have sent. The handlers are taken to return. A panic
in ReadMessage is not recovered anywhere. -/
def readLoop [Hashes] (own : Bytes) (w : Bytes) : List Event :=
  match _h : readParts w with
  | none => [.disconnect]
  | some (p, rest) =>
    match openFrame own p with
    | .ok m => .receive m :: readLoop own rest
    | .err _ => [.disconnect]
    | .panic => [.crash]
termination_by w.length
decreasing_by exact readParts_length _h

end Toku.Protocol
