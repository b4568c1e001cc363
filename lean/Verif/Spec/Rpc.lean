import Verif.Model.Rpc
/-
What nodes answer, stated without the decoders: the objects of answers, when an answer carries a result or an error, and the JSON by
which a node describes headers and blocks.
-/
namespace Toku.Rpc.Spec
open Toku.Rpc

/-- The value that counts for a name: the last one given. -/
def lastOf (k : String) : List (String × Json) → Option Json
  | [] => none
  | (k', v) :: fs => match lastOf k fs with
    | some x => some x
    | none => if k' = k then some v else none

/-- An unsigned 64-bit integer, or null. -/
def IdOk (v : Json) : Prop := v = .null ∨ ∃ n, n < 2 ^ 64 ∧ v = .int false n

/-- A 64-bit integer, or null. -/
def CodeOk (v : Json) : Prop := v = .null ∨ ∃ neg n, v = .int neg n ∧ -2 ^ 63 ≤ intVal neg n ∧ intVal neg n < 2 ^ 63

/-- A text, or null. -/
def TextOk (v : Json) : Prop := v = .null ∨ ∃ s, v = .str s

/-- An object whose code is an integer and whose message is a text, where given; or null. -/
def ErrorOk (v : Json) : Prop :=
  v = .null ∨ ∃ fs, v = .obj fs ∧ (∀ x, ("code", x) ∈ fs → CodeOk x) ∧ (∀ x, ("message", x) ∈ fs → TextOk x)

/-- The members of an answer have the types the protocol gives them. -/
def Typed (fs : List (String × Json)) : Prop := (∀ x, ("id", x) ∈ fs → IdOk x) ∧ (∀ x, ("error", x) ∈ fs → ErrorOk x)

/-- The answer has no member of the name, or null. -/
def Lacks (k : String) (fs : List (String × Json)) : Prop := lastOf k fs = none ∨ lastOf k fs = some .null

/-- The node reports an error. -/
def Fails (a : Answer) : Prop := ∃ fs, a = .body (.obj fs) ∧ ¬ Lacks "error" fs

/-- The node answers with a result. -/
def Gives (a : Answer) (v : Json) : Prop :=
  ∃ fs, a = .body (.obj fs) ∧ Typed fs ∧ Lacks "error" fs ∧ lastOf "result" fs = some v ∧ v ≠ .null

/-- The node answers, with neither result nor error. -/
def Blank (a : Answer) : Prop :=
  a = .body .null ∨ ∃ fs, a = .body (.obj fs) ∧ Typed fs ∧ Lacks "error" fs ∧ Lacks "result" fs

/-! ### How a node writes headers and blocks -/

/-- An integer in JSON. -/
def num (i : Int) : Json := .int (decide (i < 0)) i.natAbs
def nat (n : Nat) : Json := .int false n

/-- Fits a signed integer of the given number of bits. -/
def Fits (bits : Nat) (i : Int) : Prop := -2 ^ (bits - 1) ≤ i ∧ i < 2 ^ (bits - 1)

/-- A header as a node writes it; the hashes of the neighbours are texts. The next hash is missing at the tip, the previous one in
the first block. -/
def header (h : Header) (previous next : Option Bytes) : Json := .obj (
  [("hash", .str h.hash), ("confirmations", num h.confirmations), ("height", num h.height), ("version", num h.version),
   ("versionHex", .str h.versionHex), ("merkleroot", .str h.merkleRoot), ("time", nat h.time), ("mediantime", num h.medianTime),
   ("nonce", num h.nonce), ("bits", .str h.bits), ("difficulty", h.difficulty.json), ("chainwork", .str h.chainWork)]
  ++ (match previous with | some p => [("previousblockhash", .str p)] | none => [])
  ++ (match next with | some p => [("nextblockhash", .str p)] | none => []))

structure HeaderFits (h : Header) : Prop where
  confirmations : Fits 64 h.confirmations
  height : Fits 64 h.height
  version : Fits 64 h.version
  time : h.time < 2 ^ 64
  medianTime : Fits 64 h.medianTime
  nonce : Fits 64 h.nonce

def scriptSig (s : ScriptSig) : Json := .obj [("asm", .str s.asm), ("hex", .str s.hex)]

/-- An input; inputs of the first transaction have a coinbase member instead of an output and a script. -/
def vin (i : Vin) : Json :=
  if i.coinbase ≠ [] ∧ i.txid = [] ∧ i.vout = 0 ∧ i.scriptSig = {} then .obj [("coinbase", .str i.coinbase), ("sequence", nat i.sequence)]
  else .obj (
    (if i.coinbase = [] then [] else [("coinbase", .str i.coinbase)]) ++
    [("txid", .str i.txid), ("vout", num i.vout), ("scriptSig", scriptSig i.scriptSig), ("sequence", nat i.sequence)])

structure VinFits (i : Vin) : Prop where
  vout : Fits 64 i.vout
  sequence : i.sequence < 2 ^ 32

/-- The script of an output; signatures and addresses are given where there are any. -/
def scriptPubKey (s : ScriptPubKey) : Json := .obj (
  [("asm", .str s.asm), ("hex", .str s.hex)] ++ (if s.reqSigs = 0 then [] else [("reqSigs", num s.reqSigs)]) ++ [("type", .str s.type)]
  ++ (if s.addresses = [] then [] else [("addresses", .arr (s.addresses.map .str))]))

def vout (o : Vout) : Json := .obj [("value", o.value.json), ("n", num o.n), ("scriptPubKey", scriptPubKey o.scriptPubKey)]

structure VoutFits (o : Vout) : Prop where
  n : Fits 64 o.n
  reqSigs : Fits 64 o.scriptPubKey.reqSigs

def transaction (t : Transaction) : Json := .obj
  [("txid", .str t.txid), ("version", num t.version), ("size", nat t.size), ("vsize", nat t.vsize), ("weight", nat t.weight),
   ("locktime", nat t.lockTime), ("vin", .arr (t.vin.map vin)), ("vout", .arr (t.vout.map vout)), ("hex", .str t.hex)]

structure TransactionFits (t : Transaction) : Prop where
  version : Fits 32 t.version
  size : t.size < 2 ^ 32
  vsize : t.vsize < 2 ^ 32
  weight : t.weight < 2 ^ 32
  lockTime : t.lockTime < 2 ^ 32
  vin : ∀ i ∈ t.vin, VinFits i
  vout : ∀ o ∈ t.vout, VoutFits o

/-- A block as a node writes it, with the confirmations given apart: a node gives −1 for a block outside the best chain. -/
def block (b : Block) (confirmations : Int) : Json := .obj (
  [("hash", .str b.hash), ("confirmations", num confirmations), ("height", num b.height), ("version", num b.version),
   ("versionHex", .str b.versionHex), ("merkleroot", .str b.merkleRoot), ("time", num b.time), ("nonce", nat b.nonce),
   ("bits", .str b.bits), ("difficulty", b.difficulty.json), ("chainwork", .str b.chainWork), ("nTx", nat b.nTx)]
  ++ (if b.previous = [] then [] else [("previousblockhash", .str b.previous)])
  ++ (if b.next = [] then [] else [("nextblockhash", .str b.next)])
  ++ [("strippedsize", num b.strippedSize), ("size", num b.size), ("weight", num b.weight), ("tx", .arr (b.tx.map transaction))])

structure BlockFits (b : Block) : Prop where
  strippedSize : Fits 32 b.strippedSize
  size : Fits 32 b.size
  weight : Fits 32 b.weight
  height : Fits 64 b.height
  version : Fits 32 b.version
  tx : ∀ t ∈ b.tx, TransactionFits t
  nTx : b.nTx < 2 ^ 32
  time : Fits 64 b.time
  nonce : b.nonce < 2 ^ 32

/-- A digit of a hexadecimal number, in lower case. -/
def HexDigit (c : UInt8) : Prop := (0x30 ≤ c ∧ c ≤ 0x39) ∨ (0x61 ≤ c ∧ c ≤ 0x66)

/-- The text of a block's hash. -/
def HashText (s : Bytes) : Prop := s.length = 64 ∧ ∀ c ∈ s, HexDigit c

end Toku.Rpc.Spec
