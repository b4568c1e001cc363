import Verif.Model.Script
import Verif.Model.Base58
import Verif.Model.Id
/-
Scripts as text: `Load` of xvm/scriptbuilder.go and `DisasmString` of xvm/scriptreader.go. Texts are byte lists. Functions
of strings, strconv and encoding/hex are modelled by their documentation.
-/
namespace Toku.Assemble
open Toku.Script

/-- The decimal digits of a number below 100, as in the names of the table. -/
def dec2 (n : Nat) : Bytes :=
  if n < 10 then [UInt8.ofNat (0x30 + n)] else [UInt8.ofNat (0x30 + n / 10), UInt8.ofNat (0x30 + n % 10)]

/-- The `name` fields of the table xvm/instruction.go:94-220; the OP_DATA_n and OP_n by ranges. -/
def opName (b : UInt8) : Option Bytes :=
  if b = 0x00 then some (ascii "OP_0".toList)
  else if b ≤ 0x4b then some (ascii "OP_DATA_".toList ++ dec2 b.toNat)
  else if b = 0x4c then some (ascii "OP_PUSHDATA1".toList)
  else if b = 0x4d then some (ascii "OP_PUSHDATA2".toList)
  else if b = 0x4e then some (ascii "OP_PUSHDATA4".toList)
  else if 0x51 ≤ b ∧ b ≤ 0x60 then some (ascii "OP_".toList ++ dec2 (b.toNat - 0x50))
  else if b = 0x63 then some (ascii "OP_IF".toList)
  else if b = 0x64 then some (ascii "OP_NOTIF".toList)
  else if b = 0x67 then some (ascii "OP_ELSE".toList)
  else if b = 0x68 then some (ascii "OP_ENDIF".toList)
  else if b = 0x6a then some (ascii "OP_RETURN".toList)
  else if b = 0x6e then some (ascii "OP_2DUP".toList)
  else if b = 0x6f then some (ascii "OP_3DUP".toList)
  else if b = 0x76 then some (ascii "OP_DUP".toList)
  else if b = 0x75 then some (ascii "OP_DROP".toList)
  else if b = 0x82 then some (ascii "OP_SIZE".toList)
  else if b = 0x7c then some (ascii "OP_SWAP".toList)
  else if b = 0x87 then some (ascii "OP_EQUAL".toList)
  else if b = 0x88 then some (ascii "OP_EQUALVERIFY".toList)
  else if b = 0x93 then some (ascii "OP_ADD".toList)
  else if b = 0xa9 then some (ascii "OP_HASH160".toList)
  else if b = 0xac then some (ascii "OP_CHECKSIG".toList)
  else if b = 0xad then some (ascii "OP_CHECKSIGVERIFY".toList)
  else if b = 0xae then some (ascii "OP_CHECKMULTISIG".toList)
  else if b = 0xaf then some (ascii "OP_CHECKMULTISIGVERIFY".toList)
  else none

/-- The four names added by xvm/instruction.go:228-231. -/
def aliases : List (Bytes × UInt8) :=
  [(ascii "OP_FALSE".toList, 0x00), (ascii "OP_TRUE".toList, 0x51), (ascii "OP_NOP2".toList, 0xb1), (ascii "OP_NOP3".toList, 0xb2)]

/-- The map `opcodesByName`, xvm/instruction.go:222-232: the names of the table and the four others. -/
def names : List (Bytes × UInt8) :=
  ((List.range 256).filterMap fun i => (opName (UInt8.ofNat i)).map fun n => (n, UInt8.ofNat i)) ++ aliases

def opByName (token : Bytes) : Option UInt8 := (names.find? (fun p => p.1 = token)).map (·.2)

/-- The value of decimal digits. -/
def digits (s : Bytes) : Option Nat :=
  if s ≠ [] ∧ s.all (fun c => 0x30 ≤ c && c ≤ 0x39) then some (s.foldl (fun n c => n * 10 + (c.toNat - 0x30)) 0) else none

/-- `strconv.ParseInt(s, 10, 64)` without sign. -/
def posInt (r : Bytes) : Option Int :=
  match digits r with
  | some n => if n < 2^63 then some n else none
  | none => none

/-- `strconv.ParseInt(s, 10, 64)` after a minus sign. -/
def negInt (r : Bytes) : Option Int :=
  match digits r with
  | some n => if n ≤ 2^63 then some (-(n : Int)) else none
  | none => none

/-- `strconv.ParseInt(s, 10, 64)`: an optional sign, digits, and a value of 64 bits. -/
def parseInt (s : Bytes) : Option Int :=
  match s with
  | 0x2d :: r => negInt r
  | 0x2b :: r => posInt r
  | r => posInt r

/-- xvm/scriptbuilder.go:132-137 -/
def parseHex (tok : Bytes) : Res Bytes :=
  match tok with
  | 0x30 :: 0x78 :: h => Id.hexDecode h
  | _ => .err .hex

/-- What `hex.DecodeString` returns beside an error: the bytes decoded before it. -/
def hexPrefix : Bytes → Bytes
  | a :: b :: rest =>
    match Id.fromHexChar a, Id.fromHexChar b with
    | some x, some y => UInt8.ofNat (x * 16 + y) :: hexPrefix rest
    | _, _ => []
  | _ => []

/-- `strings.Split(s, " ")` -/
def split : Bytes → List Bytes
  | [] => [[]]
  | c :: s => if c = 0x20 then [] :: split s else
    match split s with
    | [] => [[c]]
    | w :: ws => (c :: w) :: ws

def errToken : Err := .other 70

/-- The quoted data of a token, xvm/scriptbuilder.go:155-158: the error of `hex.DecodeString` is dropped. -/
def quoted (token : Bytes) : Option Bytes :=
  if token.length > 2 ∧ token.head? = some 0x27 ∧ token.getLast? = some 0x27 then some (hexPrefix ((token.drop 1).dropLast))
  else none

/-- One token, xvm/scriptbuilder.go:145-163. -/
def loadToken (b : Buffer) (token : Bytes) : Res Buffer :=
  match opByName token with
  | some o => .ok (addOp b o)
  | none =>
    match parseInt token with
    | some n => addInt64 b n
    | none =>
      match parseHex token with
      | .ok bts => .ok (b.writeBytes bts)
      | _ =>
        match quoted token with
        | some d => .ok (addData b d)
        | none => .err errToken

/-- The loop xvm/scriptbuilder.go:144-164. -/
def loadTokens : Buffer → List Bytes → Res Buffer
  | b, [] => .ok b
  | b, t :: ts => do
    let b ← loadToken b t
    loadTokens b ts

/-- xvm/scriptbuilder.go:140-166. After an unknown token the builder holds what was written before it together with the
error; here only the error is returned. -/
def load (b : Buffer) (script : Bytes) : Res Buffer :=
  loadTokens b (split (script.map fun c => if c = 0x0a ∨ c = 0x09 then 0x20 else c))

/-- `NewScriptBuilder().Load(script).Script()` -/
def assemble (script : Bytes) : Res Bytes := do
  let b ← load Buffer.new script
  return b.data

/-- `strings.Join(line, " ")` -/
def join : List Bytes → Bytes
  | [] => []
  | [w] => w
  | w :: ws => w ++ 0x20 :: join ws

/-- The texts for one instruction, xvm/scriptreader.go:126-130. The data is nil exactly for the opcodes of length 1; `%x` is
lower-case hexadecimal. Every opcode the reader returns is in the table and has a name. -/
def line (i : Instruction) : List Bytes :=
  (opName i.op.value).getD [] :: (if i.op.length = 1 then [] else [Id.hexEncode i.data])

/-- xvm/scriptreader.go:119-133. For a script that does not parse the code returns the text of the error; here the error. -/
def disasm (script : Bytes) : Res Bytes := do
  let instrs ← allInstructions script
  return join (instrs.flatMap line)

end Toku.Assemble
