import Verif.Model.Buffer
import Verif.Model.ScriptNum
/-
xvm/instruction.go, xvm/scriptreader.go, xvm/scriptbuilder.go: instructions, parsing and building scripts.
-/
namespace Toku.Script

/-- Handler functions named in the opcode table, xvm/instruction.go:94-220. -/
inductive OpFn where
  | opFalse | opPushData | opN | opIf | opNotIf | opElse | opEndIf | opReturn | op2Dup | op3Dup | opDup
  | opDrop | opSize | opSwap | opEqual | opEqualVerify | opAdd | opHash160 | opCheckSig | opCheckSigVerify
  | opCheckMultiSig | opCheckMultiSigVerify
  deriving DecidableEq, Repr

/-- xvm/instruction.go:8-13 (the printed name is not modelled). -/
structure Opcode where
  value : UInt8
  length : Int
  fn : OpFn
  deriving DecidableEq, Repr

/-- The map xvm/instruction.go:94-220. The 75 entries OP_DATA_n {n, n+1, opPushData} (lines 97-171) and
the 16 entries OP_n (lines 175-190) are given by ranges. -/
def opcodes (b : UInt8) : Option Opcode :=
  if b = 0x00 then some ⟨b, 1, .opFalse⟩
  else if b ≤ 0x4b then some ⟨b, (b.toNat : Int) + 1, .opPushData⟩
  else if b = 0x4c then some ⟨b, -1, .opPushData⟩
  else if b = 0x4d then some ⟨b, -2, .opPushData⟩
  else if b = 0x4e then some ⟨b, -4, .opPushData⟩
  else if 0x51 ≤ b ∧ b ≤ 0x60 then some ⟨b, 1, .opN⟩
  else if b = 0x63 then some ⟨b, 1, .opIf⟩
  else if b = 0x64 then some ⟨b, 1, .opNotIf⟩
  else if b = 0x67 then some ⟨b, 1, .opElse⟩
  else if b = 0x68 then some ⟨b, 1, .opEndIf⟩
  else if b = 0x6a then some ⟨b, 1, .opReturn⟩
  else if b = 0x6e then some ⟨b, 1, .op2Dup⟩
  else if b = 0x6f then some ⟨b, 1, .op3Dup⟩
  else if b = 0x76 then some ⟨b, 1, .opDup⟩
  else if b = 0x75 then some ⟨b, 1, .opDrop⟩
  else if b = 0x82 then some ⟨b, 1, .opSize⟩
  else if b = 0x7c then some ⟨b, 1, .opSwap⟩
  else if b = 0x87 then some ⟨b, 1, .opEqual⟩
  else if b = 0x88 then some ⟨b, 1, .opEqualVerify⟩
  else if b = 0x93 then some ⟨b, 1, .opAdd⟩
  else if b = 0xa9 then some ⟨b, 1, .opHash160⟩
  else if b = 0xac then some ⟨b, 1, .opCheckSig⟩
  else if b = 0xad then some ⟨b, 1, .opCheckSigVerify⟩
  else if b = 0xae then some ⟨b, 1, .opCheckMultiSig⟩
  else if b = 0xaf then some ⟨b, 1, .opCheckMultiSigVerify⟩
  else none

/-- xvm/instruction.go:16-19. Go `nil` data and empty data are both `[]`. -/
structure Instruction where
  op : Opcode
  data : Bytes
  deriving DecidableEq, Repr

/-- xvm/instruction.go:34-65; it never returns an error. `byte(l & 0xff)` etc. are the low bytes of the
length. -/
def Instruction.bytes (i : Instruction) : Bytes :=
  let length := i.op.length
  if length = 1 then [i.op.value]
  else
    let l := UInt32.ofNat i.data.length
    let pre : Bytes :=
      if length < 0 then
        if length = -1 then [UInt8.ofNat i.data.length]
        else if length = -2 then Buffer.le16 l
        else if length = -4 then Buffer.le32 l
        else []
      else []
    i.op.value :: (pre ++ i.data)

/-- xvm/instruction.go:76-89 -/
def Instruction.isConditional (i : Instruction) : Bool :=
  i.op.value == 0x63 || i.op.value == 0x64 || i.op.value == 0x67 || i.op.value == 0x68

def errUnknown : Err := .num 1101
def errInstrRead : Err := .num 1102
def errOpRead : Err := .num 1103
def errOpSize : Err := .num 1104

/-- Replaces any error by the given one, as in `if err != nil { return nil, xerror.NewError(..) }`. -/
def onErr {α : Type} (e : Err) : Res α → Res α
  | .ok a => .ok a
  | .err _ => .err e
  | .panic => .panic

/-- The length field of a PUSHDATA instruction, xvm/scriptreader.go:68-84. -/
def readPushLen (length : Int) (b : Buffer) : Res (UInt32 × Buffer) :=
  if length = -1 then do
    let (l1, b) ← onErr errOpRead b.readU8
    return (l1.toUInt32, b)
  else if length = -2 then onErr errOpRead b.readU16
  else if length = -4 then onErr errOpRead b.readU32
  else .err errOpSize

/-- xvm/scriptreader.go:31-95. `none` is the Go `nil` instruction at the end of the script. -/
def nextInstruction (b : Buffer) : Res (Option Instruction × Buffer) :=
  if b.atEnd then .ok (none, b)
  else do
    let (rop, b) ← onErr errInstrRead b.readU8
    match opcodes rop with
    | none => .err errUnknown
    | some op =>
      if op.length = 1 then .ok (some ⟨op, []⟩, b)
      else if op.length > 1 then do
        let (data, b) ← onErr errOpRead (b.readBytes (op.length - 1))
        return (some ⟨op, data⟩, b)
      else do
        let (l, b) ← readPushLen op.length b
        let (data, b) ← onErr errOpRead (b.readBytes l.toNat)
        return (some ⟨op, data⟩, b)

/-- The loop xvm/scriptreader.go:98-111. `fuel` bounds the loop: every instruction takes at least one
byte. Running out of fuel would be an endless loop in Go and counts as a panic here; it is proved never
to happen. -/
def instructionsLoop : Nat → Buffer → Res (List Instruction)
  | 0, _ => .panic
  | fuel + 1, b => do
    let (i, b) ← nextInstruction b
    match i with
    | none => .ok []
    | some i => do
      let r ← instructionsLoop fuel b
      return i :: r

/-- `NewScriptReader(script).AllInstructions()`, xvm/scriptreader.go:23-28, 98-111 -/
def allInstructions (script : Bytes) : Res (List Instruction) :=
  instructionsLoop (script.length + 1) (Buffer.reader script)

/-- xvm/scriptreader.go:136-154 -/
def removeOpcode (buf : Bytes) (opcode : UInt8) : Res Bytes :=
  match allInstructions buf with
  | .panic => .panic
  | .err _ => .ok buf
  | .ok instrs => .ok ((instrs.filter (fun i => i.op.value ≠ opcode)).flatMap Instruction.bytes)

/-- xvm/scriptbuilder.go:43-91 (AddData). The builder is its buffer; its `err` field is set only by
`Load` (Model/Assemble). -/
def addData (b : Buffer) (data : Bytes) : Buffer :=
  let l := data.length
  let d0 := data.getD 0 0
  if l = 0 then b.writeU8 0x00
  else if l = 1 ∧ d0 = 0 then b.writeU8 0x00
  else if l = 1 ∧ d0 ≤ 16 then b.writeU8 (0x50 + d0)
  else if l = 1 ∧ d0 = 0x81 then b.writeU8 0x4f
  else if l = 1 ∨ l < 0x4c then (b.writeU8 (UInt8.ofNat l)).writeBytes data
  else if l ≤ 0xff then ((b.writeU8 0x4c).writeU8 (UInt8.ofNat l)).writeBytes data
  else if l ≤ 0xffff then ((b.writeU8 0x4d).writeU16 (UInt32.ofNat l)).writeBytes data
  else ((b.writeU8 0x4e).writeU32 (UInt32.ofNat l)).writeBytes data

/-- xvm/scriptbuilder.go:94-97 -/
def addOp (b : Buffer) (op : UInt8) : Buffer := b.writeU8 op

/-- xvm/scriptbuilder.go:100-110: `byte(OP_1 + val - 1)`. -/
def addInt64 (b : Buffer) (val : Int) : Res Buffer :=
  if val = 0 then .ok (b.writeU8 0x00)
  else if val = -1 ∨ (1 ≤ val ∧ val ≤ 16) then .ok (b.writeU8 (UInt8.ofNat (0x51 + val - 1).toNat))
  else do
    let d ← ScriptNum.bytes val
    return addData b d

end Toku.Script
