import Verif.Model.Script
/-
xcore/script.go, xcore/script_p2pkh.go, xcore/script_p2sh.go, xcore/script_p2wpkh_v0.go,
xcore/script_p2wsh_v0.go, xcore/script_multsig.go: the standard locking scripts.
-/
namespace Toku.Locking
open Toku.Script

/-- The four implementations of the Go interface `Script` (xcore/script.go:31-59). -/
inductive Kind where
  | p2pkh | p2sh | p2wpkh | p2wsh
  deriving DecidableEq, Repr

/-- An implementation of `Script` together with its `hash` field: xcore/script_p2pkh.go:13-15,
script_p2sh.go:13-15, script_p2wpkh_v0.go:13-15, script_p2wsh_v0.go:17-19. The constructors do not check
the length of the hash. -/
structure LockScript where
  kind : Kind
  hash : Bytes
  deriving DecidableEq, Repr

/-- GetRawLockingScriptBytes: xcore/script_p2pkh.go:39-47, script_p2sh.go:37-43, script_p2wpkh_v0.go:37-42,
script_p2wsh_v0.go:41-46. The builder's error field is only set by `Load`, so there is no error. -/
def rawLocking (s : LockScript) : Bytes :=
  match s.kind with
  | .p2pkh =>
    (addOp (addOp (addData (addOp (addOp Buffer.new 0x76) 0xa9) s.hash) 0x88) 0xac).data
  | .p2sh => (addOp (addData (addOp Buffer.new 0xa9) s.hash) 0x87).data
  | .p2wpkh => (addData (addOp Buffer.new 0x00) s.hash).data
  | .p2wsh => (addData (addOp Buffer.new 0x00) s.hash).data

/-- xcore/script_p2pkh.go:87-94 -/
def isPubkeyHash : List Instruction → Bool
  | [a, b, c, d, e] => a.op.value == 0x76 && b.op.value == 0xa9 && c.op.value == 0x14 &&
      d.op.value == 0x88 && e.op.value == 0xac
  | _ => false

/-- xcore/script_p2sh.go:89-94 -/
def isScriptHash : List Instruction → Bool
  | [a, b, c] => a.op.value == 0xa9 && b.op.value == 0x14 && c.op.value == 0x87
  | _ => false

/-- xcore/script_p2wpkh_v0.go:89-93 -/
def isWitnessV0PubKeyHash : List Instruction → Bool
  | [a, b] => a.op.value == 0x00 && b.op.value == 0x14
  | _ => false

/-- xcore/script_p2wsh_v0.go:119-123 -/
def isWitnessV0ScriptHash : List Instruction → Bool
  | [a, b] => a.op.value == 0x00 && b.op.value == 0x20
  | _ => false

def errTypeUnknown : Err := .num 4100

/-- Go `instrs[i].Data()`: out of range panics. -/
def dataAt (is : List Instruction) (i : Nat) : Res Bytes := Res.ofIdx (is[i]?.map (·.data))

/-- xcore/script.go:62-78 (the text of the error, a disassembly, is not modelled). -/
def parse (script : Bytes) : Res LockScript := do
  let instrs ← allInstructions script
  if isPubkeyHash instrs then
    dataAt instrs 2 >>= fun d => .ok ⟨.p2pkh, d⟩
  else if isScriptHash instrs then
    dataAt instrs 1 >>= fun d => .ok ⟨.p2sh, d⟩
  else if isWitnessV0PubKeyHash instrs then
    dataAt instrs 1 >>= fun d => .ok ⟨.p2wpkh, d⟩
  else if isWitnessV0ScriptHash instrs then
    dataAt instrs 1 >>= fun d => .ok ⟨.p2wsh, d⟩
  else .err errTypeUnknown

def errPubkeysLeNrequired : Err := .num 4106

/-- xcore/script_multsig.go:44-57 -/
def genMultiSig (nrequired : Int) (pkDatas : List Bytes) : Res Bytes :=
  if (pkDatas.length : Int) < nrequired then .err errPubkeysLeNrequired
  else do
    let b ← addInt64 Buffer.new nrequired
    let b := pkDatas.foldl addData b
    let b ← addInt64 b pkDatas.length
    return (addOp b 0xae).data

/-- xcore/script_multsig.go:79-84 -/
def isSmallInt (i : Instruction) : Bool := i.op.value == 0x00 || (0x51 ≤ i.op.value && i.op.value ≤ 0x60)

/-- xcore/script_multsig.go:88-93 -/
def asSmallInt (i : Instruction) : Int :=
  if i.op.value = 0x00 then 0 else (i.op.value - 0x50).toNat

/-- xcore/script_multsig.go:95-127 -/
def isMultiSig (instrs : List Instruction) : Bool :=
  let l := instrs.length
  if l < 4 then false
  else match instrs[0]?, instrs[l - 2]?, instrs[l - 1]? with
  | some first, some count, some last =>
    if !isSmallInt first then false
    else if !isSmallInt count then false
    else if last.op.value ≠ 0xae then false
    else if (l : Int) - 2 - 1 ≠ asSmallInt count then false
    else ((instrs.take (l - 2)).drop 1).all fun i => i.data.length == 33 || i.data.length == 65
  | _, _, _ => false

end Toku.Locking
