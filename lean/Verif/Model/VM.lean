import Verif.Model.Script
/-
xvm/stack.go, xvm/engine.go, xvm/instruction_*.go: the script engine.

The data stack is a list with the top element first (the Go slice has it last). Debug traces, `pc`,
`lastStack` and `lastOp` are left out here; Model/Trace.lean has them, and Props/Trace.lean (C101) proves that they have no
influence on results.
-/
namespace Toku.VM
open Toku.Script

abbrev Stack := List Bytes

def errIndex : Err := .num 1110
def errStackOp : Err := .num 1111
def errExec : Err := .num 1300

/-- xvm/stack.go:20-31 -/
def asBool : Bytes → Bool
  | [] => false
  | [b] => b ≠ 0 && b ≠ 0x80
  | b :: bs => if b ≠ 0 then true else asBool bs

/-- xvm/stack.go:34-39 -/
def boolBytes (v : Bool) : Bytes := if v then [1] else []

/-- xvm/stack.go:113-127: remove the `idx`-th element from the top. -/
def nipN (s : Stack) (idx : Nat) : Res (Bytes × Stack) :=
  match s[idx]? with
  | none => .err errIndex
  | some x => .ok (x, s.eraseIdx idx)

/-- xvm/stack.go:62-64 -/
def pop (s : Stack) : Res (Bytes × Stack) := nipN s 0

/-- xvm/stack.go:104-111 -/
def peek (s : Stack) (idx : Nat) : Res Bytes :=
  match s[idx]? with
  | none => .err errIndex
  | some x => .ok x

/-- xvm/stack.go:69-71 -/
def pushInt (s : Stack) (v : Int) : Res Stack := do
  let b ← ScriptNum.bytes v
  return b :: s

/-- xvm/stack.go:77-83 -/
def popInt (s : Stack) : Res (Int × Stack) := do
  let (so, s) ← pop s
  let n ← ScriptNum.make so 4
  return (n, s)

/-- xvm/stack.go:95-101 -/
def popBool (s : Stack) : Res (Bool × Stack) := do
  let (so, s) ← pop s
  return (asBool so, s)

/-- The loop of xvm/stack.go:140-146. -/
def dupLoop (n : Nat) : Nat → Stack → Res Stack
  | 0, s => .ok s
  | k + 1, s => do
    let so ← peek s (n - 1)
    dupLoop n k (so :: s)

/-- xvm/stack.go:134-148 -/
def dupN (s : Stack) (n : Nat) : Res Stack := if n < 1 then .err errStackOp else dupLoop n n s

/-- xvm/stack.go:154-166 -/
def dropN (n : Nat) (s : Stack) : Res Stack :=
  if n < 1 then .err errStackOp
  else
    let rec loop : Nat → Stack → Res Stack
      | 0, s => .ok s
      | k + 1, s => do
        let (_, s) ← pop s
        loop k s
    loop n s

/-- xvm/stack.go:172-187 -/
def swapN (n : Nat) (s : Stack) : Res Stack :=
  if n < 1 then .err errStackOp
  else
    let rec loop : Nat → Stack → Res Stack
      | 0, s => .ok s
      | k + 1, s => do
        let (so, s) ← nipN s (2 * n - 1)
        loop k (so :: s)
    loop n s

/-- What the engine is configured with: the HASH160 function (xcrypto), and the two callbacks
(xvm/engine.go:17-20); `none` is a nil function. A callback may return an error or panic. Callbacks with
internal state (the cached witness hasher) are modelled separately. -/
structure Env where
  hash160 : Bytes → Bytes
  sigHasher : Option (UInt8 → Res Bytes)
  sigVerifier : Option (Bytes → Bytes → Bytes → Res Unit)

/-- Conditional execution constants, xvm/instruction.go:68-72. -/
inductive Cond where
  | no | yes | skip
  deriving DecidableEq, Repr

/-- The engine state (xvm/engine.go:23-35): data stack and control stack, top first. -/
structure State where
  dstack : Stack
  cstack : List Cond
  deriving DecidableEq, Repr

/-- xvm/engine.go:38-42 -/
def fresh : State := ⟨[], []⟩

/-- xvm/engine.go:178-183 -/
def branchShouldSkip (vm : State) : Bool :=
  match vm.cstack with
  | [] => false
  | c :: _ => decide (c ≠ .yes)

/-- xvm/instruction_bitwise.go:48-57 -/
def equalVerify (s : Stack) : Res Stack := do
  let (verified, s) ← popBool s
  if !verified then .err errExec else .ok s

/-- xvm/instruction_bitwise.go:27-38 -/
def opEqual (s : Stack) : Res Stack := do
  let (a, s) ← pop s
  let (b, s) ← pop s
  return boolBytes (a == b) :: s

/-- xvm/instruction_crypto.go:17-24 -/
def opHash160 (env : Env) (s : Stack) : Res Stack := do
  let (x, s) ← pop s
  return env.hash160 x :: s

/-- `sig[len(sig)-1]` and `sig[:len(sig)-1]`; both panic on an empty signature. -/
def splitSig (sig : Bytes) : Res (UInt8 × Bytes) :=
  match sig.getLast? with
  | none => .panic
  | some t => .ok (t, sig.dropLast)

/-- Whether the verifier callback returned nil; a panic propagates. -/
def verified (r : Res Unit) : Res Bool :=
  match r with
  | .ok _ => .ok true
  | .err _ => .ok false
  | .panic => .panic

/-- xvm/instruction_crypto.go:28-62 -/
def opCheckSig (env : Env) (s : Stack) : Res Stack :=
  match env.sigHasher, env.sigVerifier with
  | some hasher, some verifier => do
    let (pubkey, s) ← pop s
    let (sig, s) ← pop s
    if sig.length < 1 then .ok (boolBytes false :: s)
    else do
      let (hashType, sigDER) ← splitSig sig
      let hash ← hasher hashType
      let v ← verified (verifier hash sigDER pubkey)
      return boolBytes v :: s
  | _, _ => .err errExec

/-- Pops `n` elements, first popped first (xvm/instruction_crypto.go:84-90, 102-108). -/
def popMany : Nat → Stack → Res (List Bytes × Stack)
  | 0, s => .ok ([], s)
  | n + 1, s => do
    let (x, s) ← pop s
    let (xs, s) ← popMany n s
    return (x :: xs, s)

/-- One check of the multisig loop, xvm/instruction_crypto.go:124-133. Calling a nil callback panics. -/
def checkOne (env : Env) (sig key : Bytes) : Res Bool := do
  let (hashType, sigDER) ← splitSig sig
  match env.sigHasher with
  | none => .panic
  | some hasher => do
    let hash ← hasher hashType
    match env.sigVerifier with
    | none => .panic
    | some verifier => verified (verifier hash sigDER key)

/-- The loop xvm/instruction_crypto.go:122-140 over the remaining signatures and keys. It stops with
success when either list is exhausted, and with failure as soon as fewer keys than signatures remain. -/
def multisigLoop (env : Env) : List Bytes → List Bytes → Res Bool
  | [], _ => .ok true
  | _ :: _, [] => .ok true
  | sig :: sigs, key :: keys => do
    let v ← checkOne env sig key
    if v then
      if keys.length < sigs.length then .ok false else multisigLoop env sigs keys
    else
      if keys.length < (sig :: sigs).length then .ok false else multisigLoop env (sig :: sigs) keys

/-- xvm/instruction_crypto.go:76-143. `make([][]byte, n)` with a negative length panics. Running out of
memory for a large `n` is not modelled. -/
def opCheckMultiSig (env : Env) (s : Stack) : Res Stack := do
  let (numKeys, s) ← popInt s
  let n := ScriptNum.int32 numKeys
  if n < 0 then .panic
  else do
    let (keys, s) ← popMany n.toNat s
    let (numSigs, s) ← popInt s
    let m := ScriptNum.int32 numSigs
    if m > n then .err errExec
    else if m < 0 then .panic
    else do
      let (sigs, s) ← popMany m.toNat s
      let (_, s) ← pop s
      let success ← multisigLoop env sigs keys
      return boolBytes success :: s

/-- xvm/instruction_flowcontrol.go:100-118 -/
def popIfBool (s : Stack) : Res (Bool × Stack) := do
  let (so, s) ← pop s
  if so.length > 1 then .err errExec
  else if so.length = 1 ∧ so.getD 0 0 ≠ 0x01 then .err errExec
  else .ok (asBool so, s)

/-- xvm/instruction_flowcontrol.go:26-41 and 50-65; `neg` selects OP_NOTIF. -/
def opIf (neg : Bool) (vm : State) : Res State :=
  if !branchShouldSkip vm then do
    let (ok, s) ← popIfBool vm.dstack
    return ⟨s, (if ok != neg then .yes else .no) :: vm.cstack⟩
  else .ok { vm with cstack := .skip :: vm.cstack }

/-- xvm/instruction_flowcontrol.go:70-83 -/
def opElse (vm : State) : Res State :=
  match vm.cstack with
  | [] => .err errExec
  | .yes :: r => .ok { vm with cstack := .no :: r }
  | .no :: r => .ok { vm with cstack := .yes :: r }
  | .skip :: _ => .ok vm

/-- xvm/instruction_flowcontrol.go:88-94 -/
def opEndIf (vm : State) : Res State :=
  match vm.cstack with
  | [] => .err errExec
  | _ :: r => .ok { vm with cstack := r }

/-- xvm/instruction_numeric.go:10-26. The sum of two four-byte numbers cannot wrap an int64. -/
def opAdd (s : Stack) : Res Stack := do
  let (v0, s) ← popInt s
  let (v1, s) ← popInt s
  pushInt s (v0 + v1)

/-- xvm/instruction_stack.go:30-38 -/
def opSize (s : Stack) : Res Stack := do
  let so ← peek s 0
  pushInt s so.length

/-- The handlers that touch the data stack only: xvm/instruction_bitwise.go:17-20, 40-46;
instruction_pushdata.go:8-20; instruction_flowcontrol.go:15-17; instruction_stack.go:8-25, 43-45;
instruction_crypto.go:64-70, 145-151. -/
def dataOp (env : Env) (i : Instruction) (s : Stack) : Res Stack :=
  match i.op.fn with
  | .opFalse => .ok ([] :: s)
  | .opPushData => .ok (i.data :: s)
  | .opN => pushInt s (i.op.value - 0x50).toNat
  | .opReturn => .ok s
  | .opDup => dupN s 1
  | .op2Dup => dupN s 2
  | .op3Dup => dupN s 3
  | .opSwap => swapN 1 s
  | .opSize => opSize s
  | .opDrop => dropN 1 s
  | .opEqual => opEqual s
  | .opEqualVerify => do equalVerify (← opEqual s)
  | .opAdd => opAdd s
  | .opHash160 => opHash160 env s
  | .opCheckSig => opCheckSig env s
  | .opCheckSigVerify => do equalVerify (← opCheckSig env s)
  | .opCheckMultiSig => opCheckMultiSig env s
  | .opCheckMultiSigVerify => do equalVerify (← opCheckMultiSig env s)
  | .opIf | .opNotIf | .opElse | .opEndIf => .ok s

/-- The call `vm.instruction.op.opfunc(vm)`, xvm/engine.go:77. -/
def opfunc (env : Env) (i : Instruction) (vm : State) : Res State :=
  match i.op.fn with
  | .opIf => opIf false vm
  | .opNotIf => opIf true vm
  | .opElse => opElse vm
  | .opEndIf => opEndIf vm
  | _ => do
    let s ← dataOp env i vm.dstack
    return { vm with dstack := s }

/-- xvm/engine.go:74-80: one instruction, skipped or executed. -/
def exec (env : Env) (i : Instruction) (vm : State) : Res State :=
  if branchShouldSkip vm && !i.isConditional then .ok vm else opfunc env i vm

/-- The loop of xvm/engine.go:134-157 with `Step` (67-81). `fuel` bounds the loop (every instruction takes
at least one byte); running out of it counts as a panic and is proved never to happen. -/
def runLoop (env : Env) : Nat → Buffer → State → Res State
  | 0, _, _ => .panic
  | fuel + 1, b, vm => do
    let (i, b) ← nextInstruction b
    match i with
    | none => .ok vm
    | some i => do
      let vm ← exec env i vm
      runLoop env fuel b vm

/-- xvm/engine.go:134-171 -/
def execute (env : Env) (program : Bytes) (final : Bool) (vm : State) : Res State := do
  let vm ← runLoop env (program.length + 1) (Buffer.reader program) vm
  if final then
    if vm.dstack.length > 0 then do
      let (v, s) ← popBool vm.dstack
      if !v then .err errExec else .ok { vm with dstack := s }
    else .ok vm
  else .ok vm

/-- xvm/engine.go:185-188: only the data stack is cleaned. -/
def reset (vm : State) : State := { vm with dstack := [] }

/-- xvm/engine.go:89-113: returns the engine state on success. `append(unlocking, locking...)` may write
into spare capacity of the caller's slice; that is in Model/Slices.lean. -/
def verify (env : Env) (unlocking locking : Bytes) (vm : State) : Res State := do
  let vm ← execute env unlocking false vm
  let copyStk := vm.dstack
  let vm := reset vm
  let vm ← execute env (unlocking ++ locking) true vm
  if vm.dstack.length > 1 then do
    let (redeem, s) ← pop copyStk
    execute env redeem true { vm with dstack := s }
  else .ok vm

end Toku.VM
