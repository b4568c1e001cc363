import Verif.Model.VM
import Verif.Model.Assemble
/-
xvm/engine.go, xvm/trace.go, xvm/stack.go: the parts of the engine that only report: the program counter, the trace records of
debug mode, and the texts of stacks. The rest of the engine is that of Model/VM.lean.
-/
namespace Toku.Trace
open Toku.VM Toku.Script

/-- A trace record, xvm/trace.go:8-13. -/
structure Entry where
  step : UInt64
  executed : Bytes
  stack : Bytes
  remaining : Bytes
  deriving DecidableEq, Repr

/-- The fields of the engine that Model/VM.lean leaves out, xvm/engine.go:23-35: `pc`, `debug`, `traces`, `lastStack`, `lastOp`. -/
structure Log where
  pc : UInt64
  debug : Bool
  traces : List Entry
  lastStack : Bytes
  lastOp : Bytes
  deriving DecidableEq, Repr

/-- xvm/engine.go:38-42 -/
def newLog : Log := ⟨0, false, [], [], []⟩

/-- xvm/engine.go:45-47 -/
def enableDebug (g : Log) : Log := { g with debug := true }

/-- xvm/engine.go:50-52 -/
def disableDebug (g : Log) : Log := { g with debug := false }

/-- The text for one item, xvm/stack.go:197-201. -/
def itemText (x : Bytes) : Bytes :=
  if x.length = 0 then ascii " <empty> ".toList else ascii " <".toList ++ Id.hexEncode x ++ ascii "> ".toList

/-- xvm/stack.go:190-204: the slice is walked from the bottom; the list of the model has the top first. -/
def stackText (s : Stack) : Bytes :=
  (if s.length = 0 then ascii " <empty> ".toList else []) ++ s.reverse.flatMap itemText

/-- The field `op.name` of an instruction. -/
def name (i : Instruction) : Bytes := (Assemble.opName i.op.value).getD []

/-- DisasmRemaining, xvm/scriptreader.go:114-133. `errText` stands for `err.Error()`. -/
def remainingText (errText : Err → Bytes) (b : Buffer) : Res Bytes :=
  match Assemble.disasm b.remaining with
  | .ok t => .ok t
  | .err e => .ok (errText e)
  | .panic => .panic

/-- What the loop does after a step, xvm/engine.go:144-156; `b` is the reader after the instruction. -/
def record (errText : Err → Bytes) (final : Bool) (i : Instruction) (b : Buffer) (vm : State) (g : Log) : Res Log :=
  let cur := stackText vm.dstack
  let g' := { g with lastStack := cur, lastOp := name i }
  if g.debug && final then do
    let t ← remainingText errText b
    return { g' with traces := g.traces ++ [⟨g.pc, name i, cur, t⟩] }
  else .ok g'

/-- The loop of xvm/engine.go:134-157 with `Step` (67-81), as VM.runLoop, with the log. The log is returned also when the loop
ends with an error: that is when traces are looked at. -/
def runLoop (env : Env) (errText : Err → Bytes) (final : Bool) : Nat → Buffer → State → Log → Res State × Log
  | 0, _, _, g => (.panic, g)
  | fuel + 1, b, vm, g =>
    let g := { g with pc := g.pc + 1 }
    match nextInstruction b with
    | .err e => (.err e, g)
    | .panic => (.panic, g)
    | .ok (none, _) => (.ok vm, g)
    | .ok (some i, b) =>
      match exec env i vm with
      | .err e => (.err e, g)
      | .panic => (.panic, g)
      | .ok vm =>
        match record errText final i b vm g with
        | .ok g => runLoop env errText final fuel b vm g
        | .err e => (.err e, g)
        | .panic => (.panic, g)

/-- The end of xvm/engine.go:159-170. -/
def finish (final : Bool) (vm : State) : Res State :=
  if final then
    if vm.dstack.length > 0 then do
      let (v, s) ← popBool vm.dstack
      if !v then .err errExec else .ok { vm with dstack := s }
    else .ok vm
  else .ok vm

/-- xvm/engine.go:134-171 -/
def execute (env : Env) (errText : Err → Bytes) (program : Bytes) (final : Bool) (vm : State) (g : Log) : Res State × Log :=
  let r := runLoop env errText final (program.length + 1) (Buffer.reader program) vm g
  (r.1 >>= finish final, r.2)

/-- The check for a redeem script, xvm/engine.go:103-111. -/
def redeem (env : Env) (errText : Err → Bytes) (copyStk : Stack) (vm : State) (g : Log) : Res State × Log :=
  if vm.dstack.length > 1 then
    match pop copyStk with
    | .err e => (.err e, g)
    | .panic => (.panic, g)
    | .ok (r, s) => execute env errText r true { vm with dstack := s } g
  else (.ok vm, g)

/-- xvm/engine.go:89-113 -/
def verify (env : Env) (errText : Err → Bytes) (unlocking locking : Bytes) (vm : State) (g : Log) : Res State × Log :=
  match execute env errText unlocking false vm g with
  | (.ok vm, g) =>
    match execute env errText (unlocking ++ locking) true (reset vm) g with
    | (.ok vm', g) => redeem env errText vm.dstack vm' g
    | r => r
  | r => r

end Toku.Trace
