import Verif.Model.VM
/-
The script engine of xvm with a signature hash callback that changes state. `Transaction.Verify`
(xcore/transaction.go:684-734) installs such a callback: computing a witness signature hash fills the
digest caches of the transaction, and the next call sees them.

The definitions mirror those of Model/VM.lean; instructions that call neither callback are taken from
there. Both callbacks are set, as `Verify` does.
-/
namespace Toku.VMS
open Toku.VM Toku.Script

/-- A computation that may change a state, fail or panic. The state is kept when it fails. -/
def M (σ α : Type) : Type := σ → Res α × σ

/-- A computation that does not touch the state. -/
def lift {σ α : Type} (r : Res α) : M σ α := fun s => (r, s)

def bind {σ α β : Type} (m : M σ α) (f : α → M σ β) : M σ β := fun s =>
  match m s with
  | (.ok a, s) => f a s
  | (.err e, s) => (.err e, s)
  | (.panic, s) => (.panic, s)

instance {σ : Type} : Monad (M σ) where
  pure a := lift (.ok a)
  bind := bind

/-- The callbacks: `hash160` is Hash160, `hasher` the stateful signature hash function. -/
structure Env (σ : Type) where
  hash160 : Bytes → Bytes
  hasher : UInt8 → M σ Bytes
  verifier : Bytes → Bytes → Bytes → Res Unit

/-- The environment for the instructions that call neither callback. -/
def Env.plain {σ : Type} (env : Env σ) : VM.Env := ⟨env.hash160, none, none⟩

variable {σ : Type}

/-- xvm/instruction_crypto.go:28-62 -/
def opCheckSig (env : Env σ) (s : Stack) : M σ Stack := do
  let (pubkey, s) ← lift (pop s)
  let (sig, s) ← lift (pop s)
  if sig.length < 1 then lift (.ok (boolBytes false :: s))
  else do
    let (hashType, sigDER) ← lift (splitSig sig)
    let hash ← env.hasher hashType
    let v ← lift (verified (env.verifier hash sigDER pubkey))
    lift (.ok (boolBytes v :: s))

/-- xvm/instruction_crypto.go:124-133 -/
def checkOne (env : Env σ) (sig key : Bytes) : M σ Bool := do
  let (hashType, sigDER) ← lift (splitSig sig)
  let hash ← env.hasher hashType
  lift (verified (env.verifier hash sigDER key))

/-- xvm/instruction_crypto.go:122-140 -/
def multisigLoop (env : Env σ) : List Bytes → List Bytes → M σ Bool
  | [], _ => lift (.ok true)
  | _ :: _, [] => lift (.ok true)
  | sig :: sigs, key :: keys => do
    let v ← checkOne env sig key
    if v then
      if keys.length < sigs.length then lift (.ok false) else multisigLoop env sigs keys
    else
      if keys.length < (sig :: sigs).length then lift (.ok false) else multisigLoop env (sig :: sigs) keys

/-- xvm/instruction_crypto.go:76-143 -/
def opCheckMultiSig (env : Env σ) (s : Stack) : M σ Stack := do
  let (numKeys, s) ← lift (popInt s)
  let n := ScriptNum.int32 numKeys
  if n < 0 then lift .panic
  else do
    let (keys, s) ← lift (popMany n.toNat s)
    let (numSigs, s) ← lift (popInt s)
    let m := ScriptNum.int32 numSigs
    if m > n then lift (.err errExec)
    else if m < 0 then lift .panic
    else do
      let (sigs, s) ← lift (popMany m.toNat s)
      let (_, s) ← lift (pop s)
      let success ← multisigLoop env sigs keys
      lift (.ok (boolBytes success :: s))

/-- The handlers that touch the data stack only, as `VM.dataOp`. -/
def dataOp (env : Env σ) (i : Instruction) (s : Stack) : M σ Stack :=
  match i.op.fn with
  | .opCheckSig => opCheckSig env s
  | .opCheckSigVerify => do
    let s ← opCheckSig env s
    lift (equalVerify s)
  | .opCheckMultiSig => opCheckMultiSig env s
  | .opCheckMultiSigVerify => do
    let s ← opCheckMultiSig env s
    lift (equalVerify s)
  | _ => lift (VM.dataOp env.plain i s)

/-- xvm/engine.go:77 -/
def opfunc (env : Env σ) (i : Instruction) (vm : State) : M σ State :=
  match i.op.fn with
  | .opIf | .opNotIf | .opElse | .opEndIf => lift (VM.opfunc env.plain i vm)
  | _ => do
    let s ← dataOp env i vm.dstack
    lift (.ok { vm with dstack := s })

/-- xvm/engine.go:74-80 -/
def exec (env : Env σ) (i : Instruction) (vm : State) : M σ State :=
  if branchShouldSkip vm && !i.isConditional then lift (.ok vm) else opfunc env i vm

/-- xvm/engine.go:134-157 with `Step` (67-81); fuel as in `VM.runLoop`. -/
def runLoop (env : Env σ) : Nat → Buffer → State → M σ State
  | 0, _, _ => lift .panic
  | fuel + 1, b, vm => do
    let (i, b) ← lift (nextInstruction b)
    match i with
    | none => lift (.ok vm)
    | some i => do
      let vm ← exec env i vm
      runLoop env fuel b vm

/-- xvm/engine.go:158-171: the end of `execute`. -/
def finish (final : Bool) (vm : State) : Res State :=
  if final then
    if vm.dstack.length > 0 then do
      let (v, s) ← popBool vm.dstack
      if !v then .err errExec else .ok { vm with dstack := s }
    else .ok vm
  else .ok vm

/-- xvm/engine.go:134-171 -/
def execute (env : Env σ) (program : Bytes) (final : Bool) (vm : State) : M σ State := do
  let vm ← runLoop env (program.length + 1) (Buffer.reader program) vm
  lift (finish final vm)

/-- xvm/engine.go:89-113 -/
def verify (env : Env σ) (unlocking locking : Bytes) (vm : State) : M σ State := do
  let vm ← execute env unlocking false vm
  let copyStk := vm.dstack
  let vm := reset vm
  let vm ← execute env (unlocking ++ locking) true vm
  if vm.dstack.length > 1 then do
    let (redeem, s) ← lift (pop copyStk)
    execute env redeem true { vm with dstack := s }
  else lift (.ok vm)

end Toku.VMS
