import Verif.Spec.Script
import Verif.Model.VM
import Mathlib.Data.List.Forall2
/-
Specification vocabulary for script execution: what the oracles accept, pushes, nesting, structured
programs.
-/
namespace Toku.Spec
open Toku.VM Toku.Script

/-- The signature with its trailing hash type byte is accepted by the callbacks under the key. -/
def SigOk (env : Env) (sig key : Bytes) : Prop :=
  ∃ hasher verifier der t hash, env.sigHasher = some hasher ∧ env.sigVerifier = some verifier ∧
    sig = der ++ [t] ∧ hasher t = .ok hash ∧ verifier hash der key = .ok ()

/-- Both callbacks are set. On the hash types of the signatures `S` the hasher does not fail, and on the
signatures `S` and keys `K` the verifier does not panic. -/
def Oracles (env : Env) (S K : List Bytes) : Prop :=
  ∃ hasher verifier, env.sigHasher = some hasher ∧ env.sigVerifier = some verifier ∧
    (∀ der t, der ++ [t] ∈ S → (∃ hash, hasher t = .ok hash) ∧ ∀ h, ∀ k ∈ K, verifier h der k ≠ .panic)

/-- An order-preserving assignment of all signatures to distinct keys: the signatures match, one by one,
a subsequence of the keys. -/
def Matching (ok : Bytes → Bytes → Prop) (sigs keys : List Bytes) : Prop :=
  ∃ chosen, chosen.Sublist keys ∧ List.Forall₂ ok sigs chosen

/-- A signature whose check is a panic: it is empty, or there is no hasher, or there is a hash but no verifier. -/
def CheckFault (env : Env) (sig : Bytes) : Prop :=
  sig = [] ∨ env.sigHasher = none ∨
  ∃ der t hasher hash, sig = der ++ [t] ∧ env.sigHasher = some hasher ∧ hasher t = .ok hash ∧ env.sigVerifier = none

/-- The checks of CHECKMULTISIG come to such a signature `s`: those before it match a subsequence of some first keys, and
there are enough keys after these for `s` and the signatures after it. -/
def LoopFault (env : Env) (sigs keys : List Bytes) : Prop :=
  ∃ S1 s S2 K1 K2, sigs = S1 ++ s :: S2 ∧ keys = K1 ++ K2 ∧ (s :: S2).length ≤ K2.length ∧
    Matching (SigOk env) S1 K1 ∧ CheckFault env s

/-- What makes CHECKMULTISIG panic: a negative number of keys, a negative number of signatures, or checks that come to a
signature whose check is a panic. The top of the stack is first. -/
def MultisigFault (env : Env) (s : Stack) : Prop :=
  (∃ x r n, s = x :: r ∧ ScriptNum.make x 4 = .ok n ∧ n < 0) ∨
  (∃ x keys y r m, s = x :: (keys ++ y :: r) ∧ ScriptNum.make x 4 = .ok (keys.length : Int) ∧
    ScriptNum.make y 4 = .ok m ∧ m < 0) ∨
  (∃ x keys y sigs d r, s = x :: (keys ++ y :: (sigs ++ d :: r)) ∧
    ScriptNum.make x 4 = .ok (keys.length : Int) ∧ ScriptNum.make y 4 = .ok (sigs.length : Int) ∧
    sigs.length ≤ keys.length ∧ LoopFault env sigs keys)

/-- Opcode 0x00 to 0x60 without 0x4f, 0x50: a token that pushes something. -/
def IsPush (t : Token) : Prop := t.Valid ∧ t.op.toNat ≤ 0x60

/-- The value a push token pushes. -/
def pushValue (t : Token) : Bytes :=
  if t.op.toNat = 0 then [] else if t.op.toNat ≤ 0x4e then t.data else [UInt8.ofNat (t.op.toNat - 0x50)]

def isIf (t : Token) : Bool := t.op = 0x63 || t.op = 0x64
def isElse (t : Token) : Bool := t.op = 0x67
def isEndIf (t : Token) : Bool := t.op = 0x68

/-- As many ENDIF as IF and NOTIF. -/
def Balanced (ts : List Token) : Prop := (ts.filter isIf).length = (ts.filter isEndIf).length

/-- Well nested with `d` open conditionals: no ELSE or ENDIF outside of a conditional, and every
conditional closed at the end. -/
def WellNested : Nat → List Token → Prop
  | d, [] => d = 0
  | d, t :: ts =>
    if isIf t then WellNested (d + 1) ts
    else if isElse t then 0 < d ∧ WellNested d ts
    else if isEndIf t then 0 < d ∧ WellNested (d - 1) ts
    else WellNested d ts

mutual
/-- Structured programs: plain instructions and conditionals. -/
inductive Prog where
  | done
  | op (t : Token) (rest : Prog)
  | cond (neg : Bool) (body : Branches) (rest : Prog)
/-- The branches of a conditional, separated by ELSE (any number of them). -/
inductive Branches where
  | last (p : Prog)
  | els (p : Prog) (rest : Branches)
end

mutual
/-- The token sequence of a structured program. -/
def Prog.flatten : Prog → List Token
  | .done => []
  | .op t rest => t :: rest.flatten
  | .cond neg body rest =>
    ⟨if neg then 0x64 else 0x63, []⟩ :: (body.flatten ++ ⟨0x68, []⟩ :: rest.flatten)
def Branches.flatten : Branches → List Token
  | .last p => p.flatten
  | .els p rest => p.flatten ++ ⟨0x67, []⟩ :: rest.flatten
end

mutual
/-- Every plain instruction is a valid token that is not a conditional. -/
def Prog.Valid : Prog → Prop
  | .done => True
  | .op t rest => t.Valid ∧ ¬ isIf t ∧ ¬ isElse t ∧ ¬ isEndIf t ∧ rest.Valid
  | .cond _ body rest => body.Valid ∧ rest.Valid
def Branches.Valid : Branches → Prop
  | .last p => p.Valid
  | .els p rest => p.Valid ∧ rest.Valid
end

mutual
/-- Meaning of a structured program on the data stack. `step` is the meaning of a plain instruction and
`test` takes the condition from the stack. A conditional runs its first, third, … branch if the condition
holds, its second, fourth, … otherwise. -/
def Prog.sem (step : Token → Stack → Res Stack) (test : Stack → Res (Bool × Stack)) : Prog → Stack → Res Stack
  | .done, s => .ok s
  | .op t rest, s => step t s >>= rest.sem step test
  | .cond neg body rest, s => test s >>= fun bs => body.sem step test (bs.1 != neg) bs.2 >>= rest.sem step test
def Branches.sem (step : Token → Stack → Res Stack) (test : Stack → Res (Bool × Stack)) :
    Branches → Bool → Stack → Res Stack
  | .last p, taken, s => if taken then p.sem step test s else .ok s
  | .els p rest, taken, s =>
    if taken then p.sem step test s >>= rest.sem step test (!taken)
    else rest.sem step test (!taken) s
end

end Toku.Spec
