import Verif.Spec.Assemble
import Verif.Model.Trace
import Verif.Proof.VM
/-
What the trace records of a run should show.
-/
namespace Toku.Spec.Trace
open Toku.VM Toku.Spec Toku.Spec.Asm

/-- Two hexadecimal digits for each byte. -/
def hex (x : Bytes) : Bytes :=
  x.flatMap fun b => [UInt8.ofNat (Nat.digitChar (b.toNat / 16)).toNat, UInt8.ofNat (Nat.digitChar (b.toNat % 16)).toNat]

/-- A stack item in angle brackets; an empty one as the word empty. -/
def item (x : Bytes) : Bytes :=
  ascii " <".toList ++ (if x = [] then ascii "empty".toList else hex x) ++ ascii "> ".toList

/-- A stack from the bottom to the top. -/
def stack (s : Stack) : Bytes := if s = [] then ascii " <empty> ".toList else (s.reverse.map item).flatten

/-- The records `T` tell the run of `script` from the engine state `vm`, when `pc` steps were counted before: the `k`-th record
exists exactly if the first `k + 1` instructions ran, and then it has their number, the name of the last of them, the stack they
left, and the text of the rest of the script, which is its disassembly or the text of the error. -/
def Tells (env : Env) (errText : Err → Bytes) (script : Bytes) (vm : State) (pc : Nat) (T : List Trace.Entry) : Prop :=
  ∃ ts tail, (∀ t ∈ ts, Token.Valid t) ∧ script = encTokens ts ++ tail ∧ (tail = [] ∨ Stuck tail) ∧
  ∀ k e, T[k]? = some e ↔ ∃ t vm', ts[k]? = some t ∧ execAll env (ts.take (k + 1)) vm = .ok vm' ∧
    e.step = UInt64.ofNat (pc + (k + 1)) ∧ (∃ n, (n, t.op) ∈ table.take 114 ∧ e.executed = ascii n.toList) ∧
    e.stack = stack vm'.dstack ∧
    (Assemble.disasm (encTokens (ts.drop (k + 1)) ++ tail) = .ok e.remaining ∨
      ∃ er, Assemble.disasm (encTokens (ts.drop (k + 1)) ++ tail) = .err er ∧ e.remaining = errText er)

/-- The number of instructions of a script that parses. -/
def Count (script : Bytes) (n : Nat) : Prop := ∃ ts, (∀ t ∈ ts, Token.Valid t) ∧ script = encTokens ts ∧ ts.length = n

end Toku.Spec.Trace
