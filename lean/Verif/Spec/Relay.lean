import Verif.Spec.Locking
import Verif.Spec.Script
/-
Which outputs a node passes on: the output part of IsStandardTx of the reference client (default settings before version 30:
data of at most 83 bytes of script in at most one output, dust relay fee of 3000 per kB). Bare multisig, bare keys and later witness
versions are also passed on there; they are left out, as no address of the library leads to them.
-/
namespace Toku.Spec
open Toku.Locking (Kind)

/-- A push as Bitcoin counts it: opcode at most 0x60 with the data its form announces. -/
def PushOnly (t : Token) : Prop :=
  t.op ≤ 0x60 ∧ if Direct t.op then t.data.length = t.op.toNat else t.data.length < 256 ^ lenWidth t.op

/-- The script of an output that is passed on: one of the four address forms, or OP_RETURN with pushes, at most 83 bytes. -/
def RelayedForm (s : Bytes) : Prop :=
  (∃ k h, h.length = hashSize k ∧ s = standardScript k h) ∨
  (∃ ts, s = 0x6a :: encTokens ts ∧ (∀ t ∈ ts, PushOnly t) ∧ s.length ≤ 83)

/-- A witness program: a version opcode and one push of 2 to 40 bytes. -/
def isProgram : Bytes → Bool
  | v :: n :: p => (v = 0 || (0x51 ≤ v && v ≤ 0x60)) && (n.toNat = p.length && 2 ≤ p.length && p.length ≤ 40)
  | _ => false

/-- An output below this amount costs more to spend than it is worth: three times the size of the output (a script here is shorter than 253
bytes) and of an input that spends it. -/
def dustLimit (s : Bytes) : Nat := 3 * (8 + 1 + s.length + if isProgram s then 67 else 148)

/-- Data outputs start with OP_RETURN. -/
def isData (s : Bytes) : Bool := s.head? = some 0x6a

/-- The outputs, as amounts and scripts, are passed on. -/
structure Relayed (outs : List (Nat × Bytes)) : Prop where
  form : ∀ o ∈ outs, RelayedForm o.2
  dust : ∀ o ∈ outs, isData o.2 = false → dustLimit o.2 ≤ o.1
  data : (outs.filter fun o => isData o.2).length ≤ 1

end Toku.Spec
