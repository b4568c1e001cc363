import Verif.Model.TxObj
import Verif.Spec.Tx
/-
What is left in an object when only the first `m` bytes of a transaction are read into it.
-/
namespace Toku.Spec
open Toku.Tx

/-- The items at the start of `l` whose encodings lie in the first `m` bytes. -/
def whole {α : Type} (enc : α → Bytes) : List α → Nat → List α
  | [], _ => []
  | x :: l, m => if (enc x).length ≤ m then x :: whole enc l (m - (enc x).length) else []

/-- The slice after reading `m` bytes of `l`: the items that are whole, then nil pointers. -/
def slots {α β : Type} (enc : α → Bytes) (norm : α → β) (l : List α) (m : Nat) : List (Option β) :=
  (whole enc l m).map (fun x => some (norm x)) ++ List.replicate (l.length - (whole enc l m).length) none

/-- An input with nothing but what is on the wire outside the witness. -/
def bareIn (i : TxIn) : TxIn :=
  { TxIn.empty with hash := i.hash, index := i.index, rawUnlockingScript := scriptSig i, sequence := i.sequence }

/-- Where the list of inputs starts and ends, where the list of outputs starts and ends (`start` is where the count of the inputs
is). -/
def insStart (start : Nat) (tx : Transaction) : Nat := start + (compactSize tx.inputs.length).length
def insEnd (start : Nat) (tx : Transaction) : Nat :=
  insStart start tx + (tx.inputs.flatMap fun i => wireIn i.hash i.index (scriptSig i) i.sequence).length
def outsStart (start : Nat) (tx : Transaction) : Nat := insEnd start tx + (compactSize tx.outputs.length).length
def outsEnd (start : Nat) (tx : Transaction) : Nat := outsStart start tx + (tx.outputs.flatMap wireOut).length

/-- The inputs after `m` bytes. -/
def leftIns (start : Nat) (tx : Transaction) (m : Nat) (old : List (Option TxIn)) : List (Option TxIn) :=
  if m < insStart start tx ∨ tx.inputs = [] then old
  else slots (fun i => wireIn i.hash i.index (scriptSig i) i.sequence) bareIn tx.inputs (m - insStart start tx)

/-- The outputs after `m` bytes. -/
def leftOuts (start : Nat) (tx : Transaction) (m : Nat) (old : List (Option TxOut)) : List (Option TxOut) :=
  if m < outsStart start tx ∨ tx.outputs = [] then old
  else slots wireOut id tx.outputs (m - outsStart start tx)

/-- The object after the first `m` bytes of `wireLegacy tx` were read into `o`. -/
def leftLegacy (tx : Transaction) (m : Nat) (o : Obj) : Obj :=
  { o with
    version := if m < 4 then 0 else tx.version
    inputs := leftIns 4 tx m o.inputs
    outputs := leftOuts 4 tx m o.outputs
    lockTime := if m < outsEnd 4 tx then o.lockTime else 0 }

/-- The inputs after `m` bytes of their witnesses: those whose witness is whole; the one in which the bytes end, with empty items
in place of those missing, if its count is there; the others without witness. -/
def leftWits : List TxIn → Nat → List (Option TxIn)
  | [], _ => []
  | i :: is, m =>
    if (counted varStr i.witness).length ≤ m then
      some { bareIn i with witness := i.witness } :: leftWits is (m - (counted varStr i.witness).length)
    else if m < (compactSize i.witness.length).length then (i :: is).map fun i => some (bareIn i)
    else
      let w := whole varStr i.witness (m - (compactSize i.witness.length).length)
      some { bareIn i with witness := w ++ List.replicate (i.witness.length - w.length) [] } :: is.map fun i => some (bareIn i)

/-- The object after the first `m` bytes of `wireSegwit tx` were read into `o`. -/
def leftSegwit (tx : Transaction) (m : Nat) (o : Obj) : Obj :=
  { o with
    version := if m < 4 then 0 else tx.version
    inputs := if m < outsEnd 6 tx then leftIns 6 tx m o.inputs else leftWits tx.inputs (m - outsEnd 6 tx)
    outputs := leftOuts 6 tx m o.outputs
    lockTime := if m < (wireSegwit tx).length - 4 then o.lockTime else 0 }

/-- A method on an object and the function on the transaction it holds do the same: the same transaction and unread bytes, the
same error, or both panic. -/
inductive SameRead : Obj × Res Bytes → Res (Transaction × Bytes) → Prop
  | ok (t : Transaction) (rest : Bytes) : SameRead (Obj.of t, .ok rest) (.ok (t, rest))
  | err (o : Obj) (e : Err) : SameRead (o, .err e) (.err e)
  | panic (o : Obj) : SameRead (o, .panic) .panic

end Toku.Spec
