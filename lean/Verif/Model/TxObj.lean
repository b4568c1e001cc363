import Verif.Model.Tx
/-
What the two Deserialize methods leave in the object, also when they fail (xcore/transaction.go:495-587, 623-681), and the
methods called on such an object.
-/
namespace Toku.Tx

/-- A `Transaction` object (xcore/transaction.go:113-121) whose slices may hold nil pointers: `make([]*TxIn, ins)` and
`make([]*TxOut, outs)` are filled one by one (transaction.go:526, 551, 638, 663). Two slots never share one object. -/
structure Obj where
  version : UInt32
  lockTime : UInt32
  inputs : List (Option TxIn)
  outputs : List (Option TxOut)
  hashPrevouts : Option Bytes
  hashSequence : Option Bytes
  hashOutputs : Option Bytes
  deriving DecidableEq, Repr

namespace Obj

/-- The object that holds `tx`: no pointer is nil. -/
def of (tx : Transaction) : Obj :=
  ⟨tx.version, tx.lockTime, tx.inputs.map some, tx.outputs.map some, tx.hashPrevouts, tx.hashSequence, tx.hashOutputs⟩

/-- Go on with the value of `x`, with its error, or with its panic. -/
def onRes {α β : Type} (x : Res α) (ok : α → β) (err : Err → β) (panic : β) : β :=
  match x with
  | .ok a => ok a
  | .err e => err e
  | .panic => panic

/-- The items read before the first failure, and how the reading ended. -/
def readSome {α : Type} (rd : Buffer → Res (α × Buffer)) : Nat → Buffer → List α × Res Buffer
  | 0, b => ([], .ok b)
  | n + 1, b =>
    onRes (rd b) (fun p => (p.1 :: (readSome rd n p.2).1, (readSome rd n p.2).2))
      (fun e => ([], .err e)) ([], .panic)

/-- A slice of `n` elements, all `dflt` at first, into which the items of `l` were stored from the left. -/
def filled {α : Type} (dflt : α) (n : Nat) (l : List α) : List α := l ++ List.replicate (n - l.length) dflt

/-- The slice of `n` elements after `r` was read into it, and how the reading ended. -/
def stored {α β : Type} (dflt : β) (f : α → β) (n : Nat) (r : List α × Res Buffer) : List β × Res Buffer :=
  (filled dflt n (r.1.map f), r.2)

/-- xcore/transaction.go:520-543, 545-562, 632-655, 657-674: a counted list read into a field that held `old`. An item is
stored only after all of it was read. A pointer takes `size` = 8 bytes. -/
def readSlots {α : Type} (size : Nat) (rd : Buffer → Res (α × Buffer)) (old : List (Option α)) (b : Buffer) :
    List (Option α) × Res Buffer :=
  onRes b.readVarInt (fun p =>
      if p.1.toNat = 0 then (old, .ok p.2)
      else if p.1.toNat > makeLimit size then (old, .panic)
      else stored none some p.1.toNat (readSome rd p.1.toNat p.2))
    (fun e => (old, .err e)) (old, .panic)

/-- xcore/transaction.go:569-577 for one input: fails before anything is stored, or stores a stack (items not read stay nil, the
empty byte string here) and goes on or fails. A `[]byte` takes `size` = 24 bytes. -/
def readStack (size : Nat) (b : Buffer) : Res (List Bytes × Res Buffer) :=
  onRes b.readVarInt (fun p =>
      if p.1.toNat > makeLimit size then .panic
      else .ok (stored [] id p.1.toNat (readSome (fun b => b.readVarBytes) p.1.toNat p.2)))
    (fun e => .err e) .panic

/-- xcore/transaction.go:567-579: the witness stacks are stored into the inputs one by one; with a nil input the first store
panics. -/
def readWits : List (Option TxIn) → Buffer → List (Option TxIn) × Res Buffer
  | [], b => ([], .ok b)
  | i :: is, b =>
    onRes (readStack 24 b) (fun p =>
        match i with
        | none => (none :: is, .panic)
        | some i =>
          onRes p.2 (fun b => (some { i with witness := p.1 } :: (readWits is b).1, (readWits is b).2))
            (fun e => (some { i with witness := p.1 } :: is, .err e)) (some { i with witness := p.1 } :: is, .panic))
      (fun e => (i :: is, .err e)) (i :: is, .panic)

/-- xcore/transaction.go:581-584, 676-679: the lock time; the assignment takes the zero that ReadU32 returns with an error
(xbase/buffer.go:85-87). -/
def readLockTime (o : Obj) (b : Buffer) : Obj × Res Bytes :=
  onRes b.readU32 (fun p => ({ o with lockTime := p.1 }, .ok p.2.remaining))
    (fun e => ({ o with lockTime := 0 }, .err e)) (o, .panic)

/-- Go on with `k` unless reading has failed. -/
def andThen (p : Obj × Res Buffer) (k : Obj → Buffer → Obj × Res Bytes) : Obj × Res Bytes :=
  onRes p.2 (fun b => k p.1 b) (fun e => (p.1, .err e)) (p.1, .panic)

/-- The inputs, xcore/transaction.go:520-543, 632-655. -/
def readIns (o : Obj) (b : Buffer) : Obj × Res Buffer :=
  ({ o with inputs := (readSlots 8 readInput o.inputs b).1 }, (readSlots 8 readInput o.inputs b).2)

/-- The outputs, xcore/transaction.go:545-562, 657-674. -/
def readOuts (o : Obj) (b : Buffer) : Obj × Res Buffer :=
  ({ o with outputs := (readSlots 8 readOutput o.outputs b).1 }, (readSlots 8 readOutput o.outputs b).2)

/-- The witnesses, xcore/transaction.go:564-579. -/
def readInWits (o : Obj) (b : Buffer) : Obj × Res Buffer :=
  ({ o with inputs := (readWits o.inputs b).1 }, (readWits o.inputs b).2)

/-- xcore/transaction.go:632-679: inputs, outputs and lock time. -/
def readBody (o : Obj) (b : Buffer) : Obj × Res Bytes :=
  andThen (readIns o b) fun o b => andThen (readOuts o b) readLockTime

/-- xcore/transaction.go:520-584: inputs, outputs, witnesses and lock time. -/
def readBodyWits (o : Obj) (b : Buffer) : Obj × Res Bytes :=
  andThen (readIns o b) fun o b => andThen (readOuts o b) fun o b => andThen (readInWits o b) readLockTime

/-- xcore/transaction.go:500-502, 628-630: the version; with an error it becomes the zero that ReadU32 returns. -/
def readVersion (tail : Obj → Buffer → Obj × Res Bytes) (o : Obj) (b : Buffer) : Obj × Res Bytes :=
  onRes b.readU32 (fun p => tail { o with version := p.1 } p.2)
    (fun e => ({ o with version := 0 }, .err e)) (o, .panic)

/-- xcore/transaction.go:504-518: the marker and the flag. -/
def readMarker (tail : Obj → Buffer → Obj × Res Bytes) (o : Obj) (b : Buffer) : Obj × Res Bytes :=
  onRes b.readU8 (fun p =>
      if p.1 ≠ 0x00 then (o, .err errMarker)
      else
        onRes p.2.readU8 (fun p => if p.1 ≠ 0x01 then (o, .err errFlag) else tail o p.2)
          (fun e => (o, .err e)) (o, .panic))
    (fun e => (o, .err e)) (o, .panic)

/-- xcore/transaction.go:623-681: the object afterwards, and the unread bytes or the error. -/
def deserializeNoWitness (o : Obj) (data : Bytes) : Obj × Res Bytes := readVersion readBody o (Buffer.reader data)

/-- xcore/transaction.go:495-587: the object afterwards, and the unread bytes or the error. -/
def deserialize (o : Obj) (data : Bytes) : Obj × Res Bytes :=
  readVersion (readMarker readBodyWits) o (Buffer.reader data)

/-- The pointers of a slice dereferenced one after another. -/
def derefs {α : Type} : List (Option α) → Res (List α)
  | [] => .ok []
  | none :: _ => .panic
  | some x :: l => do
    let r ← derefs l
    return x :: r

/-- xcore/transaction.go:435-442: returns at the first input with a witness, so that later nil inputs are not looked at. -/
def hasWitness (o : Obj) : Res Bool := loop o.inputs
where
  loop : List (Option TxIn) → Res Bool
    | [] => .ok false
    | none :: _ => .panic
    | some i :: is => if i.hasWitness then .ok true else loop is

/-- The transaction in the object, if no pointer is nil: xcore/transaction.go:461-477, 600-615, 743-756 look at all inputs, then
at all outputs, and write to a local value only, so that it does not matter where they panic. -/
def load (o : Obj) : Res Transaction := do
  let ins ← derefs o.inputs
  let outs ← derefs o.outputs
  return ⟨o.version, o.lockTime, ins, outs, o.hashPrevouts, o.hashSequence, o.hashOutputs⟩

/-- xcore/transaction.go:445-492 -/
def serialize (o : Obj) : Res Bytes := do
  let _ ← o.hasWitness
  let tx ← o.load
  return Tx.serialize tx

/-- xcore/transaction.go:591-620 -/
def serializeNoWitness (o : Obj) : Res Bytes := do
  let tx ← o.load
  return Tx.serializeNoWitness tx

/-- xcore/transaction.go:189-191 -/
def txHash [Hashes] (o : Obj) : Res Bytes := do
  let s ← o.serializeNoWitness
  return sha256d s

/-- xcore/transaction.go:738-765 -/
def baseSize (o : Obj) : Res Nat := do
  let tx ← o.load
  return Tx.baseSize tx

/-- xcore/transaction.go:802-814 -/
def fees (o : Obj) : Res Int := do
  let tx ← o.load
  return Tx.fees tx

end Obj
end Toku.Tx
