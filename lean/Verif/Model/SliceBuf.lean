import Verif.Model.Slices
import Verif.Model.Script
/-
xbase/buffer.go and xvm/scriptbuilder.go with the memory of the buffer: what Model/Buffer.lean and Model/Script.lean leave out.
The heap and `append` are those of Model/Slices.lean. `Bytes` gives out the slice of the buffer itself, `Reset` keeps its array.

The spare capacity that the runtime gives when an array grows is a parameter `g`: `g i` for the `i`-th append of an operation.
-/
namespace Toku.SliceBuf
open Toku.Slices

/-- xbase/buffer.go:13-17 with `data` as a slice. -/
structure Buf where
  seek : Nat
  length : Nat
  data : Slice
  deriving DecidableEq, Repr

/-- NewBuffer, xbase/buffer.go:20-22. The nil slice is a slice of length 0 of a new array with no cells. -/
def new (h : Heap UInt8) : Heap UInt8 × Buf := (h ++ [[]], ⟨0, 0, ⟨h.length, 0, 0⟩⟩)

/-- NewBufferReader, xbase/buffer.go:25-30: the caller's slice is used, not copied. -/
def reader (data : Slice) : Buf := ⟨0, data.len, data⟩

/-- `b.data = append(b.data, xs...)` -/
def app (e : Bytes) (h : Heap UInt8) (b : Buf) (xs : Bytes) : Heap UInt8 × Buf :=
  let r := append e h b.data xs
  (r.1, { b with data := r.2 })

/-- The given bytes appended one after another, as in WriteU16, WriteU32 and WriteU64. -/
def appEach (g : Nat → Bytes) (h : Heap UInt8) (b : Buf) : Bytes → Heap UInt8 × Buf
  | [] => (h, b)
  | x :: xs =>
    let r := app (g 0) h b [x]
    appEach (fun i => g (i + 1)) r.1 r.2 xs

def addLength (r : Heap UInt8 × Buf) (n : Nat) : Heap UInt8 × Buf := (r.1, { r.2 with length := r.2.length + n })

/-- xbase/buffer.go:40-43 -/
def writeU8 (g : Nat → Bytes) (h : Heap UInt8) (b : Buf) (v : UInt8) : Heap UInt8 × Buf := addLength (app (g 0) h b [v]) 1

/-- xbase/buffer.go:56-60 -/
def writeU16 (g : Nat → Bytes) (h : Heap UInt8) (b : Buf) (v : UInt32) : Heap UInt8 × Buf :=
  addLength (appEach g h b (Buffer.le16 v)) 2

/-- xbase/buffer.go:75-81 -/
def writeU32 (g : Nat → Bytes) (h : Heap UInt8) (b : Buf) (v : UInt32) : Heap UInt8 × Buf :=
  addLength (appEach g h b (Buffer.le32 v)) 4

/-- xbase/buffer.go:98-108 -/
def writeU64 (g : Nat → Bytes) (h : Heap UInt8) (b : Buf) (v : UInt64) : Heap UInt8 × Buf :=
  addLength (appEach g h b (Buffer.le64 v)) 8

/-- xbase/buffer.go:202-205; the bytes of `v` are read when they are appended. -/
def writeBytes (g : Nat → Bytes) (h : Heap UInt8) (b : Buf) (v : Slice) : Heap UInt8 × Buf :=
  addLength (app (g 0) h b (elems h v)) v.len

/-- xbase/buffer.go:208-220: the bytes are copied to a new array. Panics and errors as in Model/Buffer.lean. -/
def readBytes (h : Heap UInt8) (b : Buf) (l : Int) : Res (Slice × Heap UInt8 × Buf) :=
  match Buffer.readBytes ⟨b.seek, b.length, elems h b.data⟩ l with
  | .ok (v, b') => .ok (⟨h.length, 0, v.length⟩, h ++ [v], { b with seek := b'.seek })
  | .err e => .err e
  | .panic => .panic

/-- Bytes, xbase/buffer.go:253-255 -/
def bytes (b : Buf) : Slice := b.data

/-- Reset, xbase/buffer.go:281-285: `b.data[0:0]` -/
def reset (b : Buf) : Buf := ⟨0, 0, { b.data with len := 0 }⟩

/-! ### xvm/scriptbuilder.go -/

/-- One write after another. -/
def thenDo (r : Heap UInt8 × Buf) (f : Heap UInt8 → Buf → Heap UInt8 × Buf) : Heap UInt8 × Buf := f r.1 r.2

/-- AddData, xvm/scriptbuilder.go:43-91. The length and the first byte of `data` are looked at first; its bytes are copied after
the opcode and the length were written. -/
def addData (g : Nat → Bytes) (h : Heap UInt8) (b : Buf) (data : Slice) : Heap UInt8 × Buf :=
  let l := data.len
  let d0 := (elems h data).getD 0 0
  if l = 0 then writeU8 g h b 0x00
  else if l = 1 ∧ d0 = 0 then writeU8 g h b 0x00
  else if l = 1 ∧ d0 ≤ 16 then writeU8 g h b (0x50 + d0)
  else if l = 1 ∧ d0 = 0x81 then writeU8 g h b 0x4f
  else if l = 1 ∨ l < 0x4c then
    thenDo (writeU8 g h b (UInt8.ofNat l)) (fun h b => writeBytes (fun i => g (i + 1)) h b data)
  else if l ≤ 0xff then
    thenDo (thenDo (writeU8 g h b 0x4c) (fun h b => writeU8 (fun i => g (i + 1)) h b (UInt8.ofNat l)))
      (fun h b => writeBytes (fun i => g (i + 2)) h b data)
  else if l ≤ 0xffff then
    thenDo (thenDo (writeU8 g h b 0x4d) (fun h b => writeU16 (fun i => g (i + 1)) h b (UInt32.ofNat l)))
      (fun h b => writeBytes (fun i => g (i + 3)) h b data)
  else
    thenDo (thenDo (writeU8 g h b 0x4e) (fun h b => writeU32 (fun i => g (i + 1)) h b (UInt32.ofNat l)))
      (fun h b => writeBytes (fun i => g (i + 5)) h b data)

/-- AddInt64, xvm/scriptbuilder.go:100-110. `ScriptNum.Bytes` returns a new slice. -/
def addInt64 (g : Nat → Bytes) (h : Heap UInt8) (b : Buf) (val : Int) : Res (Heap UInt8 × Buf) :=
  if val = 0 then .ok (writeU8 g h b 0x00)
  else if val = -1 ∨ (1 ≤ val ∧ val ≤ 16) then .ok (writeU8 g h b (UInt8.ofNat (0x51 + val - 1).toNat))
  else do
    let d ← ScriptNum.bytes val
    return addData g (h ++ [d]) b ⟨h.length, 0, d.length⟩

/-- What a caller can do with a script builder. `Load` (xvm/scriptbuilder.go:140-167) does `op`, `int`, `data` and `raw`, the
last two with new slices. `outside` is memory that somebody else asks for meanwhile. -/
inductive Op where
  | op (v : UInt8)
  | data (d : Slice)
  | int (v : Int)
  | raw (d : Slice)
  | reset
  | outside (xs : Bytes)

/-- One call; a call that panics leaves the builder. -/
def step (g : Nat → Bytes) (h : Heap UInt8) (b : Buf) : Op → Heap UInt8 × Buf
  | .op v => writeU8 g h b v
  | .data d => addData g h b d
  | .int v => match addInt64 g h b v with
    | .ok r => r
    | _ => (h, b)
  | .raw d => writeBytes g h b d
  | .reset => (h, reset b)
  | .outside xs => (h ++ [xs], b)

/-- Calls one after another. -/
def run (h : Heap UInt8) (b : Buf) : List ((Nat → Bytes) × Op) → Heap UInt8 × Buf
  | [] => (h, b)
  | o :: os =>
    let r := step o.1 h b o.2
    run r.1 r.2 os

end Toku.SliceBuf
