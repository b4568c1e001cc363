import Verif.Model.Basic
/-
Model of xbase/buffer.go. A `Buffer` keeps the three fields of the Go struct. Writers return the new
buffer; readers return the value and the new buffer.
-/
namespace Toku

/-- xbase/buffer.go:13-17. `seek` and `length` never become negative in the Go code, so they are `Nat`. -/
structure Buffer where
  seek : Nat
  length : Nat
  data : Bytes
  deriving DecidableEq, Repr

namespace Buffer

/-- xbase/buffer.go:20-22 -/
def new : Buffer := ⟨0, 0, []⟩

/-- xbase/buffer.go:25-30 -/
def reader (data : Bytes) : Buffer := ⟨0, data.length, data⟩

/-- xbase/buffer.go:32-37. The sum `b.seek + l` is a Go `int` and wraps. -/
def check (b : Buffer) (l : Int) : Res Unit :=
  if wrap64 (b.seek + l) > b.length then .err .bufferShort else .ok ()

/-- Indexing `b.data[i]`; out of range is a Go panic. -/
def index (b : Buffer) (i : Nat) : Res UInt8 := Res.ofIdx b.data[i]?

/-- xbase/buffer.go:40-43 -/
def writeU8 (b : Buffer) (v : UInt8) : Buffer :=
  { b with data := b.data ++ [v], length := b.length + 1 }

/-- xbase/buffer.go:46-53 -/
def readU8 (b : Buffer) : Res (UInt8 × Buffer) := do
  b.check 1
  let v ← b.index b.seek
  return (v, { b with seek := b.seek + 1 })

/-- The bytes appended by WriteU16, xbase/buffer.go:56-60 (argument is a uint32, upper half dropped). -/
def le16 (v : UInt32) : Bytes := [v.toUInt8, (v >>> 8).toUInt8]

/-- xbase/buffer.go:56-60 -/
def writeU16 (b : Buffer) (v : UInt32) : Buffer :=
  { b with data := b.data ++ le16 v, length := b.length + 2 }

/-- xbase/buffer.go:63-72 -/
def readU16 (b : Buffer) : Res (UInt32 × Buffer) := do
  b.check 2
  let b0 ← b.index b.seek
  let b1 ← b.index (b.seek + 1)
  return (b0.toUInt32 ||| (b1.toUInt32 <<< 8), { b with seek := b.seek + 2 })

/-- The bytes appended by WriteU32, xbase/buffer.go:75-81 -/
def le32 (v : UInt32) : Bytes :=
  [v.toUInt8, (v >>> 8).toUInt8, (v >>> 16).toUInt8, (v >>> 24).toUInt8]

/-- xbase/buffer.go:75-81 -/
def writeU32 (b : Buffer) (v : UInt32) : Buffer :=
  { b with data := b.data ++ le32 v, length := b.length + 4 }

/-- xbase/buffer.go:84-95 -/
def readU32 (b : Buffer) : Res (UInt32 × Buffer) := do
  b.check 4
  let b0 ← b.index b.seek
  let b1 ← b.index (b.seek + 1)
  let b2 ← b.index (b.seek + 2)
  let b3 ← b.index (b.seek + 3)
  return (b0.toUInt32 ||| (b1.toUInt32 <<< 8) ||| (b2.toUInt32 <<< 16) ||| (b3.toUInt32 <<< 24),
    { b with seek := b.seek + 4 })

/-- The bytes appended by WriteU64, xbase/buffer.go:98-108 -/
def le64 (v : UInt64) : Bytes :=
  [v.toUInt8, (v >>> 8).toUInt8, (v >>> 16).toUInt8, (v >>> 24).toUInt8,
   (v >>> 32).toUInt8, (v >>> 40).toUInt8, (v >>> 48).toUInt8, (v >>> 56).toUInt8]

/-- xbase/buffer.go:98-108 -/
def writeU64 (b : Buffer) (v : UInt64) : Buffer :=
  { b with data := b.data ++ le64 v, length := b.length + 8 }

/-- xbase/buffer.go:111-126 -/
def readU64 (b : Buffer) : Res (UInt64 × Buffer) := do
  b.check 8
  let b0 ← b.index b.seek
  let b1 ← b.index (b.seek + 1)
  let b2 ← b.index (b.seek + 2)
  let b3 ← b.index (b.seek + 3)
  let b4 ← b.index (b.seek + 4)
  let b5 ← b.index (b.seek + 5)
  let b6 ← b.index (b.seek + 6)
  let b7 ← b.index (b.seek + 7)
  return (b0.toUInt64 ||| (b1.toUInt64 <<< 8) ||| (b2.toUInt64 <<< 16) ||| (b3.toUInt64 <<< 24)
      ||| (b4.toUInt64 <<< 32) ||| (b5.toUInt64 <<< 40) ||| (b6.toUInt64 <<< 48)
      ||| (b7.toUInt64 <<< 56),
    { b with seek := b.seek + 8 })

/-- xbase/buffer.go:129-143 -/
def writeVarInt (b : Buffer) (v : UInt64) : Buffer :=
  if v < 0xfd then b.writeU8 v.toUInt8
  else if v ≤ 0xffff then (b.writeU8 0xfd).writeU16 v.toUInt32
  else if v ≤ 0xffffffff then (b.writeU8 0xfe).writeU32 v.toUInt32
  else (b.writeU8 0xff).writeU64 v

/-- xbase/buffer.go:146-176 -/
def readVarInt (b : Buffer) : Res (UInt64 × Buffer) := do
  let (first, b) ← b.readU8
  if first = 0xfd then
    let (v, b) ← b.readU16
    return (v.toUInt64, b)
  else if first = 0xfe then
    let (v, b) ← b.readU32
    return (v.toUInt64, b)
  else if first = 0xff then
    b.readU64
  else
    return (first.toUInt64, b)

/-- xbase/buffer.go:180-199 -/
def varIntSerializeSize (v : UInt64) : Nat :=
  if v < 0xfd then 1
  else if v ≤ 0xffff then 3
  else if v ≤ 0xffffffff then 5
  else 9

/-- xbase/buffer.go:202-205 -/
def writeBytes (b : Buffer) (v : Bytes) : Buffer :=
  { b with data := b.data ++ v, length := b.length + v.length }

/-- xbase/buffer.go:208-220. `l = 0` returns without a bounds check. A negative `l` passes `check` and
panics in `make`; an `l` so large that `b.seek + l` wraps passes `check` and panics in `make` too
(length out of range). The Go `nil` result for `l = 0` is the empty list here. -/
def readBytes (b : Buffer) (l : Int) : Res (Bytes × Buffer) :=
  if l = 0 then .ok ([], b)
  else do
    b.check l
    if l < 0 then .panic
    else if b.seek + l.toNat > b.data.length then .panic
    else .ok ((b.data.drop b.seek).take l.toNat, { b with seek := b.seek + l.toNat })

/-- xbase/buffer.go:223-227 -/
def writeVarBytes (b : Buffer) (v : Bytes) : Buffer :=
  (b.writeVarInt (UInt64.ofNat v.length)).writeBytes v

/-- xbase/buffer.go:230-236 -/
def readVarBytes (b : Buffer) : Res (Bytes × Buffer) := do
  let (len, b) ← b.readVarInt
  b.readBytes (intOfU64 len)

/-- xbase/buffer.go:239-241 (a Go string is a byte sequence) -/
def writeVarString (b : Buffer) (v : Bytes) : Buffer := b.writeVarBytes v

/-- xbase/buffer.go:244-250 -/
def readVarString (b : Buffer) : Res (Bytes × Buffer) := b.readVarBytes

/-- xbase/buffer.go:258-263 -/
def remaining (b : Buffer) : Bytes := (b.data.drop b.seek).take (b.length - b.seek)

/-- xbase/buffer.go:276-278 -/
def atEnd (b : Buffer) : Bool := decide (b.seek ≥ b.length)

/-- xbase/buffer.go:281-285 -/
def reset (_ : Buffer) : Buffer := ⟨0, 0, []⟩

end Buffer
end Toku
