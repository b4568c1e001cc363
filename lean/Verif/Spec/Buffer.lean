import Verif.Model.Buffer
import Verif.Spec.Bytes
/-
Specification of buffer usage: fields written by a client, and the reads that match them.
-/
namespace Toku.Spec

/-- A value written to a buffer, tagged with the writer used. -/
inductive Field where
  | u8 (v : UInt8)
  | u16 (v : UInt32)
  | u32 (v : UInt32)
  | u64 (v : UInt64)
  | varInt (v : UInt64)
  | bytes (v : Bytes)
  | varBytes (v : Bytes)
  | varString (v : Bytes)
  deriving DecidableEq

/-- The reader a client calls; fixed-size byte fields need their length. -/
inductive Kind where
  | u8 | u16 | u32 | u64 | varInt | bytes (l : Nat) | varBytes | varString
  deriving DecidableEq

/-- The reader that matches a written field. -/
def Field.kind : Field → Kind
  | .u8 _ => .u8
  | .u16 _ => .u16
  | .u32 _ => .u32
  | .u64 _ => .u64
  | .varInt _ => .varInt
  | .bytes v => .bytes v.length
  | .varBytes _ => .varBytes
  | .varString _ => .varString

/-- What a client must get back: WriteU16 keeps only the low 16 bits of its argument. -/
def Field.expected : Field → Field
  | .u16 v => .u16 (UInt32.ofNat (v.toNat % 65536))
  | f => f

/-- The API call that writes a field. -/
def writeField (b : Buffer) : Field → Buffer
  | .u8 v => b.writeU8 v
  | .u16 v => b.writeU16 v
  | .u32 v => b.writeU32 v
  | .u64 v => b.writeU64 v
  | .varInt v => b.writeVarInt v
  | .bytes v => b.writeBytes v
  | .varBytes v => b.writeVarBytes v
  | .varString v => b.writeVarString v

/-- The API call that reads a field of a given kind. -/
def readKind (b : Buffer) : Kind → Res (Field × Buffer)
  | .u8 => do let (v, b) ← b.readU8; return (.u8 v, b)
  | .u16 => do let (v, b) ← b.readU16; return (.u16 v, b)
  | .u32 => do let (v, b) ← b.readU32; return (.u32 v, b)
  | .u64 => do let (v, b) ← b.readU64; return (.u64 v, b)
  | .varInt => do let (v, b) ← b.readVarInt; return (.varInt v, b)
  | .bytes l => do let (v, b) ← b.readBytes l; return (.bytes v, b)
  | .varBytes => do let (v, b) ← b.readVarBytes; return (.varBytes v, b)
  | .varString => do let (v, b) ← b.readVarString; return (.varString v, b)

/-- Write a sequence of fields. -/
def writeAll (b : Buffer) (fs : List Field) : Buffer := fs.foldl writeField b

/-- Read a sequence of kinds, stopping at the first failure. -/
def readAll (b : Buffer) : List Kind → Res (List Field × Buffer)
  | [] => .ok ([], b)
  | k :: ks => do
    let (f, b) ← readKind b k
    let (fs, b) ← readAll b ks
    return (f :: fs, b)

/-- What a successful read of a field means: the bytes consumed encode the returned value. -/
def Consumes : Field → Bytes → Prop
  | .u8 v, e => e.length = 1 ∧ leNat e = v.toNat
  | .u16 v, e => e.length = 2 ∧ leNat e = v.toNat
  | .u32 v, e => e.length = 4 ∧ leNat e = v.toNat
  | .u64 v, e => e.length = 8 ∧ leNat e = v.toNat
  | .varInt v, e => IsVarInt e v.toNat
  | .bytes v, e => e = v
  | .varBytes v, e => ∃ h, e = h ++ v ∧ IsVarInt h v.length
  | .varString v, e => ∃ h, e = h ++ v ∧ IsVarInt h v.length

/-- The remaining input starts with a variable-length prefix declaring a length `n` for which the end
of the field, as a position in the data, is 2^63 or more. -/
def HugeDeclared (b : Buffer) (rest : Bytes) : Prop :=
  ∃ e t n, rest = e ++ t ∧ IsVarInt e n ∧ 2^63 ≤ b.seek + e.length + n


end Toku.Spec
