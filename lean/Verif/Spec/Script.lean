import Verif.Spec.Bytes
/-
Specification of Bitcoin script syntax, restricted to the opcodes this library supports: a script is a
sequence of tokens, each an opcode byte, possibly a length field, and the pushed data.
-/
namespace Toku.Spec

/-- Opcodes the engine knows: pushes, OP_1..OP_16, IF NOTIF ELSE ENDIF RETURN, 2DUP 3DUP DROP DUP SWAP SIZE,
EQUAL EQUALVERIFY ADD HASH160, CHECKSIG(VERIFY), CHECKMULTISIG(VERIFY). -/
def Supported (op : UInt8) : Prop :=
  op.toNat ≤ 0x4e ∨ (0x51 ≤ op.toNat ∧ op.toNat ≤ 0x60) ∨
  op.toNat ∈ [0x63, 0x64, 0x67, 0x68, 0x6a, 0x6e, 0x6f, 0x75, 0x76, 0x7c, 0x82, 0x87, 0x88, 0x93, 0xa9,
    0xac, 0xad, 0xae, 0xaf]

instance : DecidablePred Supported := fun _ => by unfold Supported; infer_instance

/-- OP_DATA_1 .. OP_DATA_75: the opcode is the length of the data. -/
def Direct (op : UInt8) : Prop := 1 ≤ op.toNat ∧ op.toNat ≤ 75

instance : DecidablePred Direct := fun _ => by unfold Direct; infer_instance

/-- Width of the length field after the opcode. -/
def lenWidth (op : UInt8) : Nat :=
  if op.toNat = 0x4c then 1 else if op.toNat = 0x4d then 2 else if op.toNat = 0x4e then 4 else 0

/-- Little-endian number of `k` bytes. -/
def leBytes : Nat → Nat → Bytes
  | 0, _ => []
  | k + 1, n => UInt8.ofNat (n % 256) :: leBytes k (n / 256)

/-- One token of a script. -/
structure Token where
  op : UInt8
  data : Bytes
  deriving DecidableEq, Repr

/-- The bytes of a token. -/
def Token.enc (t : Token) : Bytes := t.op :: (leBytes (lenWidth t.op) t.data.length ++ t.data)

/-- The opcode is supported and the data has a length that its form can express. -/
def Token.Valid (t : Token) : Prop :=
  Supported t.op ∧
  if Direct t.op then t.data.length = t.op.toNat else t.data.length < 256 ^ lenWidth t.op

/-- The bytes of a list of tokens. -/
def encTokens (ts : List Token) : Bytes := ts.flatMap Token.enc

/-- Data length announced after opcode `op` when the following bytes are `rest`. -/
def declaredLen (op : UInt8) (rest : Bytes) : Nat :=
  if Direct op then op.toNat else leNat (rest.take (lenWidth op))

/-- No token can be read: unsupported opcode, or truncated length field or data. -/
def Stuck (r : Bytes) : Prop :=
  ∃ op rest, r = op :: rest ∧
    (¬ Supported op ∨ rest.length < lenWidth op ∨ rest.length < lenWidth op + declaredLen op rest)

end Toku.Spec
