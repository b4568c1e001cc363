import Mathlib.Data.Nat.Digits.Defs
import Verif.Spec.Bits
import Verif.Spec.Script
import Verif.Model.Base58
import Verif.Model.Script
/-
Scripts as text: what the words of a script text stand for.
-/
namespace Toku.Spec.Asm

/-- The names of the supported opcodes, and four more that the assembler knows. -/
def table : List (String × UInt8) :=
  [("OP_0", 0x00), ("OP_DATA_1", 0x01), ("OP_DATA_2", 0x02), ("OP_DATA_3", 0x03), ("OP_DATA_4", 0x04),
   ("OP_DATA_5", 0x05), ("OP_DATA_6", 0x06), ("OP_DATA_7", 0x07), ("OP_DATA_8", 0x08), ("OP_DATA_9", 0x09),
   ("OP_DATA_10", 0x0a), ("OP_DATA_11", 0x0b), ("OP_DATA_12", 0x0c), ("OP_DATA_13", 0x0d), ("OP_DATA_14", 0x0e),
   ("OP_DATA_15", 0x0f), ("OP_DATA_16", 0x10), ("OP_DATA_17", 0x11), ("OP_DATA_18", 0x12), ("OP_DATA_19", 0x13),
   ("OP_DATA_20", 0x14), ("OP_DATA_21", 0x15), ("OP_DATA_22", 0x16), ("OP_DATA_23", 0x17), ("OP_DATA_24", 0x18),
   ("OP_DATA_25", 0x19), ("OP_DATA_26", 0x1a), ("OP_DATA_27", 0x1b), ("OP_DATA_28", 0x1c), ("OP_DATA_29", 0x1d),
   ("OP_DATA_30", 0x1e), ("OP_DATA_31", 0x1f), ("OP_DATA_32", 0x20), ("OP_DATA_33", 0x21), ("OP_DATA_34", 0x22),
   ("OP_DATA_35", 0x23), ("OP_DATA_36", 0x24), ("OP_DATA_37", 0x25), ("OP_DATA_38", 0x26), ("OP_DATA_39", 0x27),
   ("OP_DATA_40", 0x28), ("OP_DATA_41", 0x29), ("OP_DATA_42", 0x2a), ("OP_DATA_43", 0x2b), ("OP_DATA_44", 0x2c),
   ("OP_DATA_45", 0x2d), ("OP_DATA_46", 0x2e), ("OP_DATA_47", 0x2f), ("OP_DATA_48", 0x30), ("OP_DATA_49", 0x31),
   ("OP_DATA_50", 0x32), ("OP_DATA_51", 0x33), ("OP_DATA_52", 0x34), ("OP_DATA_53", 0x35), ("OP_DATA_54", 0x36),
   ("OP_DATA_55", 0x37), ("OP_DATA_56", 0x38), ("OP_DATA_57", 0x39), ("OP_DATA_58", 0x3a), ("OP_DATA_59", 0x3b),
   ("OP_DATA_60", 0x3c), ("OP_DATA_61", 0x3d), ("OP_DATA_62", 0x3e), ("OP_DATA_63", 0x3f), ("OP_DATA_64", 0x40),
   ("OP_DATA_65", 0x41), ("OP_DATA_66", 0x42), ("OP_DATA_67", 0x43), ("OP_DATA_68", 0x44), ("OP_DATA_69", 0x45),
   ("OP_DATA_70", 0x46), ("OP_DATA_71", 0x47), ("OP_DATA_72", 0x48), ("OP_DATA_73", 0x49), ("OP_DATA_74", 0x4a),
   ("OP_DATA_75", 0x4b), ("OP_PUSHDATA1", 0x4c), ("OP_PUSHDATA2", 0x4d), ("OP_PUSHDATA4", 0x4e), ("OP_1", 0x51),
   ("OP_2", 0x52), ("OP_3", 0x53), ("OP_4", 0x54), ("OP_5", 0x55), ("OP_6", 0x56), ("OP_7", 0x57), ("OP_8", 0x58),
   ("OP_9", 0x59), ("OP_10", 0x5a), ("OP_11", 0x5b), ("OP_12", 0x5c), ("OP_13", 0x5d), ("OP_14", 0x5e),
   ("OP_15", 0x5f), ("OP_16", 0x60), ("OP_IF", 0x63), ("OP_NOTIF", 0x64), ("OP_ELSE", 0x67), ("OP_ENDIF", 0x68),
   ("OP_RETURN", 0x6a), ("OP_2DUP", 0x6e), ("OP_3DUP", 0x6f), ("OP_DUP", 0x76), ("OP_DROP", 0x75),
   ("OP_SIZE", 0x82), ("OP_SWAP", 0x7c), ("OP_EQUAL", 0x87), ("OP_EQUALVERIFY", 0x88), ("OP_ADD", 0x93),
   ("OP_HASH160", 0xa9), ("OP_CHECKSIG", 0xac), ("OP_CHECKSIGVERIFY", 0xad), ("OP_CHECKMULTISIG", 0xae),
   ("OP_CHECKMULTISIGVERIFY", 0xaf), ("OP_FALSE", 0x00), ("OP_TRUE", 0x51), ("OP_NOP2", 0xb1), ("OP_NOP3", 0xb2)]

/-- `t` names the opcode `b`. -/
def Names (t : Bytes) (b : UInt8) : Prop := ∃ n, (n, b) ∈ table ∧ t = ascii n.toList

/-- Decimal digits with value `n`, most significant first; leading zeros are allowed. -/
def Decimal (t : Bytes) (n : Nat) : Prop :=
  t ≠ [] ∧ (∀ c ∈ t, 48 ≤ c.toNat ∧ c.toNat ≤ 57) ∧ n = Nat.ofDigits 10 (t.map fun c => c.toNat - 48).reverse

/-- An integer: decimal digits after an optional sign. -/
def Integer (t : Bytes) (n : Int) : Prop :=
  ∃ d m, Decimal d m ∧ ((t = d ∨ t = ascii ['+'] ++ d) ∧ n = m ∨ t = ascii ['-'] ++ d ∧ n = -m)

/-- The value of a hexadecimal digit. -/
def hexVal (c : UInt8) : Nat := if c.toNat ≤ 57 then c.toNat - 48 else (lowerAscii c).toNat - 87

/-- The bytes of a hexadecimal text. -/
def hexBytes : Bytes → Bytes
  | a :: b :: r => UInt8.ofNat (16 * hexVal a + hexVal b) :: hexBytes r
  | _ => []

/-- Well-formed hexadecimal: digits, an even number of them. -/
def IsHex (t : Bytes) : Prop := t.length % 2 = 0 ∧ ∀ c ∈ t, IsHexChar c

/-- A word in quotes. -/
def Quoted (t h : Bytes) : Prop := h ≠ [] ∧ t = ascii ['\''] ++ h ++ ascii ['\'']

/-- The bytes a word of a script text stands for: an opcode by name; an integer, as AddInt64 writes it; after 0x the bytes
themselves; in quotes a push of the data, as AddData writes it. -/
inductive Denotes : Bytes → Bytes → Prop where
  | opcode {t : Bytes} {b : UInt8} : Names t b → Denotes t [b]
  | integer {t : Bytes} {n : Int} {b : Buffer} : Integer t n → -2^63 < n → n < 2^63 → Script.addInt64 Buffer.new n = .ok b →
      Denotes t b.data
  | raw {h : Bytes} : IsHex h → Denotes (ascii ['0', 'x'] ++ h) (hexBytes h)
  | data {t h : Bytes} : Quoted t h → IsHex h → Denotes t (Script.addData Buffer.new (hexBytes h)).data

/-- A word in quotes whose content is not hexadecimal. -/
def BadQuote (t : Bytes) : Prop := ∃ h, Quoted t h ∧ ¬ IsHex h

/-- The words of a text: the pieces between single spaces, tabs and line ends. -/
def words (text : Bytes) : List Bytes := text.splitOnP fun c => c = 0x20 || c = 0x0a || c = 0x09

/-- `code` is the concatenation of what the words of the text stand for. -/
def Assembles (text code : Bytes) : Prop := ∃ codes, List.Forall₂ Denotes (words text) codes ∧ code = codes.flatten

/-- The words with which a token is shown: the name of its opcode and for a push the data in hexadecimal. -/
def Shown (t : Token) (ws : List Bytes) : Prop :=
  ∃ n, (n, t.op) ∈ table.take 114 ∧
    ws = ascii n.toList :: (if 1 ≤ t.op.toNat ∧ t.op.toNat ≤ 0x4e then [t.data.flatMap fun b =>
      ascii [Nat.digitChar (b.toNat / 16), Nat.digitChar (b.toNat % 16)]] else [])

end Toku.Spec.Asm
