import Verif.Spec.VM
import Verif.Model.Locking
/-
Specification of the standard output scripts, as literal bytes.
-/
namespace Toku.Spec
open Toku.Locking

/-- Hash length of each kind: HASH160 is 20 bytes, SHA-256 is 32 bytes. -/
def hashSize : Kind → Nat
  | .p2pkh => 20
  | .p2sh => 20
  | .p2wpkh => 20
  | .p2wsh => 32

/-- The bytes of each standard output script. -/
def standardScript : Kind → Bytes → Bytes
  | .p2pkh, h => [0x76, 0xa9, 0x14] ++ h ++ [0x88, 0xac]
  | .p2sh, h => [0xa9, 0x14] ++ h ++ [0x87]
  | .p2wpkh, h => [0x00, 0x14] ++ h
  | .p2wsh, h => [0x00, 0x20] ++ h

end Toku.Spec
