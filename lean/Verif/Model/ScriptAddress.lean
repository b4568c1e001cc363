import Verif.Model.Address
/-
GetAddress of the locking scripts: xcore/script_p2pkh.go, script_p2sh.go, script_p2wpkh_v0.go, script_p2wsh_v0.go.
-/
namespace Toku.Address
open Locking

/-- GetAddress: xcore/script_p2pkh.go:25-27, script_p2sh.go:25-27, script_p2wpkh_v0.go:26-28, script_p2wsh_v0.go:30-32; each passes the hash of
the script to the constructor of the address of the same kind. `none` is the Go `nil`. -/
def ofScript (s : LockScript) : Option Addr := make s.kind s.hash

end Toku.Address
