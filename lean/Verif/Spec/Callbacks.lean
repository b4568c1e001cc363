import Verif.Model.VM
/-
What the callbacks of an engine say about a signature and a key.
-/
namespace Toku.Spec
open Toku.VM

/-- `none` if the script cannot go on: a callback is missing, there is no hash for the hash type, or the verifier panics.
An empty signature is not valid. The hash type is the last byte. -/
def checkOf (env : Env) (sig key : Bytes) : Option Bool :=
  match env.sigHasher, env.sigVerifier with
  | some hasher, some verifier =>
    match sig.getLast? with
    | none => some false
    | some t =>
      match hasher t with
      | .ok hash =>
        match verifier hash sig.dropLast key with
        | .ok _ => some true
        | .err _ => some false
        | .panic => none
      | _ => none
  | _, _ => none

end Toku.Spec
