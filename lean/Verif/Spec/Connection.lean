import Verif.Model.Connection
import Verif.Spec.Stream
/-
What a record of what happened at a connection says.
-/
namespace Toku.Spec
open Toku.Protocol Toku.Stream Toku.Connection

/-- The calls of the handlers, and the end of the process. -/
def seen (as : List CAct) : List Event :=
  as.filterMap fun
    | .deliver m => some (.receive m)
    | .refused => some .disconnect
    | .lost => some .disconnect
    | .crash => some .crash
    | _ => none

/-- All bytes that have arrived. -/
def arrived (as : List CAct) : Bytes := as.flatMap fun | .arrive bs => bs | _ => []

/-- A Send that has returned nil. -/
def Returned (t : Nat) (m : Msg) (as : List CAct) : Prop := CAct.other t (.wrote t m) ∈ as ∨ (t = 0 ∧ CAct.handler (.wrote 0 m) ∈ as)

/-- The messages of the Sends that have returned nil, in order of return. -/
def delivered (as : List CAct) : List Msg :=
  as.filterMap fun
    | .other _ (.wrote _ m) => some m
    | .handler (.wrote _ m) => some m
    | _ => none

/-- A Send that has returned an error. -/
def SendFailed (as : List CAct) : Prop :=
  ∃ t m, CAct.other t (.writeFailed t m) ∈ as ∨ CAct.handler (.writeFailed t m) ∈ as

end Toku.Spec
