import Verif.Model.Stream
import Verif.Spec.Protocol
/-
What a record of the calls on a stream, and of their returns, says.
-/
namespace Toku.Spec
open Toku.Protocol Toku.Stream

/-- Messages whose WriteMessage returned nil, in order of return. -/
def completed (as : List Act) : List Msg := as.filterMap fun | .wrote _ m => some m | _ => none

/-- The messages goroutine `t` has called WriteMessage with. -/
def calls (t : Nat) (as : List Act) : List Msg :=
  as.filterMap fun | .callWrite u m => if u = t then some m else none | _ => none

/-- The messages of the calls of WriteMessage that returned to goroutine `t`, in order. -/
def returns (t : Nat) (as : List Act) : List Msg :=
  as.filterMap fun
    | .wrote u m => if u = t then some m else none
    | .writeFailed u m => if u = t then some m else none
    | _ => none

/-- The message of the WriteMessage a goroutine is in. -/
def pending : Proc → List Msg
  | .wantWrite m => [m]
  | .writing m _ => [m]
  | _ => []

/-- The results of the calls of ReadMessage that got a whole frame, in order of return. -/
def reads (as : List Act) : List (Res Msg) := as.filterMap fun | .read _ r => some r | _ => none

/-- What one of two peers did. -/
def of (w : Who) (as : List (Who × Act)) : List Act := as.filterMap fun p => if p.1 = w then some p.2 else none

end Toku.Spec
