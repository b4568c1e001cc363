import Verif.Model.Link
import Verif.Spec.Connection
/-
What two connected peers have done, read off from a run.
-/
namespace Toku.Spec
open Toku.Protocol Toku.Stream Toku.Connection

/-- What one of the two did. -/
def side (w : Who) (as : List (Who × CAct)) : List CAct := as.filterMap fun p => if p.1 = w then some p.2 else none

/-- The messages the receive handler of one side has been called for, in order. -/
def handed (w : Who) (as : List (Who × CAct)) : List Msg := (side w as).filterMap fun | .deliver m => some m | _ => none

/-- One side has called Send with this message. -/
def Called (w : Who) (m : Msg) (as : List (Who × CAct)) : Prop :=
  ∃ t, (w, CAct.other t (.callWrite t m)) ∈ as ∨ (w, CAct.handler (.callWrite t m)) ∈ as

end Toku.Spec
