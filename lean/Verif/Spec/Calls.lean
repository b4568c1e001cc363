import Verif.Model.Builder
/-
What a sequence of builder calls asks for: the calls are cut into stages by `Then`; within a stage the last call of
each kind counts; fees, change, lock time and data concern the whole transaction.
-/
namespace Toku.Spec
open Toku.Builder

variable {κ : Type}

/-- The stages: the calls between one `Then` and the next. There is always at least one. -/
def stages : List (Call κ) → List (List (Call κ))
  | [] => [[]]
  | .then_ :: cs => [] :: stages cs
  | c :: cs => match stages cs with
    | [] => [[c]]
    | s :: ss => (c :: s) :: ss

/-- The last of the values that `f` finds in the calls. -/
def lastOf {α : Type} (f : Call κ → Option α) (cs : List (Call κ)) : Option α := (cs.filterMap f).getLast?

/-- The coin, keys, payment, redeem script, key format and hash type of a stage. A coin resets the key format to
compressed and the hash type to ALL. -/
structure IsGroup (cs : List (Call κ)) (g : Builder.Group κ) : Prop where
  coin : g.coin = (lastOf (fun | .addCoin c => some c | _ => none) cs).getD none
  keys : g.keys = (lastOf (fun | .addKeys k => some k | _ => none) cs).getD none
  output : g.output = lastOf (fun | .to a v => some ⟨a, v⟩ | _ => none) cs
  redeem : g.redeemScript = (lastOf (fun | .setRedeemScript r => some r | _ => none) cs).getD none
  compressed : g.compressed = (lastOf (fun | .addCoin _ => some true | .setPubKeyUncompressed => some false | _ => none) cs).getD false
  sigHashType : g.sigHashType = (lastOf (fun | .addCoin _ => some 1 | .setSigHashType t => some t | _ => none) cs).getD 0

/-- The settings asked for by the calls. -/
structure IsSettings (cs : List (Call κ)) (b : Settings κ) : Prop where
  groups : List.Forall₂ IsGroup (stages cs) b.groups
  change : b.change = lastOf (fun | .setChange a => some a | _ => none) cs
  sendFees : b.sendFees = wrap64 ((lastOf (α := UInt64) (fun | .sendFees f => some f | _ => none) cs).getD 1000).toNat
  relayFee : b.relayFeePerKb = (lastOf (fun | .setRelayFeePerKb f => some f | _ => none) cs).getD 0
  maxFees : b.maxFees = (lastOf (fun | .setMaxFees m => some m | _ => none) cs).getD 100000000
  lockTime : b.lockTime = (lastOf (fun | .setLockTime t => some t | _ => none) cs).getD 0
  pushDatas : b.pushDatas = cs.filterMap (fun | .addPushData d => some d | _ => none)
  sign : b.sign = cs.any (fun | .sign => true | _ => false)

end Toku.Spec
