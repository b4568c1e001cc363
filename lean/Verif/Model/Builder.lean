import Verif.Model.TxSign
import Verif.Model.Estimate
import Verif.Model.Address
import Verif.Model.Id
/-
xcore/transactionbuilder.go and xcore/coinbuilder.go.
-/
namespace Toku.Builder
open Toku.Tx Toku.Script

/-- xcore/coinbuilder.go:9-14. The identifier and the script are hexadecimal text. -/
structure Coin where
  txID : Bytes
  n : UInt32
  value : UInt64
  script : Bytes
  deriving DecidableEq, Repr

/-- xcore/transactionbuilder.go:26-30. The field `script` is never set and left out; `none` is a nil address. -/
structure Output where
  addr : Option Address.Addr
  value : UInt64
  deriving DecidableEq, Repr

/-- xcore/transactionbuilder.go:39-46. `none` is nil. -/
structure Group (κ : Type) where
  coin : Option Coin
  keys : Option (List κ)
  output : Option Output
  compressed : Bool
  redeemScript : Option Bytes
  sigHashType : UInt32

/-- A `Group{}` -/
def Group.empty {κ : Type} : Group κ := ⟨none, none, none, false, none, 0⟩

/-- xcore/transactionbuilder.go:49-59. The amounts are `int64`: integers between -2^63 and 2^63. `change` is
the pointer to the address; the address itself may be nil. `idx` is the position of the last group: `before`
holds the groups before it. -/
structure Settings (κ : Type) where
  before : List (Group κ)
  group : Group κ
  sign : Bool
  maxFees : ℤ
  sendFees : ℤ
  relayFeePerKb : ℤ
  lockTime : UInt32
  change : Option (Option Address.Addr)
  pushDatas : List Bytes

/-- `b.groups` -/
def Settings.groups {κ : Type} (b : Settings κ) : List (Group κ) := b.before ++ [b.group]

/-- xcore/transactionbuilder.go:62-69 -/
def new {κ : Type} : Settings κ := ⟨[], Group.empty, false, 100000000, 1000, 0, 0, none, []⟩

/-- The setters, one constructor per method, xcore/transactionbuilder.go:72-162. Amounts given as `uint64` are
converted to `int64` by wrapping. -/
inductive Call (κ : Type) where
  | addCoin (coin : Option Coin)
  | addKeys (keys : Option (List κ))
  | to (addr : Option Address.Addr) (value : UInt64)
  | setRedeemScript (redeem : Option Bytes)
  | setPubKeyUncompressed
  | setSigHashType (t : UInt32)
  | setChange (addr : Option Address.Addr)
  | sendFees (fees : UInt64)
  | setRelayFeePerKb (fee : ℤ)
  | setMaxFees (max : ℤ)
  | setLockTime (t : UInt32)
  | addPushData (data : Bytes)
  | sign
  | then_

/-- xcore/transactionbuilder.go:72-162 -/
def step {κ : Type} (b : Settings κ) : Call κ → Settings κ
  | .addCoin c => { b with group := { b.group with coin := c, compressed := true, sigHashType := 1 } }
  | .addKeys ks => { b with group := { b.group with keys := ks } }
  | .to a v => { b with group := { b.group with output := some ⟨a, v⟩ } }
  | .setRedeemScript r => { b with group := { b.group with redeemScript := r } }
  | .setPubKeyUncompressed => { b with group := { b.group with compressed := false } }
  | .setSigHashType t => { b with group := { b.group with sigHashType := t } }
  | .setChange a => { b with change := some a }
  | .sendFees f => { b with sendFees := wrap64 f.toNat }
  | .setRelayFeePerKb f => { b with relayFeePerKb := f }
  | .setMaxFees m => { b with maxFees := m }
  | .setLockTime t => { b with lockTime := t }
  | .addPushData d => { b with pushDatas := b.pushDatas ++ [d] }
  | .sign => { b with sign := true }
  | .then_ => { b with before := b.before ++ [b.group], group := Group.empty }

def run {κ : Type} (calls : List (Call κ)) : Settings κ := calls.foldl step new

def errAmount : Err := .num 5101
def errFromEmpty : Err := .num 5102
def errChangeEmpty : Err := .num 5103
def errSendEmpty : Err := .num 5104
def errSignKeyEmpty : Err := .num 5105
def errMinFee : Err := .num 5106
def errFeeTooHigh : Err := .num 5107

/-- The local variables of the first loop: `txins` with the signing data `inputs`, `txouts` and the totals. -/
structure Acc (κ : Type) where
  ins : List (TxIn × Group κ)
  outs : List TxOut
  totalIn : ℤ
  totalOut : ℤ

variable {κ : Type} [Hashes]

/-- xcore/transactionbuilder.go:181-209 -/
def addInput (acc : Acc κ) (g : Group κ) : Res (Acc κ) :=
  match g.coin with
  | none => .ok acc
  | some c => do
    let txid ← Id.fromString c.txID
    let script ← Id.hexDecode c.script
    let txin ← newTxIn txid c.n c.value script g.redeemScript
    return { acc with ins := acc.ins ++ [(txin, g)], totalIn := wrap64 (acc.totalIn + intOfU64 c.value) }

/-- xcore/transactionbuilder.go:212-234. A nil address gives a nil script. -/
def addOutput (acc : Acc κ) (g : Group κ) : Acc κ :=
  match g.output with
  | none => acc
  | some o =>
    { acc with
      outs := acc.outs ++ [⟨o.value, (o.addr.map Address.lockingScript).getD []⟩]
      totalOut := wrap64 (acc.totalOut + intOfU64 o.value) }

/-- xcore/transactionbuilder.go:176-235 -/
def collect : List (Group κ) → Acc κ → Res (Acc κ)
  | [], acc => .ok acc
  | g :: gs, acc => do
    let acc ← addInput acc g
    collect gs (addOutput acc g)

/-- xcore/transactionbuilder.go:249-262 -/
def decideFees (b : Settings κ) (acc : Acc κ) : ℤ :=
  if b.relayFeePerKb > 0 then
    Estimate.fees (Estimate.size (acc.ins.map (·.1)) acc.outs + (b.pushDatas.map (·.length)).sum : Nat) b.relayFeePerKb
  else b.sendFees

/-- xcore/transactionbuilder.go:276-289: the change output, if any. -/
def changeOutput (b : Settings κ) (amount : ℤ) : Res (List TxOut) :=
  if amount > 0 then
    match b.change with
    | none => .err errChangeEmpty
    | some none => .panic
    | some (some a) => .ok [⟨UInt64.ofNat amount.toNat, Address.lockingScript a⟩]
  else .ok []

/-- xcore/transactionbuilder.go:310-317 -/
def pushOutput (data : Bytes) : TxOut := ⟨0, (addData (addOp Buffer.new 0x6a) data).data⟩

/-- xcore/transactionbuilder.go:321-330 -/
def signAll (E : Ecdsa κ) : List (Group κ) → Nat → Transaction → Res Transaction
  | [], _, tx => .ok tx
  | g :: gs, n, tx =>
    match g.keys with
    | none => .err errSignKeyEmpty
    | some keys => do
      let tx ← signIndex E tx n g.compressed g.sigHashType keys
      signAll E gs (n + 1) tx

/-- xcore/transactionbuilder.go:165-330 -/
def build (E : Ecdsa κ) (b : Settings κ) : Res Transaction := do
  let acc ← collect b.groups ⟨[], [], 0, 0⟩
  if acc.ins.length = 0 then .err errFromEmpty
  else if acc.outs.length = 0 then .err errSendEmpty
  else
    let fees := decideFees b acc
    if fees > b.maxFees then .err errFeeTooHigh
    else if acc.totalOut > acc.totalIn then .err errAmount
    else
      let changeAmount := wrap64 (wrap64 (acc.totalIn - acc.totalOut) - fees)
      if changeAmount < 0 then .err errMinFee
      else do
        let change ← changeOutput b changeAmount
        let tx : Transaction := { Tx.new with
          lockTime := b.lockTime
          inputs := acc.ins.map (·.1)
          outputs := acc.outs ++ change ++ b.pushDatas.map pushOutput }
        if b.sign then signAll E (acc.ins.map (·.2)) 0 tx else .ok tx

end Toku.Builder
