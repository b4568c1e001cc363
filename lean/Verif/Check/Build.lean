import Verif.Check.Txs
import Verif.Model.Builder
import Verif.Model.HDKey
/-
Tests of /repo/xcore/transactionbuilder_test.go run through the model: keys from seeds, building, signing, verification, and the
identifiers the tests assert. The hash functions and the curve are the real ones. These are checks that the model computes what the
code computes, not properties. (Check/Txs.lean is imported only so that the two are not built at the same time, for memory.)
-/
namespace Toku.Check
open Toku.Tx Toku.Curve Toku.Locking Toku.Builder

attribute [local instance] Sha.realHashes

/-- `bip32.NewHDKey(seed).PrivateKey()`, as bytes. -/
def seedKey (seed : String) : Res Ecdsa.Key := do
  let k ← HDKey.new (ascii seed.toList)
  match k.key with
  | .prv p => if h : natOfBE (natToBE p.d) % N ≠ 0 then .ok ⟨natToBE p.d, h⟩ else .err (.other 0)
  | .pub _ => .err (.other 0)

/-- `PublicKey().Serialize()` -/
def pub (k : Ecdsa.Key) : Bytes := Ecdsa.pubBytes k true

def address (kind : Kind) (k : Ecdsa.Key) : Option Address.Addr := Address.make kind (hash160 (pub k))

def coin (txid : String) (n : UInt32) (value : UInt64) (script : String) : Option Coin :=
  some ⟨ascii txid.toList, n, value, ascii script.toList⟩

/-- BuildTransaction, Verify and ID. -/
def built (calls : List (Call Ecdsa.Key)) : Res (Res Unit × Bytes) := do
  let tx ← build (Ecdsa.scheme 4) (Builder.run calls)
  return ((verify (Ecdsa.scheme 4) tx).1, Id.toString (txHash tx))

/-- TestTransactionBuilderP2PKH, transactionbuilder_test.go:19-75 -/
example : (do
    let bohu ← seedKey "this.is.bohu.seed."
    let satoshi ← seedKey "this.is.satoshi.seed."
    built [.addCoin (coin "bde974a17f9ab1cfbbfb00bb4561e27156ebd65a4163ea0f014e9114d5b65556" 1 6762017
        "76a9145a927ddadc0ef3ae4501d0d9872b57c9584b9d8888ac"), .addKeys (some [bohu]), .to (address .p2pkh satoshi) 3000, .then_,
      .setChange (address .p2pkh bohu), .sendFees 1000, .then_, .addPushData (ascii "666...satoshi".toList), .sign]) =
    .ok (.ok (), ascii "092ddeb0fa8205a06494f2cf83afda0377479c86065e60dea5ae347468b27361".toList) := by decide +kernel

/-- TestTransactionBuilderP2WPKH, spending, with fees from a rate, transactionbuilder_test.go:240-320 -/
example : (do
    let bohu ← seedKey "this.is.bohu.seed."
    let satoshi ← seedKey "this.is.satoshi.seed."
    built [.addCoin (coin "c37c3154ae611cfd9a57e684f0c12d51491d09060c643adc292565884e947b2b" 0 666666
        "00148b7f2212ecc4384abcf1df3fc5783e9c2a24d5a5"), .addKeys (some [satoshi]),
      .to (address .p2pkh bohu) 66666, .then_, .setChange (address .p2wpkh satoshi), .setRelayFeePerKb 20000, .then_, .sign]) =
    .ok (.ok (), ascii "80cd5fca2589cd97d3da1119214ed339d5284ce068e22f1eb9f32ee99a17d4bf".toList) := by decide +kernel

end Toku.Check
