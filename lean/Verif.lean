import Verif.Props.Buffer
import Verif.Props.Base58
import Verif.Props.Bech32
import Verif.Props.Witness
import Verif.Props.ScriptNum
import Verif.Props.Script
import Verif.Props.VM
import Verif.Props.Locking
import Verif.Props.Address
import Verif.Props.Ripemd
import Verif.Props.Pbkdf2
import Verif.Props.Tx
import Verif.Props.SigHash
import Verif.Props.History
import Verif.Props.TxSign
import Verif.Props.TxWire
import Verif.Props.ScriptCode
import Verif.Props.Builder
import Verif.Props.Estimate
import Verif.Props.BuilderCalls
import Verif.Props.Curve
import Verif.Props.Keys
import Verif.Props.Ecdsa
import Verif.Props.TxEcdsa
import Verif.Props.Schnorr
import Verif.Props.HDKey
import Verif.Props.Bip39
import Verif.Props.Merkle
import Verif.Props.Rpc
import Verif.Props.Trace
import Verif.Props.TxText
import Verif.Props.Slices
import Verif.Props.SliceBuf
import Verif.Props.SliceCrypto
import Verif.Check.Vectors
import Verif.Check.Texts
import Verif.Check.Txs
import Verif.Check.Build
import Verif.Check.Engine
import Verif.Check.Crypto
import Verif.Model.Paillier
import Verif.Model.Mpc
import Verif.Spec.Paillier
import Verif.Proof.Paillier
import Verif.Proof.Mpc
import Verif.Props.Paillier
import Verif.Props.Mpc
import Verif.Props.Scriptless
import Verif.Props.MpcSchnorr
import Verif.Props.MpcLeak
import Verif.Props.SchnorrLeak
import Verif.Props.Protocol
import Verif.Props.MsgLayout
import Verif.Props.Stream
import Verif.Props.Assemble
import Verif.Props.Joint
import Verif.Props.Built
import Verif.Props.Wallet
import Verif.Props.Connection
import Verif.Props.Spend
import Verif.Props.Twice
import Verif.Props.Received
import Verif.Props.ReceivedWsh
import Verif.Model.Party
import Verif.Props.Party
import Verif.Model.PartyMem
import Verif.Props.PartyMem
import Verif.Model.TxMem
import Verif.Proof.TxMem
import Verif.Props.TxMem
import Verif.Model.ArgMem
import Verif.Proof.ArgMem
import Verif.Props.ArgMem
import Verif.Proof.VMSLock
import Verif.Props.Reused
import Verif.Model.TxObj
import Verif.Spec.TxObj
import Verif.Proof.TxObj
import Verif.Props.TxObj
import Verif.Props.RogueKey
import Verif.Props.Malleable
import Verif.Props.HDLeak
import Verif.Model.Rand
import Verif.Props.Rand
import Verif.Spec.Bitcoin
import Verif.Spec.Callbacks
import Verif.Proof.Bitcoin
import Verif.Proof.Bitcoin2
import Verif.Proof.Bitcoin3
import Verif.Proof.Bitcoin4
import Verif.Props.Bitcoin
import Verif.Props.Spendable
import Verif.Spec.Validity
import Verif.Proof.Validity
import Verif.Proof.Invalid
import Verif.Props.Validity
import Verif.Props.Invalid
import Verif.Proof.Classes
import Verif.Proof.Receives
import Verif.Props.Receives
import Verif.Props.Differ
import Verif.Proof.Policies
import Verif.Proof.Items
import Verif.Props.Policies
import Verif.Props.Quorum
import Verif.Props.OtherScripts
import Verif.Props.Mixed
import Verif.Props.Atomic
import Verif.Props.Unchecked
import Verif.Props.Edges
import Verif.Props.Policy
import Verif.Props.Paths
import Verif.Props.SchnorrZero
import Verif.Props.Amounts
import Verif.Model.Link
import Verif.Spec.Link
import Verif.Proof.Link
import Verif.Proof.LinkUnder
import Verif.Proof.LinkSend
import Verif.Props.Link
import Verif.Proof.LinkLive
import Verif.Props.LinkLive
import Verif.Props.SchnorrUnchecked
import Verif.Model.ScriptAddress
import Verif.Props.ScriptAddress
import Verif.Props.SchnorrUncheckedZero
import Verif.Props.OwnKey
import Verif.Spec.Standard
import Verif.Props.AnyRedeem
import Verif.Props.Htlc
import Verif.Props.MerkleLists
import Verif.Props.LockTime
import Verif.Props.Relay
import Verif.Props.NilAddress
import Verif.Props.Checked
import Verif.Props.Rate
