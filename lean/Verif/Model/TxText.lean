import Verif.Model.Tx
import Verif.Model.Assemble
import Mathlib.Data.Nat.Digits.Defs
/-
xcore/transaction.go:817-874: the text of a transaction.

Parameters stand for what is not modelled: the texts of errors (xvm/scriptreader.go:121-124 returns the text of the error for a
script that does not parse), the two numbers printed with `%.2f`, and the `SignatureHash` of each input, a field that the code
writes when it signs or verifies and nothing but this text reads.
-/
namespace Toku.TxText
open Toku.Tx

structure Texts where
  /-- text of an error -/
  err : Err → Bytes
  /-- `%.2f` of fees over size -/
  feesPerByte : Int → Nat → Bytes
  /-- `%.2f` of witness size over size, times 100 -/
  saving : Nat → Nat → Bytes

/-- `%d` of a number that is not negative. -/
def dec (n : Nat) : Bytes := if n = 0 then [0x30] else (Nat.digits 10 n).reverse.map fun d => UInt8.ofNat (0x30 + d)

/-- `%v` of an `int`. -/
def decInt (i : Int) : Bytes := if i < 0 then 0x2d :: dec i.natAbs else dec i.natAbs

/-- xvm/scriptreader.go:119-133 with the text of the error. -/
def scriptText (T : Texts) (script : Bytes) : Res Bytes :=
  match Assemble.disasm script with
  | .ok t => .ok t
  | .err e => .ok (T.err e)
  | .panic => .panic

/-- A line with a key and a value in quotes, or not in quotes. -/
def quoted (key : String) (v : Bytes) (last : String) : Bytes := ascii key.toList ++ v ++ ascii last.toList

/-- xcore/transaction.go:831-834 -/
def redeemLines (T : Texts) : Option Bytes → Res (List Bytes)
  | none => .ok []
  | some r => do
    let t ← scriptText T r
    return [quoted "      \"redeemscript\":\t\"" t "\",", quoted "      \"redeemhex\":\t\"" (Id.hexEncode r) "\","]

/-- xcore/transaction.go:837-840: `in.Witness[0]` panics when there is no witness. -/
def witnessLines (i : TxIn) : Res (List Bytes) :=
  match i.witnessScriptCode with
  | none => .ok []
  | some c => do
    let w ← Res.ofIdx i.witness[0]?
    return [quoted "      \"witness\":\t\"" (Id.hexEncode w) "\",", quoted "      \"scriptcode\":\t\"" (Id.hexEncode c) "\""]

/-- xcore/transaction.go:841-845 and 854-858 -/
def close (last : Bool) : Bytes := if last then ascii "    }".toList else ascii "    },".toList

/-- xcore/transaction.go:823-845 -/
def inputLines (T : Texts) (sighash : Bytes) (i : TxIn) (last : Bool) : Res (List Bytes) := do
  let raw ← scriptText T i.rawLockingScript
  let final ← scriptText T i.finalLockingScript
  let unlocking ← scriptText T i.rawUnlockingScript
  let redeem ← redeemLines T i.redeemScript
  let script ← scriptText T i.rawUnlockingScript
  let witness ← witnessLines i
  return [ascii "    {".toList,
      quoted "      \"hash\":\t\"" (Id.toString i.hash) "\",",
      quoted "      \"n\":\t" (dec i.index.toNat) ",",
      quoted "      \"Value\":\t" (dec i.value.toNat) ",",
      quoted "      \"rawlocking\":\t\"" raw "\",",
      quoted "      \"finallocking\":\t\"" final "\",",
      quoted "      \"rawunlocking\":\t\"" unlocking "\","] ++ redeem ++
    [quoted "      \"script\":\t\"" script "\",",
      quoted "      \"sighash\":\t\"" (Id.hexEncode sighash) "\","] ++ witness ++ [close last]

/-- xcore/transaction.go:822-846. `sighash` gives the field `SignatureHash` of the input at an index. -/
def inputsLines (T : Texts) (sighash : Nat → Bytes) : Nat → List TxIn → Res (List Bytes)
  | _, [] => .ok []
  | k, i :: rest => do
    let l ← inputLines T (sighash k) i rest.isEmpty
    let ls ← inputsLines T sighash (k + 1) rest
    return l ++ ls

/-- xcore/transaction.go:850-858 -/
def outputsLines (T : Texts) : List TxOut → Res (List Bytes)
  | [] => .ok []
  | o :: rest => do
    let t ← scriptText T o.script
    let ls ← outputsLines T rest
    return [ascii "    {".toList, quoted "      \"value\":\t" (dec o.value.toNat) ",",
      quoted "      \"script\":\t\"" t "\"", close rest.isEmpty] ++ ls

/-- xcore/transaction.go:861-871 -/
def sizeLines (T : Texts) (tx : Transaction) : List Bytes :=
  [quoted "  \"basesize\":\t" (dec (baseSize tx)) ",",
    quoted "  \"witsize\":\t" (dec (witnessSize tx)) ",",
    quoted "  \"vsize\":\t" (dec (vsize tx)) ",",
    quoted "  \"size\":\t" (dec (size tx)) ",",
    quoted "  \"weight\":\t" (dec (weight tx)) ",",
    quoted "  \"fees\":\t" (decInt (fees tx)) " sat,",
    quoted "  \"feesperb\":\t" (T.feesPerByte (fees tx) (size tx)) " sat/B,",
    quoted "  \"saving\":\t" (T.saving (witnessSize tx) (size tx)) " %"]

/-- `strings.Join(lines, "\n")` -/
def join : List Bytes → Bytes
  | [] => []
  | [w] => w
  | w :: ws => w ++ 0x0a :: join ws

/-- xcore/transaction.go:817-874 -/
def toString (T : Texts) (sighash : Nat → Bytes) (tx : Transaction) : Res Bytes := do
  let ins ← inputsLines T sighash 0 tx.inputs
  let outs ← outputsLines T tx.outputs
  return join ([ascii "\n{".toList, ascii "  \"inputs\":[".toList] ++ ins ++
    [ascii "  ],".toList, ascii "  \"outputs\":[".toList] ++ outs ++ [ascii "  ],".toList] ++ sizeLines T tx ++
    [ascii "}\n".toList])

end Toku.TxText
