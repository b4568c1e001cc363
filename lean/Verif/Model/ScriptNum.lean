import Verif.Model.Big
/-
xvm/scriptnum.go. A `ScriptNum` is a Go int64, represented by an `Int` in the int64 range.
-/
namespace Toku.ScriptNum

/-- Error numbers of xvm/error.go:14-22. -/
def tooBig : Err := .num 1201
def notMinimal : Err := .num 1202

/-- xvm/scriptnum.go:35-73. `-n` is a Go int64 negation and wraps; the loop 48-51 runs only while the
value is positive, so for the least int64 it does not run and `result[len(result)-1]` panics. -/
def bytes (n : Int) : Res Bytes :=
  if n = 0 then .ok []
  else
    let neg := decide (n < 0)
    let absvalue := if neg then wrap64 (-n) else n
    let result : Bytes :=
      if absvalue > 0 then (digitsLE 256 absvalue.toNat absvalue.toNat).map UInt8.ofNat else []
    match result.getLast? with
    | none => .panic
    | some last =>
      if last &&& 0x80 > 0 then
        if neg then .ok (result ++ [0x80]) else .ok (result ++ [0x00])
      else if neg then .ok (result.dropLast ++ [last ||| 0x80])
      else .ok result

/-- xvm/scriptnum.go:76-84 -/
def int32 (n : Int) : Int := if n > 2147483647 then 2147483647 else if n < -2147483648 then -2147483648 else n

/-- xvm/scriptnum.go:88-110 -/
def checkMinimal (v : Bytes) : Res Unit :=
  if v.length = 0 then .ok ()
  else if v.getD (v.length - 1) 0 &&& 0x7f = 0 then
    if v.length = 1 ∨ v.getD (v.length - 2) 0 &&& 0x80 = 0 then .err notMinimal else .ok ()
  else .ok ()

/-- The loop xvm/scriptnum.go:131-134 on 64-bit words; the shift count is a `uint8`. -/
def decodeLoop : Nat → Bytes → BitVec 64 → BitVec 64
  | _, [], acc => acc
  | i, b :: bs, acc => decodeLoop (i + 1) bs (acc ||| ((b.toBitVec.setWidth 64) <<< (8 * i % 256)))

/-- xvm/scriptnum.go:113-142. -/
def make (v : Bytes) (maxLen : Nat) : Res Int :=
  if v.length > maxLen then .err tooBig
  else do
    checkMinimal v
    if v.length = 0 then .ok 0
    else
      let result := decodeLoop 0 v 0#64
      let last := v.getD (v.length - 1) 0
      if last &&& 0x80 > 0 then
        let masked := result &&& ~~~((0x80#64) <<< (8 * (v.length - 1) % 256))
        .ok ((-masked).toInt)
      else .ok result.toInt

end Toku.ScriptNum
