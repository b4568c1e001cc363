import Verif.Spec.Script
/-
The script rules of Bitcoin (EvalScript and VerifyScript of the reference implementation, interpreter.cpp; BIP16), for
the opcodes this library knows, as relations. What varies is in `Rules`.
-/
namespace Toku.Spec.Bitcoin
open Toku.Spec

/-- The top is first. -/
abbrev Stack := List Bytes

/-- Which rules are in force. -/
structure Rules where
  /-- Elements of at most 520 bytes, scripts of at most 10000, at most 201 opcodes above OP_16 (keys of CHECKMULTISIG
  count as well), at most 20 keys, at most 1000 elements. -/
  limits : Bool
  /-- Numbers taken from the stack have to be minimal (SCRIPT_VERIFY_MINIMALDATA). -/
  minimalNums : Bool
  /-- The argument of IF and NOTIF has to be empty or the byte 1 (SCRIPT_VERIFY_MINIMALIF). -/
  minimalIf : Bool
  /-- CHECKMULTISIG may come to an empty signature (which then does not match). -/
  emptySigs : Bool
  /-- OP_RETURN fails. -/
  returnFails : Bool
  /-- The element that CHECKMULTISIG takes in excess is empty (BIP147). -/
  nullDummy : Bool

/-- The rules of consensus for a legacy script. -/
def consensus : Rules := ⟨true, false, false, true, true, true⟩

/-- The rules that the engine of this library turns out to follow. -/
def library : Rules := ⟨false, true, true, false, false, false⟩

/-- Every rule of `R'` is in force in `R`. -/
def Stricter (R R' : Rules) : Prop :=
  (R'.limits = true → R.limits = true) ∧ (R'.minimalNums = true → R.minimalNums = true) ∧
  (R'.minimalIf = true → R.minimalIf = true) ∧ (R.emptySigs = true → R'.emptySigs = true) ∧
  (R'.returnFails = true → R.returnFails = true) ∧ (R'.nullDummy = true → R.nullDummy = true)

/-- A number: little-endian, the top bit is the sign. -/
def numValue (v : Bytes) : Int :=
  match v.getLast? with
  | none => 0
  | some l =>
    let m : Nat := leNat v.dropLast + 256 ^ (v.length - 1) * (l.toNat % 128)
    if l.toNat < 128 then m else -m

/-- No shorter string is the same number: the last byte has more than the sign, or it is needed since the one before has
its top bit set. -/
def NumMinimal (v : Bytes) : Prop :=
  v = [] ∨ ∃ i l, v = i ++ [l] ∧ (l.toNat % 128 ≠ 0 ∨ ∃ j s, i = j ++ [s] ∧ 128 ≤ s.toNat)

/-- The string `v` is accepted as the number `n`. -/
def NumIn (R : Rules) (v : Bytes) (n : Int) : Prop :=
  v.length ≤ 4 ∧ (R.minimalNums = true → NumMinimal v) ∧ numValue v = n

/-- The string `v` is pushed for the number `n`. -/
def NumOut (v : Bytes) (n : Int) : Prop := NumMinimal v ∧ numValue v = n

/-- CastToBool: some byte is not zero, other than a lone sign in the last. -/
def Truthy (v : Bytes) : Prop :=
  (∃ b ∈ v.dropLast, b ≠ 0) ∨ ∃ l, v.getLast? = some l ∧ l ≠ 0 ∧ l ≠ 0x80

/-- The element for true and false. -/
def ofBool (b : Bool) : Bytes := if b then [1] else []

/-- The checks of CHECKMULTISIG; the signatures and keys are in the order they leave the stack. `check` says for a signature
(with its hash type) and a key whether it is valid; `none` is a failure of the script. -/
inductive Multi (R : Rules) (check : Bytes → Bytes → Option Bool) : List Bytes → List Bytes → Bool → Prop
  | done (keys) : Multi R check [] keys true
  | few (sigs keys) : keys.length < sigs.length → Multi R check sigs keys false
  | hit (sig sigs key keys b) : (sig :: sigs).length ≤ (key :: keys).length → (R.emptySigs = false → sig ≠ []) →
      check sig key = some true → Multi R check sigs keys b → Multi R check (sig :: sigs) (key :: keys) b
  | miss (sig sigs key keys b) : (sig :: sigs).length ≤ (key :: keys).length → (R.emptySigs = false → sig ≠ []) →
      check sig key = some false → Multi R check (sig :: sigs) keys b → Multi R check (sig :: sigs) (key :: keys) b

/-- What an opcode other than a conditional does to the stack. The number is that of keys to be counted as opcodes. -/
inductive Op (R : Rules) (hash160 : Bytes → Bytes) (check : Bytes → Bytes → Option Bool) : Token → Stack → Stack → Nat → Prop
  | push (t s) : t.op.toNat ≤ 0x4e → Op R hash160 check t s (t.data :: s) 0
  | negate (d s) : Op R hash160 check ⟨0x4f, d⟩ s ([0x81] :: s) 0
  | num (t s) : 0x51 ≤ t.op.toNat → t.op.toNat ≤ 0x60 → Op R hash160 check t s ([UInt8.ofNat (t.op.toNat - 0x50)] :: s) 0
  | ret (d s) : R.returnFails = false → Op R hash160 check ⟨0x6a, d⟩ s s 0
  | dup2 (d a b s) : Op R hash160 check ⟨0x6e, d⟩ (a :: b :: s) (a :: b :: a :: b :: s) 0
  | dup3 (d a b c s) : Op R hash160 check ⟨0x6f, d⟩ (a :: b :: c :: s) (a :: b :: c :: a :: b :: c :: s) 0
  | drop (d a s) : Op R hash160 check ⟨0x75, d⟩ (a :: s) s 0
  | dup (d a s) : Op R hash160 check ⟨0x76, d⟩ (a :: s) (a :: a :: s) 0
  | swap (d a b s) : Op R hash160 check ⟨0x7c, d⟩ (a :: b :: s) (b :: a :: s) 0
  | size (d a s r) : NumOut r a.length → Op R hash160 check ⟨0x82, d⟩ (a :: s) (r :: a :: s) 0
  | equal (d a b s) : Op R hash160 check ⟨0x87, d⟩ (a :: b :: s) (ofBool (decide (a = b)) :: s) 0
  | equalVerify (d a s) : Op R hash160 check ⟨0x88, d⟩ (a :: a :: s) s 0
  | add (d a b s m n r) : NumIn R a m → NumIn R b n → NumOut r (m + n) → Op R hash160 check ⟨0x93, d⟩ (a :: b :: s) (r :: s) 0
  | hash (d a s) : Op R hash160 check ⟨0xa9, d⟩ (a :: s) (hash160 a :: s) 0
  | checkSig (d key sig s b) : check sig key = some b → Op R hash160 check ⟨0xac, d⟩ (key :: sig :: s) (ofBool b :: s) 0
  | checkSigVerify (d key sig s) : check sig key = some true → Op R hash160 check ⟨0xad, d⟩ (key :: sig :: s) s 0
  | multi (d x keys y sigs dummy s b) : NumIn R x keys.length → NumIn R y sigs.length → sigs.length ≤ keys.length →
      (R.limits = true → keys.length ≤ 20) → (R.nullDummy = true → dummy = []) → Multi R check sigs keys b →
      Op R hash160 check ⟨0xae, d⟩ (x :: (keys ++ y :: (sigs ++ dummy :: s))) (ofBool b :: s) keys.length
  | multiVerify (d x keys y sigs dummy s) : NumIn R x keys.length → NumIn R y sigs.length → sigs.length ≤ keys.length →
      (R.limits = true → keys.length ≤ 20) → (R.nullDummy = true → dummy = []) → Multi R check sigs keys true →
      Op R hash160 check ⟨0xaf, d⟩ (x :: (keys ++ y :: (sigs ++ dummy :: s))) s keys.length

/-- The state: stack, for every open conditional whether its current branch is selected (innermost first), opcodes so far. -/
structure State where
  stack : Stack
  exec : List Bool
  ops : Nat

/-- An opcode for conditionals. -/
def isCond (op : UInt8) : Prop := op = 0x63 ∨ op = 0x64 ∨ op = 0x67 ∨ op = 0x68

instance : DecidablePred isCond := fun _ => by unfold isCond; infer_instance

/-- One token, the limits apart. Opcodes other than those for conditionals are executed if all open branches are selected.
-/
inductive Act (R : Rules) (hash160 : Bytes → Bytes) (check : Bytes → Bytes → Option Bool) :
    Token → Stack → List Bool → Stack → List Bool → Nat → Prop
  | run (t s s' e k) : ¬ isCond t.op → (∀ b ∈ e, b = true) → Op R hash160 check t s s' k → Act R hash160 check t s e s' e k
  | skip (t s e) : ¬ isCond t.op → (∃ b ∈ e, b = false) → Act R hash160 check t s e s e 0
  | ifTrue (d a s e) : (∀ b ∈ e, b = true) → (R.minimalIf = true → a = [] ∨ a = [1]) → Truthy a →
      Act R hash160 check ⟨0x63, d⟩ (a :: s) e s (true :: e) 0
  | ifFalse (d a s e) : (∀ b ∈ e, b = true) → (R.minimalIf = true → a = [] ∨ a = [1]) → ¬ Truthy a →
      Act R hash160 check ⟨0x63, d⟩ (a :: s) e s (false :: e) 0
  | notifTrue (d a s e) : (∀ b ∈ e, b = true) → (R.minimalIf = true → a = [] ∨ a = [1]) → Truthy a →
      Act R hash160 check ⟨0x64, d⟩ (a :: s) e s (false :: e) 0
  | notifFalse (d a s e) : (∀ b ∈ e, b = true) → (R.minimalIf = true → a = [] ∨ a = [1]) → ¬ Truthy a →
      Act R hash160 check ⟨0x64, d⟩ (a :: s) e s (true :: e) 0
  | ifSkipped (t s e) : t.op = 0x63 ∨ t.op = 0x64 → (∃ b ∈ e, b = false) → Act R hash160 check t s e s (false :: e) 0
  | els (d s b e) : Act R hash160 check ⟨0x67, d⟩ s (b :: e) s ((!b) :: e) 0
  | endif (d s b e) : Act R hash160 check ⟨0x68, d⟩ s (b :: e) s e 0

/-- A list of tokens. -/
inductive Eval (R : Rules) (hash160 : Bytes → Bytes) (check : Bytes → Bytes → Option Bool) : List Token → State → State → Prop
  | nil (st) : Eval R hash160 check [] st st
  | cons (t ts s e n s' e' k st) : Act R hash160 check t s e s' e' k →
      (R.limits = true → t.data.length ≤ 520 ∧ s'.length ≤ 1000 ∧ n + (if 0x60 < t.op.toNat then 1 else 0) + k ≤ 201) →
      Eval R hash160 check ts ⟨s', e', n + (if 0x60 < t.op.toNat then 1 else 0) + k⟩ st →
      Eval R hash160 check (t :: ts) ⟨s, e, n⟩ st

/-- EvalScript: the script takes the stack `s` to `s'`, and all conditionals are closed at its end. -/
def EvalScript (R : Rules) (hash160 : Bytes → Bytes) (check : Bytes → Bytes → Option Bool) (ts : List Token) (s s' : Stack) : Prop :=
  (R.limits = true → (encTokens ts).length ≤ 10000) ∧ ∃ n, Eval R hash160 check ts ⟨s, [], 0⟩ ⟨s', [], n⟩

/-- HASH160, a push of twenty bytes, EQUAL. -/
def IsP2SH (ts : List Token) : Prop := ∃ h : Bytes, h.length = 20 ∧ ts = [⟨0xa9, []⟩, ⟨0x14, h⟩, ⟨0x87, []⟩]

/-- VerifyScript with P2SH, without witnesses: the unlocking script runs, then the locking script on its stack, and a true
element is on top. If the locking script is P2SH the unlocking script only pushes, and the last thing it pushed is a script
that takes the rest to a stack with a true element on top. -/
def VerifyScript (R : Rules) (hash160 : Bytes → Bytes) (check : Bytes → Bytes → Option Bool) (u l : List Token) : Prop :=
  ∃ s1 x s2, EvalScript R hash160 check u [] s1 ∧ EvalScript R hash160 check l s1 (x :: s2) ∧ Truthy x ∧
    (IsP2SH l → (∀ t ∈ u, t.op.toNat ≤ 0x60) ∧ ∃ rts s3 y s4, (∀ t ∈ rts, t.Valid) ∧ s1 = encTokens rts :: s3 ∧
      EvalScript R hash160 check rts s3 (y :: s4) ∧ Truthy y)

/-- A witness program of version 0 with 32 bytes (BIP141): the last item is a script with that SHA-256, and it takes the other
items (the last on top) to a single true element. -/
def VerifyP2WSH (R : Rules) (hash160 sha256 : Bytes → Bytes) (check : Bytes → Bytes → Option Bool) (program : Bytes) (witness : List Bytes) :
    Prop :=
  ∃ items rts x, (∀ t ∈ rts, t.Valid) ∧ witness = items ++ [encTokens rts] ∧ sha256 (encTokens rts) = program ∧
    (R.limits = true → ∀ i ∈ items, i.length ≤ 520) ∧ EvalScript R hash160 check rts items.reverse [x] ∧ Truthy x

/-- A witness program of version 0 with 20 bytes: a signature and a key, for which the script DUP HASH160 program EQUALVERIFY CHECKSIG
leaves a single true element. -/
def VerifyP2WPKH (R : Rules) (hash160 : Bytes → Bytes) (check : Bytes → Bytes → Option Bool) (program : Bytes) (witness : List Bytes) :
    Prop :=
  ∃ sig key x, witness = [sig, key] ∧ (R.limits = true → sig.length ≤ 520 ∧ key.length ≤ 520) ∧
    EvalScript R hash160 check [⟨0x76, []⟩, ⟨0xa9, []⟩, ⟨0x14, program⟩, ⟨0x88, []⟩, ⟨0xac, []⟩] [key, sig] [x] ∧ Truthy x

end Toku.Spec.Bitcoin
