/-
Basic vocabulary of the model: byte strings, results of Go functions, 64-bit `int`.
-/
namespace Toku

/-- A Go `[]byte` (or a Go `string`, which is a sequence of bytes). -/
abbrev Bytes := List UInt8

/-- Error values. `num` carries the error number of the tables in xcore/error.go:14-38 and
xvm/error.go:14-24; the other constructors stand for the unnumbered `fmt.Errorf`/`errors.New` values
of the package named. Error texts are not modelled. -/
inductive Err where
  | num (n : Nat)
  | bufferShort          -- xbase/buffer.go:34
  | base58Checksum       -- xbase/base58.go:120
  | base58Format         -- xbase/base58.go:123
  | bech32Length         -- xbase/bech32.go:24
  | bech32Char           -- xbase/bech32.go:29
  | bech32Case           -- xbase/bech32.go:37
  | bech32Sep            -- xbase/bech32.go:49
  | bech32Charset        -- xbase/bech32.go:59
  | bech32Checksum       -- xbase/bech32.go:70
  | bech32Data           -- xbase/bech32.go:89
  | convertPadding       -- xbase/witness.go:56
  | convertNonZero       -- xbase/witness.go:59
  | hex                  -- encoding/hex errors
  | other (n : Nat)      -- any other unnumbered error, told apart by a local tag
  deriving DecidableEq, Repr

/-- Outcome of a Go function: a value, an error value, or a run-time panic. -/
inductive Res (α : Type) where
  | ok (a : α)
  | err (e : Err)
  | panic
  deriving DecidableEq, Repr

namespace Res

def bind {α β : Type} : Res α → (α → Res β) → Res β
  | ok a, f => f a
  | err e, _ => err e
  | panic, _ => panic

instance : Monad Res where
  pure := ok
  bind := bind

@[simp] theorem pure_eq {α : Type} (a : α) : (pure a : Res α) = ok a := (rfl)
@[simp] theorem ok_bind {α β : Type} (a : α) (f : α → Res β) : (ok a >>= f) = f a := (rfl)
@[simp] theorem err_bind {α β : Type} (e : Err) (f : α → Res β) : ((err e : Res α) >>= f) = err e := (rfl)
@[simp] theorem panic_bind {α β : Type} (f : α → Res β) : ((panic : Res α) >>= f) = panic := (rfl)

/-- The call returned a value. -/
def isOk {α : Type} : Res α → Bool
  | ok _ => true
  | _ => false

/-- The call panicked. -/
def isPanic {α : Type} : Res α → Bool
  | panic => true
  | _ => false

@[simp] theorem isOk_ok {α : Type} (a : α) : (ok a).isOk = true := rfl
@[simp] theorem isOk_err {α : Type} (e : Err) : (err e : Res α).isOk = false := rfl
@[simp] theorem isOk_panic {α : Type} : (panic : Res α).isOk = false := rfl
@[simp] theorem isPanic_ok {α : Type} (a : α) : (ok a).isPanic = false := rfl
@[simp] theorem isPanic_err {α : Type} (e : Err) : (err e : Res α).isPanic = false := rfl
@[simp] theorem isPanic_panic {α : Type} : (panic : Res α).isPanic = true := rfl

theorem bind_eq_ok {α β : Type} {x : Res α} {f : α → Res β} {b : β} :
    (x >>= f) = ok b ↔ ∃ a, x = ok a ∧ f a = ok b := by
  cases x <;> simp

theorem bind_eq_panic {α β : Type} {x : Res α} {f : α → Res β} :
    (x >>= f) = panic ↔ x = panic ∨ ∃ a, x = ok a ∧ f a = panic := by
  cases x <;> simp

/-- Go indexing: an index out of range is a panic. -/
def ofIdx {α : Type} : Option α → Res α
  | some a => ok a
  | none => panic

end Res

/-- Reduction of an integer to Go's 64-bit two's complement `int`. -/
def wrap64 (x : Int) : Int := (x + 2^63) % 2^64 - 2^63

theorem wrap64_of_range {x : Int} (h1 : -2^63 ≤ x) (h2 : x < 2^63) : wrap64 x = x := by
  unfold wrap64; omega

/-- Go conversion `int(v)` for a `uint64`. -/
def intOfU64 (v : UInt64) : Int := wrap64 v.toNat

end Toku
