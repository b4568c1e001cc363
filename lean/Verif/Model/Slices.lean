import Verif.Model.VM
/-
Slices that share memory: what the lists of the other models leave out. Used for xvm/stack.go (the stack is a slice of byte
slices, changed in place) and for `append(unlocking, locking...)` in xvm/engine.go:98.

A heap is a list of arrays; a slice names an array, an offset and a length. Its capacity reaches to the end of the array: slices
with a capacity cut by `a[i:j:k]` do not occur in the code. Arrays are never freed.
-/
namespace Toku.Slices

abbrev Heap (α : Type) := List (List α)

structure Slice where
  arr : Nat
  off : Nat
  len : Nat
  deriving DecidableEq, Repr

variable {α : Type}

def array (h : Heap α) (s : Slice) : List α := h.getD s.arr []

/-- The elements of a slice. -/
def elems (h : Heap α) (s : Slice) : List α := ((array h s).drop s.off).take s.len

/-- `cap(s)` -/
def capacity (h : Heap α) (s : Slice) : Nat := (array h s).length - s.off

/-- A slice of an array on the heap, within its bounds. -/
def Ok (h : Heap α) (s : Slice) : Prop := s.arr < h.length ∧ s.off + s.len ≤ (array h s).length

/-- The array with `xs` written from position `i`. -/
def writeAt (a : List α) (i : Nat) (xs : List α) : List α := a.take i ++ xs ++ a.drop (i + xs.length)

/-- Go's `append(s, xs...)` with the elements `xs` read before anything is written (the runtime moves memory so that overlaps do
not matter): in place when the capacity is enough, else in a new array. `extra` is the spare capacity the runtime gives to the
new array, which depends on the Go version. -/
def append (extra : List α) (h : Heap α) (s : Slice) (xs : List α) : Heap α × Slice :=
  if s.len + xs.length ≤ capacity h s then
    (h.set s.arr (writeAt (array h s) (s.off + s.len) xs), { s with len := s.len + xs.length })
  else (h ++ [elems h s ++ xs ++ extra], ⟨h.length, 0, s.len + xs.length⟩)

/-! ### xvm/stack.go -/

/-- NewStack, xvm/stack.go:42-47: `make([][]byte, 0)` -/
def newStack (h : Heap α) : Heap α × Slice := (h ++ [[]], ⟨h.length, 0, 0⟩)

/-- PushByteArray, xvm/stack.go:56-58 -/
def push (extra : List α) (h : Heap α) (s : Slice) (x : α) : Heap α × Slice := append extra h s [x]

/-- nipN, xvm/stack.go:113-127, for an index that is not negative. -/
def nipN (extra : List α) (h : Heap α) (s : Slice) (idx : Nat) : Res (α × Heap α × Slice) :=
  if s.len < idx + 1 then .err VM.errIndex
  else
    let pos := s.len - idx - 1
    match (elems h s)[pos]? with
    | none => .panic
    | some x =>
      let r := append extra h { s with len := pos } (elems h ⟨s.arr, s.off + (pos + 1), s.len - (pos + 1)⟩)
      .ok (x, r.1, r.2)

/-- PeekByteArray, xvm/stack.go:101-108, for an index that is not negative. -/
def peek (h : Heap α) (s : Slice) (idx : Nat) : Res α :=
  if s.len < idx + 1 then .err VM.errIndex else Res.ofIdx (elems h s)[s.len - idx - 1]?

/-- Copy, xvm/stack.go:207-211 -/
def copy (extra : List α) (h : Heap α) (s : Slice) : Heap α × Slice :=
  let c := newStack h
  append extra c.1 c.2 (elems c.1 s)

/-- Clean, xvm/stack.go:214-216 -/
def clean (s : Slice) : Slice := { s with len := 0 }

/-- What the engine does to a stack, all of it by these four: the other methods of xvm/stack.go call them. -/
inductive Op (α : Type) where
  | push (x : α)
  | nip (idx : Nat)
  | peek (idx : Nat)
  | clean

/-- One operation; an operation that returns an error leaves the stack. `extra` as in `append`. -/
def step (extra : List α) (h : Heap α) (s : Slice) : Op α → Heap α × Slice
  | .push x => push extra h s x
  | .nip idx =>
    match nipN extra h s idx with
    | .ok (_, r) => r
    | _ => (h, s)
  | .peek _ => (h, s)
  | .clean => (h, clean s)

/-- Operations one after another, each with the spare capacity it gets. -/
def run (h : Heap α) (s : Slice) : List (List α × Op α) → Heap α × Slice
  | [] => (h, s)
  | o :: os =>
    let r := step o.1 h s o.2
    run r.1 r.2 os

/-! ### xvm/engine.go -/

/-- Verify, xvm/engine.go:89-113, with the scripts as slices: the verdict and the heap afterwards. The byte slices on the
stack are copies (xbase/buffer.go:215-216), so the engine itself runs on values as in Model/VM.lean; only the `append` at line
98 writes to memory that the caller can see. -/
def verify (env : VM.Env) (extra : Bytes) (h : Heap UInt8) (unlocking locking : Slice) (vm : VM.State) : Res VM.State × Heap UInt8 :=
  match VM.execute env (elems h unlocking) false vm with
  | .ok vm =>
    let copyStk := vm.dstack
    let (h, script) := append extra h unlocking (elems h locking)
    (do
      let vm ← VM.execute env (elems h script) true (VM.reset vm)
      if vm.dstack.length > 1 then do
        let (redeem, s) ← VM.pop copyStk
        VM.execute env redeem true { vm with dstack := s }
      else .ok vm, h)
  | .err e => (.err e, h)
  | .panic => (.panic, h)

end Toku.Slices
