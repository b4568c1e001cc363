import Verif.Spec.Bytes
/-
When Bitcoin lets a transaction into a block (IsFinalTx of the reference client). Stated on the lock time and the
sequence numbers alone.
-/
namespace Toku.Spec

/-- The transaction may be put into the block of the given height and time: no lock time, a lock time in the past (below
500000000 it is a height, from there on a time), or every sequence number at its maximum, which switches the lock time off. -/
def FinalAt (lockTime : UInt32) (sequences : List UInt32) (height time : Nat) : Prop :=
  lockTime = 0 ∨ lockTime.toNat < (if lockTime.toNat < 500000000 then height else time) ∨ ∀ s ∈ sequences, s = 0xffffffff

/-- The lock time does what it is for: the transaction waits for it. -/
def Waits (lockTime : UInt32) (sequences : List UInt32) : Prop :=
  ∀ height time, FinalAt lockTime sequences height time →
    lockTime.toNat < (if lockTime.toNat < 500000000 then height else time)

end Toku.Spec
