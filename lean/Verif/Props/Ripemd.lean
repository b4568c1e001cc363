import Verif.Proof.Ripemd
/-
C73, C83: RIPEMD-160.
-/
namespace Toku.Props
open Toku.Ripemd

/-- **C73.** Writing a message in any sequence of chunks gives the digest of the whole message. -/
theorem C73_chunks (chunks : List Bytes) : sum (chunks.foldl write new) = ripemd160 chunks.flatten := by
  have h1 := (sum_holds (holds_fold chunks holds_new)).1
  have h2 := (sum_holds (holds_write holds_new chunks.flatten)).1
  rw [List.nil_append] at h1 h2
  rw [ripemd160, h1, h2]

/-- A use of a digest: write some bytes, ask for the digest, or start again. -/
inductive HashOp where
  | write (p : Bytes)
  | sum
  | reset

/-- What a sequence of calls returns, on the model of the Go object. -/
def runOps : Digest → List HashOp → List (Res Bytes)
  | _, [] => []
  | d, .write p :: ops => runOps (write d p) ops
  | d, .sum :: ops => sum d :: runOps d ops
  | d, .reset :: ops => runOps (reset d) ops

/-- What it should return: the digest of the bytes written since the last reset. -/
def specOps : Bytes → List HashOp → List (Res Bytes)
  | _, [] => []
  | m, .write p :: ops => specOps (m ++ p) ops
  | m, .sum :: ops => ripemd160 m :: specOps m ops
  | _, .reset :: ops => specOps [] ops

theorem runOps_eq (ops : List HashOp) : ∀ (d : Digest) (m : Bytes), Holds d m → runOps d ops = specOps m ops := by
  induction ops with
  | nil => intros; rfl
  | cons op ops ih =>
    intro d m h
    cases op with
    | write p => exact ih _ _ (holds_write h p)
    | sum =>
      have h2 := (sum_holds (holds_write holds_new m)).1
      rw [List.nil_append] at h2
      rw [runOps, specOps, ih d m h, (sum_holds h).1, ripemd160, h2]
    | reset => exact ih _ _ (holds_reset h)

/-- **C73.** In every interleaving of writes, digests and resets, each digest returned is the digest of
the bytes written since the last reset: computing a digest does not disturb later writes. -/
theorem C73_interleaved (ops : List HashOp) : runOps new ops = specOps [] ops := runOps_eq ops new [] holds_new

/-- **C73.** The consistency panic (`d.nx != 0`) is unreachable, after any sequence of writes. -/
theorem C73_no_panic (chunks : List Bytes) : sum (chunks.foldl write new) ≠ .panic := by
  rw [(sum_holds (holds_fold chunks holds_new)).1]
  intro h; cases h

/-- **C83.** The code computes RIPEMD-160 as published (padding, Boolean functions, constants from square
and cube roots, word order from the permutations rho and pi, shift table), for messages of every length;
the digest has 20 bytes. -/
theorem C83_published (m : Bytes) :
    ripemd160 m = .ok (Spec.Ripemd.ripemd160 m) ∧ (Spec.Ripemd.ripemd160 m).length = 20 := by
  have h := (sum_holds (holds_write holds_new m)).1
  rw [List.nil_append] at h
  exact ⟨h, spec_length m⟩

/-- **C83.** HASH160 is RIPEMD-160 of SHA-256. -/
theorem C83_hash160 [Hashes] (x : Bytes) : hash160 x = Spec.Ripemd.ripemd160 (Hashes.sha256 x) := hash160_eq x

/-- The published test vector for "abc". -/
example : ripemd160 [0x61, 0x62, 0x63] = .ok [0x8e, 0xb2, 0x08, 0xf7, 0xe0, 0x5d, 0x98, 0x7a, 0x9b, 0x04, 0x4a,
    0x8e, 0x98, 0xc6, 0xb0, 0x87, 0xf1, 0x5a, 0x0b, 0xfc] := by decide +kernel
example : runOps new [.write [0x61], .sum, .write [0x62, 0x63], .sum] =
    [ripemd160 [0x61], ripemd160 [0x61, 0x62, 0x63]] := C73_interleaved _

end Toku.Props
