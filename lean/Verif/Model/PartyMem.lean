import Verif.Model.Party
import Verif.Model.Slices
/-
The parties of xcrypto/mpc_ecdsa.go, xcrypto/scriptless_ecdsa.go and xcrypto/mpc_schnorr.go with the memory of the hash:
`party.hash = hash` (mpc_ecdsa.go:68, mpc_schnorr.go:57) keeps the caller's slice and Phase4 reads it (mpc_ecdsa.go:117,
mpc_schnorr.go:83), so what it reads is what is in the caller's memory then. Numbers (`*big.Int`) and points stay values.
-/
namespace Toku.Mpc
open Toku.Slices

/-- The memory, the party (its field `hash` has no meaning here) and the slice it holds. -/
structure Shared (σ : Type) where
  heap : Heap UInt8
  obj : σ
  loc : Slice

/-- A store of the caller's program: one byte of one array; outside the array nothing (Go panics before). -/
def store (h : Heap UInt8) (arr pos : Nat) (b : UInt8) : Heap UInt8 := h.set arr ((h.getD arr []).set pos b)

/-- What can happen: phase 2 of a party or Alice, or of Bob, with a slice; another method; a store by the caller. -/
inductive Ev where
  | start (bob : Bool) (fuel : ℕ) (primes : Option (ℕ × ℕ)) (rnd : Option ℕ) (hash : Slice)
  | call (c : { c : Call // (match c with | .phase2 .. => false | .bob2 .. => false | _ => true) = true })
  | store (arr pos : Nat) (b : UInt8)

/-- The party as the methods see it: the hash is what is in the memory. -/
def Shared.view (w : Shared Obj) : Obj := { w.obj with hash := elems w.heap w.loc }

/-- One event; `none` for a store. Phase 2 on a closed party panics before it keeps the slice (xcrypto/mpc_ecdsa.go:64-68). The
methods write to none of the caller's arrays: for the nonce function see C106. -/
def Shared.step [Hashes] (w : Shared Obj) : Ev → Shared Obj × Option (Res Out)
  | .start bob fuel primes rnd hash =>
    let c := if bob then Call.bob2 fuel primes rnd (elems w.heap hash) else .phase2 fuel primes rnd (elems w.heap hash)
    (⟨w.heap, (w.view.step c).1, if w.obj.prv = none then w.loc else hash⟩, some (w.view.step c).2)
  | .call c => (⟨w.heap, (w.view.step c.1).1, w.loc⟩, some (w.view.step c.1).2)
  | .store arr pos b => (⟨Mpc.store w.heap arr pos b, w.obj, w.loc⟩, none)

def Shared.run [Hashes] (w : Shared Obj) (es : List Ev) : Shared Obj := es.foldl (fun w e => (w.step e).1) w

/-- What the methods return, in order. -/
def Shared.results [Hashes] (w : Shared Obj) : List Ev → List (Res Out)
  | [] => []
  | e :: es => (w.step e).2.toList ++ (w.step e).1.results es

/-! ### Schnorr -/

inductive SEv where
  | start (hash : Slice)
  | call (c : { c : SCall // (match c with | .phase2 .. => false | _ => true) = true })
  | store (arr pos : Nat) (b : UInt8)

def Shared.sview (w : Shared SObj) : SObj := { w.obj with hash := elems w.heap w.loc }

/-- One event. xcrypto/mpc_schnorr.go:50-57: a closed party panics before it keeps the slice; so does one whose key has
more than 32 bytes. -/
def Shared.sstep [Hashes] (w : Shared SObj) : SEv → Shared SObj × Option (Res SOut)
  | .start hash =>
    let r := w.sview.step (.phase2 (elems w.heap hash))
    let kept := match w.obj.prv with
      | none => w.loc
      | some prv => match Schnorr.intToByte prv.d with
        | .ok _ => hash
        | _ => w.loc
    (⟨w.heap, r.1, kept⟩, some r.2)
  | .call c => (⟨w.heap, (w.sview.step c.1).1, w.loc⟩, some (w.sview.step c.1).2)
  | .store arr pos b => (⟨Mpc.store w.heap arr pos b, w.obj, w.loc⟩, none)

def Shared.srun [Hashes] (w : Shared SObj) (es : List SEv) : Shared SObj := es.foldl (fun w e => (w.sstep e).1) w

def Shared.sresults [Hashes] (w : Shared SObj) : List SEv → List (Res SOut)
  | [] => []
  | e :: es => (w.sstep e).2.toList ++ (w.sstep e).1.sresults es

end Toku.Mpc
