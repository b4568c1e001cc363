import Verif.Model.Hash
/-
Merkle trees as Bitcoin defines them, and what is hashed when a proof is checked.
-/
namespace Toku.Spec

/-- The next row: neighbours are hashed together, the last of an odd row with itself. -/
def pairUp (H : Bytes → Bytes) : List Bytes → List Bytes
  | [] => []
  | [a] => [H (a ++ a)]
  | a :: b :: r => H (a ++ b) :: pairUp H r

/-- The root: rows are made until one hash is left. -/
inductive MerkleRoot (H : Bytes → Bytes) : List Bytes → Bytes → Prop
  | one {a : Bytes} : MerkleRoot H [a] a
  | row {l : List Bytes} {r : Bytes} : 2 ≤ l.length → MerkleRoot H (pairUp H l) r → MerkleRoot H l r

/-- A proof as it is meant: for every row, from the leaves up, the other hash, and whether it is on the left. -/
abbrev Branch := List (Bool × Bytes)

/-- What is hashed when the branch is followed from a leaf, from the leaves up. -/
def hashed (H : Bytes → Bytes) : Bytes → Branch → List Bytes
  | _, [] => []
  | h, (left, s) :: branch =>
    let x := if left then s ++ h else h ++ s
    x :: hashed H (H x) branch

/-- The hash at the end of a branch. -/
def top (H : Bytes → Bytes) : Bytes → Branch → Bytes
  | h, [] => h
  | h, (left, s) :: branch => top H (H (if left then s ++ h else h ++ s)) branch

/-- On which side the neighbour is, in every one of `d` rows, of the leaf with this number. -/
def sides (d index : Nat) : List Bool := (List.range d).map (fun i => index.testBit i)

/-- Two different inputs with the same hash at the same place of two lists of inputs. -/
def Collision (H : Bytes → Bytes) (xs ys : List Bytes) : Prop :=
  ∃ (i : Nat) (x y : Bytes), xs[i]? = some x ∧ ys[i]? = some y ∧ x ≠ y ∧ H x = H y

/-- What is hashed to make the next row of a row of at least two. -/
def rowInputs : List Bytes → List Bytes
  | [] => []
  | [a] => [a ++ a]
  | a :: b :: r => (a ++ b) :: rowInputs r

/-- What is hashed in the first `d` rows of the computation of a root. -/
def rootInputs (H : Bytes → Bytes) : Nat → List Bytes → List Bytes
  | 0, _ => []
  | d + 1, row => rowInputs row ++ rootInputs H d (pairUp H row)

end Toku.Spec
