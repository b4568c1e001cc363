import Verif.Model.Hash
/-
xcrypto/merkle.go. A hash is a slice that may be nil: `Option Bytes`.
-/
namespace Toku.Merkle

/-- xcrypto/merkle.go:14-17: the position of a node, which is a string in the code; `other` stands for every other
string. -/
inductive Position where
  | left
  | right
  | other
  deriving DecidableEq, Repr

/-- xcrypto/merkle.go:20-24 -/
structure Node where
  hash : Option Bytes
  parent : Option Bytes
  position : Position
  deriving DecidableEq, Repr

/-- One level of the tree. -/
abbrev Level := List (Option Bytes)

/-- xcrypto/merkle.go:27-29. The levels are kept here in the order in which they are made: the leaves first (index `depth`
of the code), the root last (index 0). -/
structure Merkle where
  levels : List Level
  deriving DecidableEq, Repr

/-- `copy` into 32 zero bytes. -/
def copy32 (b : Option Bytes) : Bytes := (b.getD []).take 32 ++ List.replicate (32 - (b.getD []).length) 0

/-- `int(math.Ceil(math.Log2(float64(n))))` for n > 0. The code computes with floating point numbers; the logarithm is
exact for powers of two and, for the lengths a slice of slices can have in memory (below 2^42), the rounding error is below
the distance of the logarithm of any other number from a whole number. -/
def depthOf (n : Nat) : Nat := if n ≤ 1 then 0 else Nat.log2 (n - 1) + 1

section
variable [Hashes]

/-- xcrypto/merkle.go:74-79 -/
def merkleNode (left right : Option Bytes) : Bytes := sha256d (copy32 left ++ copy32 right)

/-- xcrypto/merkle.go:54-67: the loop over the pairs of one level. After the `break` the rest of the next level stays
nil. -/
def nextLevel : Level → Level
  | left :: right :: rest =>
    match right with
    | none => some (merkleNode left left) :: List.replicate (rest.length / 2) none
    | some r => some (merkleNode left (some r)) :: nextLevel rest
  | _ => []

/-- xcrypto/merkle.go:51-70: the levels from `depth` down to 0. -/
def build : Nat → Level → List Level
  | 0, level => [level]
  | d + 1, level => level :: build d (nextLevel level)

/-- xcrypto/merkle.go:42-72. For no hashes the depth is the conversion of minus infinity, the length of `levels` is negative
and `make` panics. -/
def newMerkle (hashs : Level) : Res Merkle :=
  if hashs.length = 0 then .panic
  else
    let depth := depthOf hashs.length
    .ok ⟨build depth (hashs ++ List.replicate (2 ^ depth - hashs.length) none)⟩

/-- xcrypto/merkle.go:82-84 -/
def root (m : Merkle) : Res (Option Bytes) :=
  match m.levels.getLast? with
  | none => .panic
  | some level => Res.ofIdx level[0]?

/-- xcrypto/merkle.go:102-118: one node of a proof. -/
def proofNode (level : Level) (index : Nat) : Res Node :=
  if index % 2 ≠ 0 then do
    let sibling ← Res.ofIdx level[index - 1]?
    let me ← Res.ofIdx level[index]?
    return ⟨sibling, some (merkleNode sibling me), .left⟩
  else do
    let sibling ← Res.ofIdx level[index + 1]?
    let me ← Res.ofIdx level[index]?
    let sibling := sibling.or me
    return ⟨sibling, some (merkleNode me sibling), .right⟩

/-- xcrypto/merkle.go:101-121: the loop over the levels. -/
def proofLoop : List Level → Nat → Res (List Node)
  | level :: next :: levels, index => do
    let node ← proofNode level index
    let path ← proofLoop (next :: levels) (index / 2)
    return node :: path
  | _, _ => .ok []

/-- xcrypto/merkle.go:87-124. `bytes.Equal` takes nil for an empty slice. -/
def proofs (m : Merkle) (leaf : Bytes) : Res (List Node) :=
  match m.levels with
  | [] => .panic
  | level :: _ =>
    match level.findIdx? (fun le => le.getD [] = leaf) with
    | none => .ok []
    | some index => proofLoop m.levels index

/-- xcrypto/merkle.go:130-141: the hash above, nothing for another position. -/
def climb (hash : Bytes) (node : Node) : Option Bytes :=
  match node.position with
  | .left => some (merkleNode node.hash (some hash))
  | .right =>
    match node.hash with
    | none => some (merkleNode (some hash) (some hash))
    | some h => some (merkleNode (some hash) (some h))
  | .other => none

/-- xcrypto/merkle.go:128-148 -/
def verifyLoop : Bytes → Bytes → List Node → Bool
  | hash, root, [] => hash = root
  | hash, root, node :: path =>
    match climb hash node with
    | none => false
    | some h => if node.parent.getD [] ≠ h then false else verifyLoop h root path

/-- xcrypto/merkle.go:127-148. The tree itself is not looked at; a nil slice counts as an empty one. -/
def verify (leaf root : Bytes) (path : List Node) : Bool := verifyLoop leaf root path

end

end Toku.Merkle
