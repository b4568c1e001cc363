import Verif.Proof.Merkle2
import Verif.Model.Sha
import Mathlib.Tactic.IntervalCases
/-
C54, C55, C56: Merkle trees.
-/
namespace Toku.Props
open Toku.Merkle Toku.Spec

section
variable [Hashes]

/-- The leaves with the nils after them. -/
theorem newMerkle_eq {leaves : List Bytes} (h : leaves ≠ []) : newMerkle (leaves.map some) =
    .ok ⟨build (depthOf leaves.length) (leaves.map some ++ List.replicate (2 ^ depthOf leaves.length - leaves.length) none)⟩ := by
  unfold newMerkle
  rw [List.length_map, if_neg (by rw [List.length_eq_zero_iff]; exact h)]

theorem leafLevel_length {leaves : List Bytes} (h : leaves ≠ []) :
    (leaves.map some ++ List.replicate (2 ^ depthOf leaves.length - leaves.length) none : Level).length = 2 ^ depthOf leaves.length := by
  have := (depth_spec (List.length_pos_iff.mpr h)).1
  rw [List.length_append, List.length_map, List.length_replicate]
  omega

/-- What a tree gives for the leaf with this number: the root, and a path that leads to it. -/
theorem tree_path {leaves : List Bytes} {idx : ℕ} {leaf : Bytes} (h : leaves[idx]? = some leaf) :
    ∃ m r path, newMerkle (leaves.map some) = .ok m ∧ root m = .ok (some r) ∧ proofLoop m.levels idx = .ok path ∧
      verify leaf r path = true ∧ path.map sideOf = sides (depthOf leaves.length) idx := by
  have hne : leaves ≠ [] := by rintro rfl; cases h
  have hidx : idx < leaves.length := (List.getElem?_eq_some_iff.mp h).1
  obtain ⟨path, r, h1, h2, h3, h4⟩ := proof_ok (depthOf leaves.length) _ idx leaf (leafLevel_length hne) (pre_some _ _) (by
    rw [List.getElem?_append_left (by rw [List.length_map]; exact hidx), List.getElem?_map, h]
    rfl)
  refine ⟨_, r, path, newMerkle_eq hne, ?_, h1, h3, h4⟩
  unfold root
  rw [build_last]
  dsimp only
  rw [h2]
  rfl

/-- **C54.** For every list of leaves that is not empty and every leaf in it (of any length), there is a tree with a root,
the tree gives a proof for the leaf, and the proof verifies against the root. -/
theorem C54_complete (leaves : List Bytes) (leaf : Bytes) (h : leaf ∈ leaves) :
    ∃ m r path, newMerkle (leaves.map some) = .ok m ∧ root m = .ok (some r) ∧ proofs m leaf = .ok path ∧
      verify leaf r path = true := by
  have hne : leaves ≠ [] := by rintro rfl; cases h
  set level : Level := leaves.map some ++ List.replicate (2 ^ depthOf leaves.length - leaves.length) none with hlev
  cases hf : level.findIdx? (fun le => decide (le.getD [] = leaf)) with
  | none =>
    rw [List.findIdx?_eq_none_iff] at hf
    have := hf (some leaf) (by rw [hlev]; exact List.mem_append_left _ (List.mem_map_of_mem h))
    simp at this
  | some i =>
    have hi := List.findIdx?_eq_some_iff_getElem.mp hf
    obtain ⟨hlt, hp, hmin⟩ := hi
    -- the leaf itself is not before the place found
    have hin : i < leaves.length := by
      obtain ⟨j, hj, he⟩ := List.mem_iff_getElem.mp h
      by_contra hc
      have hjl : j < level.length := by rw [hlev, List.length_append, List.length_map]; omega
      have := hmin j (by omega)
      have e : level[j] = some leaf := by
        rw [List.getElem_eq_iff, hlev, List.getElem?_append_left (by rw [List.length_map]; exact hj), List.getElem?_map,
          List.getElem?_eq_getElem hj, he]
        rfl
      rw [e] at this
      simp at this
    have hg : leaves[i]? = some leaf := by
      rw [List.getElem?_eq_getElem hin]
      have e : level[i] = some leaves[i] := by
        rw [List.getElem_eq_iff, hlev, List.getElem?_append_left (by rw [List.length_map]; exact hin), List.getElem?_map,
          List.getElem?_eq_getElem hin]
        rfl
      rw [e] at hp
      simp at hp
      rw [hp]
    obtain ⟨m, r, path, h1, h2, h3, h4, _⟩ := tree_path hg
    refine ⟨m, r, path, h1, h2, ?_, h4⟩
    rw [newMerkle_eq hne] at h1
    have h1 := Res.ok.inj h1
    subst h1
    unfold proofs
    obtain ⟨ls, hb⟩ := build_cons (depthOf leaves.length) level
    dsimp only at h3 ⊢
    rw [← hlev] at h3 ⊢
    rw [hb] at h3 ⊢
    dsimp only
    rw [hf]
    exact h3

/-- **C54.** For a leaf that is not in the list, and is not the empty string, the proof is empty. -/
theorem C54_absent (leaves : List Bytes) (leaf : Bytes) (hl : leaves ≠ []) (h : leaf ∉ leaves) (he : leaf ≠ []) :
    ∃ m, newMerkle (leaves.map some) = .ok m ∧ proofs m leaf = .ok [] := by
  refine ⟨_, newMerkle_eq hl, ?_⟩
  unfold proofs
  obtain ⟨ls, hb⟩ := build_cons (depthOf leaves.length)
    (leaves.map some ++ List.replicate (2 ^ depthOf leaves.length - leaves.length) none)
  dsimp only
  rw [hb]
  dsimp only
  rw [List.findIdx?_eq_none_iff.mpr]
  intro x hx
  rcases List.mem_append.mp hx with hx | hx
  · obtain ⟨y, hy, rfl⟩ := List.mem_map.mp hx
    simp only [Option.getD_some, decide_eq_false_iff_not]
    rintro rfl
    exact h hy
  · rw [(List.mem_replicate.mp hx).2]
    simp only [Option.getD_none, decide_eq_false_iff_not]
    exact fun h => he h.symm

/-- **C54.** There is no tree of no leaves: the call panics. -/
theorem C54_empty : newMerkle [] = .panic := rfl

/-! ### C55 -/

/-- **C55 (partial).** The root is the Bitcoin Merkle root if the number of the leaves is `2^d - 2^j + 1` (1, 2, 3, 4, 5,
7, 8, 9, 13, 15, 16, 17, …). Missing: the other numbers, for which it is wrong, see
`C55_wrong` and `C55_negation`. -/
theorem C55_root_partial (leaves : List Bytes) (h32 : ∀ x ∈ leaves, x.length = 32) (d j : ℕ) (hj : j ≤ d)
    (hn : leaves.length = 2 ^ d - 2 ^ j + 1) :
    ∃ m r, newMerkle (leaves.map some) = .ok m ∧ root m = .ok (some r) ∧ MerkleRoot sha256d leaves r := by
  have hle : 2 ^ j ≤ 2 ^ d := Nat.pow_le_pow_right (by decide) hj
  have hne : leaves ≠ [] := by rintro rfl; simp at hn
  by_cases hjd : j = d
  · subst hjd
    have h1 : leaves.length = 1 := by omega
    obtain ⟨a, rfl⟩ := List.length_eq_one_iff.mp h1
    exact ⟨_, a, rfl, rfl, .one⟩
  · have hlt : 2 * 2 ^ j ≤ 2 ^ d := by
      have : 2 ^ (j + 1) ≤ 2 ^ d := Nat.pow_le_pow_right (by decide) (by omega)
      rw [pow_succ] at this
      omega
    have hd1 : 2 ^ d = 2 * 2 ^ (d - 1) := by
      rw [← pow_succ', Nat.sub_add_cancel (by omega)]
    have hj1 : 1 ≤ 2 ^ j := Nat.one_le_two_pow
    have hdep : depthOf leaves.length = d := by
      refine depth_of (by omega) (fun _ => by omega) (fun h => by omega) (by omega)
    obtain ⟨r, h1, h2⟩ := root_good d j leaves (Or.inl (by omega)) (by omega) h32
    refine ⟨_, r, newMerkle_eq hne, ?_, h2⟩
    unfold root
    rw [build_last, hdep, h1]
    rfl

/-- **C55 (what is missing).** For every other number of leaves the root is not the Bitcoin Merkle root, unless a string that
the code hashes for the tree and another one that is hashed for the Bitcoin root have the same hash, or 32 zero bytes are
in a row of the Bitcoin tree. -/
theorem C55_wrong (leaves : List Bytes) (h32 : ∀ x ∈ leaves, x.length = 32) (hne : leaves ≠ [])
    (hn : ∀ d j : ℕ, j ≤ d → leaves.length ≠ 2 ^ d - 2 ^ j + 1) :
    ∃ m r, newMerkle (leaves.map some) = .ok m ∧ root m = .ok (some r) ∧
      (MerkleRoot sha256d leaves r →
        (∃ x ∈ treeInputs (depthOf leaves.length)
            (leaves.map some ++ List.replicate (2 ^ depthOf leaves.length - leaves.length) none),
          ∃ y ∈ rootInputs sha256d (depthOf leaves.length) leaves, x ≠ y ∧ sha256d x = sha256d y) ∨
        ∃ i < depthOf leaves.length, List.replicate 32 0 ∈ (pairUp sha256d)^[i] leaves) := by
  obtain ⟨a, ha⟩ := List.exists_mem_of_ne_nil leaves hne
  obtain ⟨m, r, path, h1, h2, _, _⟩ := tree_path (List.getElem?_eq_some_iff.mpr ⟨List.length_pos_iff.mpr hne, rfl⟩)
  refine ⟨m, r, h1, h2, fun hr => ?_⟩
  obtain ⟨g1, g2, g3⟩ := depth_spec (List.length_pos_iff.mpr hne)
  refine bad_size _ leaves r g1 ?_ h32 (hn _) ?_ hr
  · by_cases h : leaves.length = 1
    · rw [g3 h, h]; decide
    · have h2l : 2 ≤ leaves.length := by have := List.length_pos_iff.mpr hne; omega
      have := g2 h2l
      have hd : 1 ≤ depthOf leaves.length := by
        by_contra hc
        rw [show depthOf leaves.length = 0 by omega] at g1
        omega
      have he : 2 ^ depthOf leaves.length = 2 * 2 ^ (depthOf leaves.length - 1) := by rw [← pow_succ', Nat.sub_add_cancel hd]
      omega
  · rw [newMerkle_eq hne] at h1
    have h1 := Res.ok.inj h1
    subst h1
    unfold root at h2
    rw [build_last] at h2
    dsimp only at h2
    revert h2
    cases (nextLevel^[depthOf leaves.length]
      (leaves.map some ++ List.replicate (2 ^ depthOf leaves.length - leaves.length) none))[0]? with
    | none => intro h2; cases h2
    | some v => intro h2; rw [Res.ok.inj h2]

/-! ### C56 -/

/-- **C56.** Two different leaves of 32 bytes that verify against the same root, with paths that have the neighbours on the
same sides: among what is hashed on the two ways up there are, at the same height, two different inputs with the same
hash. -/
theorem C56_binding (leaf1 leaf2 root : Bytes) (p1 p2 : List Node) (h1 : leaf1.length = 32) (h2 : leaf2.length = 32)
    (hv1 : verify leaf1 root p1 = true) (hv2 : verify leaf2 root p2 = true)
    (hs : p1.map Node.position = p2.map Node.position) (hne : leaf1 ≠ leaf2) :
    Collision sha256d (hashed sha256d leaf1 (branch leaf1 p1)) (hashed sha256d leaf2 (branch leaf2 p2)) := by
  have hs' : p1.map sideOf = p2.map sideOf := by
    have := congrArg (List.map (fun p : Position => decide (p = .left))) hs
    rwa [List.map_map, List.map_map] at this
  refine branches_collide sha256d sha256d_length _ _ leaf1 leaf2 h1 h2 hne (branch_length p1 _) (branch_length p2 _) ?_ ?_
  · rw [branch_sides, branch_sides, hs']
  · rw [verify_top p1 _ root h1 hv1, verify_top p2 _ root h2 hv2]

/-- **C56.** What a path that verifies says: the hash at the end of the branch it describes is the root. -/
theorem C56_verify (leaf root : Bytes) (path : List Node) (hl : leaf.length = 32) (h : verify leaf root path = true) :
    top sha256d leaf (branch leaf path) = root := verify_top path leaf root hl h

/-- **C56.** A path whose sides are those of the leaf number `idx` of a tree verifies, against the root of the tree, no other
leaf than that one, or it shows a collision with the way up from that leaf. -/
theorem C56_member (leaves : List Bytes) (h32 : ∀ x ∈ leaves, x.length = 32) (idx : ℕ) (leaf : Bytes)
    (hi : leaves[idx]? = some leaf) (leaf' : Bytes) (hl : leaf'.length = 32) (path' : List Node)
    (hs : path'.map sideOf = sides (depthOf leaves.length) idx) :
    ∃ m r path, newMerkle (leaves.map some) = .ok m ∧ root m = .ok (some r) ∧ proofLoop m.levels idx = .ok path ∧
      (verify leaf' r path' = true → leaf' = leaf ∨
        Collision sha256d (hashed sha256d leaf' (branch leaf' path')) (hashed sha256d leaf (branch leaf path))) := by
  obtain ⟨m, r, path, h1, h2, h3, h4, h5⟩ := tree_path hi
  refine ⟨m, r, path, h1, h2, h3, fun hv => ?_⟩
  by_cases he : leaf' = leaf
  · exact Or.inl he
  · right
    have hl' : leaf.length = 32 := h32 leaf (List.mem_of_getElem? hi)
    refine branches_collide sha256d sha256d_length _ _ leaf' leaf hl hl' he (branch_length path' _) (branch_length path _) ?_ ?_
    · rw [branch_sides, branch_sides, hs, h5]
    · rw [verify_top path' _ r hl hv, verify_top path _ r hl' h4]

/-- **C56.** The root binds the leaves of a tree of a given size: two different lists of the same length with the same root
give, for the number of some leaf, two proofs on whose ways up there is a collision. -/
theorem C56_tree (as bs : List Bytes) (ha : ∀ x ∈ as, x.length = 32) (hb : ∀ x ∈ bs, x.length = 32)
    (hl : as.length = bs.length) {m1 m2 : Merkle} {r : Option Bytes} (h1 : newMerkle (as.map some) = .ok m1)
    (h2 : newMerkle (bs.map some) = .ok m2) (hr1 : root m1 = .ok r) (hr2 : root m2 = .ok r) (hne : as ≠ bs) :
    ∃ (i : ℕ) (a b : Bytes) (p1 p2 : List Node), as[i]? = some a ∧ bs[i]? = some b ∧ proofLoop m1.levels i = .ok p1 ∧
      proofLoop m2.levels i = .ok p2 ∧
      Collision sha256d (hashed sha256d a (branch a p1)) (hashed sha256d b (branch b p2)) := by
  have : ∃ i : ℕ, as[i]? ≠ bs[i]? := by
    by_contra hc
    push Not at hc
    exact hne (List.ext_getElem? hc)
  obtain ⟨i, hi⟩ := this
  have hia : i < as.length := by
    by_contra hc
    rw [List.getElem?_eq_none (by omega), List.getElem?_eq_none (by omega)] at hi
    exact hi rfl
  have ea : as[i]? = some as[i] := List.getElem?_eq_getElem hia
  have eb : bs[i]? = some (bs[i]'(by omega)) := List.getElem?_eq_getElem (by omega)
  have hab : as[i] ≠ bs[i]'(by omega) := by
    intro h
    rw [ea, eb, h] at hi
    exact hi rfl
  obtain ⟨n1, r1, p1, a1, a2, a3, a4, a5⟩ := tree_path ea
  obtain ⟨n2, r2, p2, b1, b2, b3, b4, b5⟩ := tree_path eb
  rw [h1] at a1
  rw [h2] at b1
  have a1 := Res.ok.inj a1
  have b1 := Res.ok.inj b1
  subst a1 b1
  rw [hr1] at a2
  rw [hr2] at b2
  have a2 := Res.ok.inj a2
  have b2 := Res.ok.inj b2
  have hrr : r1 = r2 := Option.some.inj (a2.symm.trans b2)
  subst hrr
  refine ⟨i, _, _, p1, p2, ea, eb, a3, b3, ?_⟩
  have hla := ha _ (List.getElem_mem hia)
  have hlb := hb _ (List.getElem_mem (by omega : i < bs.length))
  refine branches_collide sha256d sha256d_length _ _ _ _ hla hlb hab (branch_length p1 _) (branch_length p2 _) ?_ ?_
  · rw [branch_sides, branch_sides, a5, b5, hl]
  · rw [verify_top p1 _ r1 hla a4, verify_top p2 _ r1 hlb b4]

/-- The path of the leaf that is not there. -/
def phantom (leaves : List Bytes) : List Node :=
  let h (x : Bytes) := sha256d x
  let zero := List.replicate 32 0
  let g (i : ℕ) := leaves.getD i []
  let z := h (zero ++ zero)
  let ef := h (g 4 ++ g 5)
  let abcd := h (h (g 0 ++ g 1) ++ h (g 2 ++ g 3))
  [⟨some zero, some z, .right⟩, ⟨some ef, some (h (ef ++ z)), .left⟩,
    ⟨some abcd, some (h (abcd ++ h (ef ++ z))), .left⟩]

/-- **A tree of six leaves has a seventh** (xcrypto/merkle.go:57-61: a pair of two nils is hashed as two empty hashes): for
every six leaves of 32 bytes, a proof for 32 zero bytes verifies against the root, whether they are among the leaves or
not. `C56_member` is only about the numbers of the leaves there are. -/
theorem C56_negation_phantom (leaves : List Bytes) (h32 : ∀ x ∈ leaves, x.length = 32) (hn : leaves.length = 6) :
    ∃ m r, newMerkle (leaves.map some) = .ok m ∧ root m = .ok (some r) ∧
      verify (List.replicate 32 0) r (phantom leaves) = true := by
  match leaves, hn with
  | [a, b, c, d, e, f], _ =>
    have ha := h32 a (by simp)
    have hb := h32 b (by simp)
    have hc := h32 c (by simp)
    have hd := h32 d (by simp)
    have he := h32 e (by simp)
    have hf := h32 f (by simp)
    have hz : copy32 none = List.replicate 32 0 := by decide
    have hz' : copy32 (some (List.replicate 32 0)) = List.replicate 32 0 := by decide
    have hs : ∀ x, copy32 (some (sha256d x)) = sha256d x := fun x => copy32_id (sha256d_length x)
    have hm := newMerkle_eq (leaves := [a, b, c, d, e, f]) (by simp)
    have hd3 : depthOf [a, b, c, d, e, f].length = 3 := by
      show depthOf 6 = 3
      decide
    rw [hd3] at hm
    refine ⟨_, _, hm, rfl, ?_⟩
    simp [verify, verifyLoop, phantom, climb, merkleNode, copy32_id, ha, hb, hc, hd, he, hf, hz, hz', hs, sha256d_length]

/-- **Leaves of other lengths are not bound** (xcrypto/merkle.go:76: what is behind the first 32 bytes is cut off): with any
proof that is not empty, a leaf of 32 bytes followed by any bytes verifies as the leaf does. -/
theorem C56_negation_long (leaf tail root : Bytes) (hl : leaf.length = 32) (n : Node) (path : List Node) :
    verify (leaf ++ tail) root (n :: path) = verify leaf root (n :: path) := by
  have hc : copy32 (some (leaf ++ tail)) = copy32 (some leaf) := by
    unfold copy32
    simp [hl, List.take_of_length_le]
  have : climb (leaf ++ tail) n = climb leaf n := by
    unfold climb
    split
    · unfold merkleNode; rw [hc]
    · unfold merkleNode
      split
      · rw [hc]
      · rw [hc]
    · rfl
  unfold verify verifyLoop
  rw [this]

end

section
attribute [local instance] Sha.realHashes

/-- 32 times the same byte. -/
def leafOf (n : ℕ) : Bytes := List.replicate 32 (UInt8.ofNat n)

/-- Six is a number of leaves of which `C55_wrong` speaks. -/
example (d j : ℕ) (hj : j ≤ d) : [leafOf 1, leafOf 2, leafOf 3, leafOf 4, leafOf 5, leafOf 6].length ≠ 2 ^ d - 2 ^ j + 1 := by
  intro h
  have h : 6 = 2 ^ d - 2 ^ j + 1 := h
  by_cases hjd : j = d
  · subst hjd; omega
  · obtain ⟨e, rfl⟩ : ∃ e, d = e + 1 := ⟨d - 1, by omega⟩
    have h1 : 2 ^ j ≤ 2 ^ e := Nat.pow_le_pow_right (by decide) (by omega)
    rw [pow_succ] at h
    have h2 : 2 ^ e < 2 ^ 3 := by omega
    have h3 : e < 3 := (Nat.pow_lt_pow_iff_right (by decide : 1 < 2)).mp h2
    have h4 : j ≤ 3 := by omega
    interval_cases e <;> interval_cases j <;> omega

/-- Six leaves, with the SHA-256 of FIPS 180-4: the root of the code and that of Bitcoin. -/
theorem C55_negation : ∃ (leaves : List Bytes) (m : Merkle) (r r' : Bytes), (∀ x ∈ leaves, x.length = 32) ∧
    newMerkle (leaves.map some) = .ok m ∧ root m = .ok (some r) ∧ MerkleRoot sha256d leaves r' ∧ r ≠ r' := by
  let l : List Bytes := [leafOf 1, leafOf 2, leafOf 3, leafOf 4, leafOf 5, leafOf 6]
  let r' := (pairUp sha256d (pairUp sha256d (pairUp sha256d l))).headD []
  have h : ∃ m r, newMerkle (l.map some) = .ok m ∧ root m = .ok (some r) ∧ r ≠ r' := by
    have hm : (match newMerkle (l.map some) with
        | .ok m => (match root m with | .ok (some r) => decide (r ≠ r') | _ => false)
        | _ => false) = true := by decide +kernel
    split at hm
    · rename_i m hm1
      split at hm
      · rename_i r hr
        exact ⟨m, r, hm1, hr, of_decide_eq_true hm⟩
      · cases hm
    · cases hm
  obtain ⟨m, r, h1, h2, h3⟩ := h
  refine ⟨l, m, r, r', by decide, h1, h2, ?_, h3⟩
  refine .row (by decide) (.row (by decide +kernel) (.row (by decide +kernel) ?_))
  have : (pairUp sha256d (pairUp sha256d (pairUp sha256d l))).length = 1 := by
    rw [pairUp_length, pairUp_length, pairUp_length]; simp [l]
  obtain ⟨a, ha⟩ := List.length_eq_one_iff.mp this
  show MerkleRoot sha256d (pairUp sha256d (pairUp sha256d (pairUp sha256d l))) ((pairUp sha256d (pairUp sha256d (pairUp sha256d l))).headD [])
  rw [ha]
  exact .one

/-- Five leaves: the proof of the last one has three nodes. -/
example : ∃ m path, newMerkle ([1, 2, 3, 4, 5].map (fun n => some (leafOf n))) = .ok m ∧ proofs m (leafOf 5) = .ok path ∧
    path.map Node.position = [.right, .right, .left] := by
  refine ⟨_, _, rfl, rfl, ?_⟩
  decide +kernel

/-- Five is one of the numbers of `C55_root_partial`. -/
example : 5 = 2 ^ 3 - 2 ^ 2 + 1 := by decide

/-- The sides of leaf number 4 of a tree of 5. -/
example : sides (depthOf 5) 4 = [false, false, true] := by decide

end

end Toku.Props
