import Verif.Props.Merkle
import Mathlib.Data.Nat.Log
/-
C136: lists of leaves with the same root.
-/
namespace Toku.Props
open Toku.Merkle Toku.Spec

theorem depthOf_clog {n : ℕ} (h : 1 ≤ n) : depthOf n = Nat.clog 2 n := by
  refine depth_of (Nat.le_pow_clog (by decide) n) (fun h2 => ?_) (fun e => ?_) h
  · exact Nat.pow_pred_clog_lt_self (by decide) (by omega)
  · rw [e]; simp

section
variable [Hashes]

/-- **C136 (partial).** Full statement: two lists of leaves with the same root are the same list, or two inputs with the same hash have been found.
Proved: if both lists give a tree of the same number of rows then one list is the beginning of the other, or in the ways up from the leaves
with one number, which the trees give as proofs, two different inputs have the same hash. The rest is false: see `C136_negation_repeated`, `C136_negation_rows`
and `C136_negation_zeros`. -/
theorem C136_prefix_partial (as bs : List Bytes) (ha : ∀ x ∈ as, x.length = 32) (hb : ∀ x ∈ bs, x.length = 32) (ha0 : as ≠ []) (hb0 : bs ≠ [])
    (hd : Nat.clog 2 as.length = Nat.clog 2 bs.length) {m1 m2 : Merkle} {r : Option Bytes} (h1 : newMerkle (as.map some) = .ok m1)
    (h2 : newMerkle (bs.map some) = .ok m2) (hr1 : root m1 = .ok r) (hr2 : root m2 = .ok r) :
    (as <+: bs ∨ bs <+: as) ∨
    ∃ (i : ℕ) (a b : Bytes) (p1 p2 : List Node), as[i]? = some a ∧ bs[i]? = some b ∧ proofLoop m1.levels i = .ok p1 ∧
      proofLoop m2.levels i = .ok p2 ∧
      Collision sha256d (hashed sha256d a (branch a p1)) (hashed sha256d b (branch b p2)) := by
  have hdep : depthOf as.length = depthOf bs.length := by
    rw [depthOf_clog (List.length_pos_iff.mpr ha0), depthOf_clog (List.length_pos_iff.mpr hb0), hd]
  by_cases hall : ∀ (i : ℕ) a b, as[i]? = some a → bs[i]? = some b → a = b
  · left
    have key : ∀ xs ys : List Bytes, (∀ (i : ℕ) a b, xs[i]? = some a → ys[i]? = some b → a = b) → xs.length ≤ ys.length → xs <+: ys := by
      intro xs ys h hle
      rw [List.prefix_iff_eq_take]
      apply List.ext_getElem?
      intro i
      rw [List.getElem?_take]
      split
      · rename_i hi
        have hx := List.getElem?_eq_getElem hi
        have hy := List.getElem?_eq_getElem (l := ys) (i := i) (by omega)
        rw [hx, hy, h i _ _ hx hy]
      · rw [List.getElem?_eq_none (by omega)]
    rcases le_total as.length bs.length with h | h
    · exact Or.inl (key as bs hall h)
    · exact Or.inr (key bs as (fun i a b e1 e2 => (hall i b a e2 e1).symm) h)
  · right
    push Not at hall
    obtain ⟨i, a, b, ea, eb, hab⟩ := hall
    obtain ⟨n1, r1, p1, a1, a2, a3, a4, a5⟩ := tree_path ea
    obtain ⟨n2, r2, p2, b1, b2, b3, b4, b5⟩ := tree_path eb
    rw [h1] at a1
    rw [h2] at b1
    have a1 := Res.ok.inj a1
    have b1 := Res.ok.inj b1
    subst a1 b1
    rw [hr1] at a2
    rw [hr2] at b2
    have a2 := Res.ok.inj a2
    have b2 := Res.ok.inj b2
    have hrr : r1 = r2 := Option.some.inj (a2.symm.trans b2)
    subst hrr
    refine ⟨i, _, _, p1, p2, ea, eb, a3, b3, ?_⟩
    have hla := ha _ (List.mem_of_getElem? ea)
    have hlb := hb _ (List.mem_of_getElem? eb)
    refine branches_collide sha256d sha256d_length _ _ _ _ hla hlb hab (branch_length p1 _) (branch_length p2 _) ?_ ?_
    · rw [branch_sides, branch_sides, a5, b5, hdep]
    · rw [verify_top p1 _ r1 hla a4, verify_top p2 _ r1 hlb b4]

end

/-! ### Where the root does not determine the list -/

private theorem pairUp_even (H : Bytes → Bytes) : ∀ (k : ℕ) (m r : List Bytes), m.length = 2 * k → pairUp H (m ++ r) = pairUp H m ++ pairUp H r
  | 0, [], r, _ => rfl
  | k + 1, a :: b :: m, r, h => by
    have := pairUp_even H k m r (by simp only [List.length_cons] at h; omega)
    simp only [List.cons_append, pairUp, this]
  | _ + 1, [], _, h => by simp at h
  | _ + 1, [_], _, h => by simp only [List.length_cons, List.length_nil] at h; omega
  | 0, _ :: _, _, h => by simp at h

private theorem pairUp_length (H : Bytes → Bytes) : ∀ (k : ℕ) (m : List Bytes), m.length = 2 * k → (pairUp H m).length = k
  | 0, [], _ => rfl
  | k + 1, a :: b :: m, h => by
    have := pairUp_length H k m (by simp only [List.length_cons] at h; omega)
    simp only [pairUp, List.length_cons, this]
  | _ + 1, [], h => by simp at h
  | _ + 1, [_], h => by simp only [List.length_cons, List.length_nil] at h; omega
  | 0, _ :: _, h => by simp at h

private theorem pairUp_same (H : Bytes → Bytes) (x : Bytes) : ∀ k, pairUp H (List.replicate (2 * k) x) = List.replicate k (H (x ++ x))
  | 0 => rfl
  | k + 1 => by
    rw [show 2 * (k + 1) = 2 * k + 1 + 1 by omega, List.replicate_succ, List.replicate_succ, pairUp, pairUp_same H x k, List.replicate_succ]

private theorem root_repeated (H : Bytes → Bytes) : ∀ (j d : ℕ) (m : List Bytes) (x r : Bytes), j < d → m.length = 2 ^ d - 2 ^ j →
    MerkleRoot H (m ++ [x]) r → MerkleRoot H (m ++ List.replicate (2 ^ j) x) r := by
  intro j
  induction j with
  | zero => intro d m x r _ _ h; exact h
  | succ j ih =>
    intro d m x r hj hm h
    obtain ⟨d, rfl⟩ : ∃ e, d = e + 1 := ⟨d - 1, by omega⟩
    have hlt : 2 ^ j < 2 ^ d := Nat.pow_lt_pow_right (by decide) (by omega)
    have hm' : m.length = 2 * (2 ^ d - 2 ^ j) := by rw [hm, Nat.pow_succ, Nat.pow_succ]; omega
    generalize hl0 : m ++ [x] = l at h
    cases h with
    | one =>
      have := congrArg List.length hl0
      simp only [List.length_append, List.length_cons, List.length_nil] at this
      omega
    | row hl h =>
      subst hl0
      refine .row (by
        have : 1 ≤ 2 ^ (j + 1) := Nat.one_le_two_pow
        rw [List.length_append, List.length_replicate]; omega) ?_
      rw [pairUp_even H _ _ _ hm'] at h ⊢
      rw [show (2 : ℕ) ^ (j + 1) = 2 * 2 ^ j by rw [Nat.pow_succ]; omega, pairUp_same]
      exact ih d _ _ _ (by omega) (pairUp_length H _ _ hm') h

section
variable [Hashes]

/-- **C136, negation: a leaf more than once.** For every list of `2^d - 2^j` leaves and one more, the list in which the last one occurs `2^j` times has
the same root: three leaves and four, for example, or five and eight (CVE-2012-2459 is this in Bitcoin). -/
theorem C136_negation_repeated (j d : ℕ) (hj : j < d) (leaves : List Bytes) (x : Bytes) (h32 : ∀ y ∈ leaves, y.length = 32) (hx : x.length = 32)
    (hn : leaves.length = 2 ^ d - 2 ^ j) :
    ∃ m1 m2 r, newMerkle ((leaves ++ [x]).map some) = .ok m1 ∧ newMerkle ((leaves ++ List.replicate (2 ^ j) x).map some) = .ok m2 ∧
      root m1 = .ok (some r) ∧ root m2 = .ok (some r) := by
  have hlt : 2 ^ j < 2 ^ d := Nat.pow_lt_pow_right (by decide) hj
  obtain ⟨m1, r1, a1, a2, a3⟩ := C55_root_partial (leaves ++ [x]) (by
    intro y hy
    rcases List.mem_append.mp hy with hy | hy
    · exact h32 y hy
    · rw [List.mem_singleton.mp hy, hx]) d j (by omega) (by rw [List.length_append, hn]; rfl)
  obtain ⟨m2, r2, b1, b2, b3⟩ := C55_root_partial (leaves ++ List.replicate (2 ^ j) x) (by
    intro y hy
    rcases List.mem_append.mp hy with hy | hy
    · exact h32 y hy
    · rw [(List.mem_replicate.mp hy).2, hx]) d 0 (by omega) (by
      have : 1 ≤ 2 ^ j := Nat.one_le_two_pow
      rw [List.length_append, hn, List.length_replicate, Nat.pow_zero]; omega)
  have := root_unique b3 (root_repeated sha256d j d leaves x r1 hj hn a3)
  subst this
  exact ⟨m1, m2, r2, a1, b1, a2, b2⟩

/-- **C136, negation: a row for the leaves.** The hashes of the pairs of `2^(d+1)` leaves, as leaves, have the same root. -/
theorem C136_negation_rows (d : ℕ) (leaves : List Bytes) (h32 : ∀ y ∈ leaves, y.length = 32) (hn : leaves.length = 2 ^ (d + 1)) :
    ∃ m1 m2 r, newMerkle (leaves.map some) = .ok m1 ∧ newMerkle ((pairUp sha256d leaves).map some) = .ok m2 ∧
      root m1 = .ok (some r) ∧ root m2 = .ok (some r) := by
  have h1 : 1 ≤ 2 ^ d := Nat.one_le_two_pow
  have hpow : (2 : ℕ) ^ (d + 1) = 2 * 2 ^ d := by rw [Nat.pow_succ]; omega
  have hpair : ∀ l : List Bytes, ∀ y ∈ pairUp sha256d l, y.length = 32 := by
    intro l
    induction l using pairUp.induct with
    | case1 => intro y hy; cases hy
    | case2 a => intro y hy; rw [pairUp, List.mem_singleton] at hy; rw [hy]; exact sha256d_length _
    | case3 a b r ih =>
      intro y hy
      rw [pairUp, List.mem_cons] at hy
      rcases hy with rfl | hy
      · exact sha256d_length _
      · exact ih y hy
  obtain ⟨m1, r1, a1, a2, a3⟩ := C55_root_partial leaves h32 (d + 1) 0 (by omega) (by rw [hn]; simp; omega)
  obtain ⟨m2, r2, b1, b2, b3⟩ := C55_root_partial (pairUp sha256d leaves) (hpair leaves) d 0 (by omega) (by
    rw [pairUp_length sha256d (2 ^ d) leaves (by omega)]; simp; omega)
  have : r1 = r2 := by
    cases a3 with
    | one => simp at hn; omega
    | row _ h => exact root_unique h b3
  subst this
  exact ⟨m1, m2, r1, a1, b1, a2, b2⟩

/-- **C136, negation: a leaf of zeros.** Six leaves have the root of the seven that end with 32 zero bytes (xcrypto/merkle.go:57-61), which is not so in
Bitcoin. -/
theorem C136_negation_zeros (a b c d e f : Bytes) :
    ∃ m1 m2 r, newMerkle ([a, b, c, d, e, f].map some) = .ok m1 ∧ newMerkle ([a, b, c, d, e, f, List.replicate 32 0].map some) = .ok m2 ∧
      root m1 = .ok (some r) ∧ root m2 = .ok (some r) := by
  have hz : copy32 (some (List.replicate 32 0)) = copy32 none := by decide
  have h1 : depthOf [a, b, c, d, e, f].length = 3 := by
    show depthOf 6 = 3
    decide
  have h2 : depthOf [a, b, c, d, e, f, List.replicate 32 0].length = 3 := by
    show depthOf 7 = 3
    decide
  have e1 := newMerkle_eq (leaves := [a, b, c, d, e, f]) (by simp)
  have e2 := newMerkle_eq (leaves := [a, b, c, d, e, f, List.replicate 32 0]) (by simp)
  rw [h1] at e1
  rw [h2] at e2
  refine ⟨_, _, _, e1, e2, rfl, ?_⟩
  change Res.ok (some (merkleNode _ (some (merkleNode _ (some (merkleNode _ _)))))) = Res.ok (some (merkleNode _ (some (merkleNode _ (some (merkleNode _ _))))))
  have hn : merkleNode (some (List.replicate 32 0)) (some (List.replicate 32 0)) = merkleNode none none := by
    unfold merkleNode
    rw [hz]
  rw [hn]

end

section
attribute [local instance] Sha.realHashes

/-- Three leaves and four with the same root; and the hypotheses of `C136_prefix_partial` for them: the one is the beginning of the other. -/
example : (newMerkle ([leafOf 1, leafOf 2, leafOf 3].map some)).bind root = (newMerkle ([leafOf 1, leafOf 2, leafOf 3, leafOf 3].map some)).bind root ∧
    Nat.clog 2 3 = Nat.clog 2 4 := ⟨by decide +kernel, by decide +kernel⟩

/-- Five leaves and six have different roots here. -/
example : (newMerkle ([leafOf 1, leafOf 2, leafOf 3, leafOf 4, leafOf 5].map some)).bind root ≠
    (newMerkle ([leafOf 1, leafOf 2, leafOf 3, leafOf 4, leafOf 5, leafOf 5].map some)).bind root := by decide +kernel

end

end Toku.Props
