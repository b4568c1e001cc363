import Verif.Model.Merkle
import Verif.Spec.Merkle
import Mathlib.Data.Nat.Log
import Mathlib.Data.Nat.Bitwise
import Mathlib.Tactic.Ring
/-
Helper lemmas about xcrypto/merkle.go.
-/
namespace Toku.Merkle
open Toku.Spec

theorem depth_spec {n : ℕ} (h : 1 ≤ n) : n ≤ 2 ^ depthOf n ∧ (2 ≤ n → 2 ^ (depthOf n - 1) < n) ∧ (n = 1 → depthOf n = 0) := by
  unfold depthOf
  by_cases h1 : n ≤ 1
  · rw [if_pos h1]
    exact ⟨by simpa using h1, by omega, fun _ => rfl⟩
  · rw [if_neg h1]
    refine ⟨?_, ?_, by omega⟩
    · have := Nat.lt_log2_self (n := n - 1)
      omega
    · intro _
      have := Nat.log2_self_le (n := n - 1) (by omega)
      rw [Nat.add_sub_cancel]
      omega

theorem depth_of {n d : ℕ} (h1 : n ≤ 2 ^ d) (h2 : 2 ≤ n → 2 ^ (d - 1) < n) (h3 : n = 1 → d = 0) (hn : 1 ≤ n) : depthOf n = d := by
  obtain ⟨g1, g2, g3⟩ := depth_spec hn
  by_cases h : n = 1
  · rw [h3 h, g3 h]
  · have a := h2 (by omega)
    have b := g2 (by omega)
    have c1 : d - 1 < depthOf n := (Nat.pow_lt_pow_iff_right (by decide : 1 < 2)).mp (lt_of_lt_of_le a g1)
    have c2 : depthOf n - 1 < d := (Nat.pow_lt_pow_iff_right (by decide : 1 < 2)).mp (lt_of_lt_of_le b h1)
    omega

/-- The hashes come first, then the nils. -/
def Pre : Level → Prop
  | [] => True
  | none :: l => ∀ x ∈ l, x = none
  | some _ :: l => Pre l

theorem pre_nones {l : Level} (h : ∀ x ∈ l, x = none) : Pre l := by
  cases l with
  | nil => trivial
  | cons a l =>
    rw [h a List.mem_cons_self]
    exact fun x hx => h x (List.mem_cons_of_mem _ hx)

theorem pre_some (xs : List Bytes) (p : ℕ) : Pre (xs.map some ++ List.replicate p none) := by
  induction xs with
  | nil => exact pre_nones (fun x hx => (List.mem_replicate.mp hx).2)
  | cons x xs ih => exact ih

theorem pre_step {left : Option Bytes} {r : Bytes} {rest : Level} (h : Pre (left :: some r :: rest)) :
    (∃ l, left = some l) ∧ Pre rest := by
  cases left with
  | none => exact absurd (h (some r) List.mem_cons_self) (by simp)
  | some l => exact ⟨⟨l, rfl⟩, h⟩

theorem pre_stop {left : Option Bytes} {rest : Level} (h : Pre (left :: none :: rest)) : ∀ x ∈ rest, x = none := by
  cases left with
  | none => exact fun x hx => h x (List.mem_cons_of_mem _ hx)
  | some l => exact h

section
variable [Hashes]

theorem next_length (l : Level) (he : l.length % 2 = 0) : (nextLevel l).length = l.length / 2 := by
  induction l using nextLevel.induct with
  | case1 left rest =>
    unfold nextLevel
    dsimp only
    rw [List.length_cons, List.length_replicate, List.length_cons, List.length_cons]
    omega
  | case2 left rest r ih =>
    unfold nextLevel
    dsimp only
    rw [List.length_cons, List.length_cons, List.length_cons] at *
    rw [ih (by omega)]
    omega
  | case3 l h =>
    match l, h with
    | [], _ => rfl
    | [a], _ => simp at he
    | a :: b :: r, h => exact absurd rfl (h a b r)

theorem next_pre (l : Level) (h : Pre l) : Pre (nextLevel l) := by
  induction l using nextLevel.induct with
  | case1 left rest =>
    unfold nextLevel
    dsimp only
    show Pre (List.replicate _ none)
    exact pre_nones (fun x hx => (List.mem_replicate.mp hx).2)
  | case2 left rest r ih =>
    unfold nextLevel
    dsimp only
    exact ih (pre_step h).2
  | case3 l h' =>
    match l, h' with
    | [], _ => trivial
    | [a], _ => trivial
    | a :: b :: r, h' => exact absurd rfl (h' a b r)

/-- Above a hash with an even number. -/
theorem next_even (l : Level) (h : Pre l) (he : l.length % 2 = 0) (k : ℕ) {m : Bytes} (hk : l[2 * k]? = some (some m)) :
    ∃ s, l[2 * k + 1]? = some s ∧ (nextLevel l)[k]? = some (some (merkleNode (some m) (s.or (some m)))) := by
  induction l using nextLevel.induct generalizing k with
  | case1 left rest =>
    have hn := pre_stop h
    cases k with
    | zero =>
      simp at hk
      subst hk
      exact ⟨none, rfl, by unfold nextLevel; rfl⟩
    | succ k =>
      rw [show 2 * (k + 1) = 2 * k + 1 + 1 by ring, List.getElem?_cons_succ, List.getElem?_cons_succ] at hk
      have := hn _ (List.mem_of_getElem? hk)
      cases this
  | case2 left rest r ih =>
    obtain ⟨⟨l0, rfl⟩, hp⟩ := pre_step h
    cases k with
    | zero =>
      simp at hk
      subst hk
      exact ⟨some r, rfl, by unfold nextLevel; rfl⟩
    | succ k =>
      rw [show 2 * (k + 1) = 2 * k + 1 + 1 by ring, List.getElem?_cons_succ, List.getElem?_cons_succ] at hk
      obtain ⟨s, h1, h2⟩ := ih hp (by simp at he; omega) k hk
      refine ⟨s, ?_, ?_⟩
      · rw [show 2 * (k + 1) + 1 = 2 * k + 1 + 1 + 1 by ring, List.getElem?_cons_succ, List.getElem?_cons_succ, h1]
      · unfold nextLevel
        dsimp only
        rw [List.getElem?_cons_succ, h2]
  | case3 l h' =>
    match l, h' with
    | [], _ => cases hk
    | [a], _ => simp at he
    | a :: b :: r, h' => exact absurd rfl (h' a b r)

/-- Above a hash with an odd number. -/
theorem next_odd (l : Level) (h : Pre l) (k : ℕ) {m : Bytes} (hk : l[2 * k + 1]? = some (some m)) :
    ∃ s, l[2 * k]? = some (some s) ∧ (nextLevel l)[k]? = some (some (merkleNode (some s) (some m))) := by
  induction l using nextLevel.induct generalizing k with
  | case1 left rest =>
    have hn := pre_stop h
    cases k with
    | zero => simp at hk
    | succ k =>
      rw [show 2 * (k + 1) + 1 = 2 * k + 1 + 1 + 1 by ring, List.getElem?_cons_succ, List.getElem?_cons_succ] at hk
      have := hn _ (List.mem_of_getElem? hk)
      cases this
  | case2 left rest r ih =>
    obtain ⟨⟨l0, rfl⟩, hp⟩ := pre_step h
    cases k with
    | zero =>
      simp at hk
      subst hk
      exact ⟨l0, rfl, by unfold nextLevel; rfl⟩
    | succ k =>
      rw [show 2 * (k + 1) + 1 = 2 * k + 1 + 1 + 1 by ring, List.getElem?_cons_succ, List.getElem?_cons_succ] at hk
      obtain ⟨s, h1, h2⟩ := ih hp k hk
      refine ⟨s, ?_, ?_⟩
      · rw [show 2 * (k + 1) = 2 * k + 1 + 1 by ring, List.getElem?_cons_succ, List.getElem?_cons_succ, h1]
      · unfold nextLevel
        dsimp only
        rw [List.getElem?_cons_succ, h2]
  | case3 l h' =>
    match l, h' with
    | [], _ => cases hk
    | [a], _ => cases hk
    | a :: b :: r, h' => exact absurd rfl (h' a b r)

theorem build_cons (d : ℕ) (l : Level) : ∃ ls, build d l = l :: ls := by
  cases d with
  | zero => exact ⟨_, rfl⟩
  | succ d => exact ⟨_, rfl⟩

theorem build_last (d : ℕ) (l : Level) : (build d l).getLast? = some (nextLevel^[d] l) := by
  induction d generalizing l with
  | zero => rfl
  | succ d ih =>
    obtain ⟨ls, h⟩ := build_cons d (nextLevel l)
    have := ih (nextLevel l)
    unfold build
    rw [h] at this ⊢
    rw [List.getLast?_cons_cons, this]
    rfl

/-- On which side a node says the other hash is. -/
def sideOf (n : Node) : Bool := n.position = .left

/-- The proof for the hash with this number leads to the hash above all. -/
theorem proof_ok (d : ℕ) : ∀ (l : Level) (idx : ℕ) (m : Bytes), l.length = 2 ^ d → Pre l → l[idx]? = some (some m) →
    ∃ path r, proofLoop (build d l) idx = .ok path ∧ (nextLevel^[d] l)[0]? = some (some r) ∧ verifyLoop m r path = true ∧
      path.map sideOf = sides d idx := by
  induction d with
  | zero =>
    intro l idx m hl _ hm
    have hi : idx < l.length := (List.getElem?_eq_some_iff.mp hm).1
    rw [hl, pow_zero] at hi
    have : idx = 0 := by omega
    subst this
    exact ⟨[], m, rfl, hm, by simp [verifyLoop], rfl⟩
  | succ d ih =>
    intro l idx m hl hp hm
    have he : l.length % 2 = 0 := by rw [hl, pow_succ]; omega
    have hnl : (nextLevel l).length = 2 ^ d := by rw [next_length l he, hl, pow_succ]; omega
    have hsides : sides (d + 1) idx = idx.testBit 0 :: sides d (idx / 2) := by
      unfold sides
      rw [List.range_succ_eq_map, List.map_cons, List.map_map]
      congr 1
      apply List.map_congr_left
      intro i _
      simp [Nat.testBit_succ]
    have hb : proofLoop (build (d + 1) l) idx = (do
        let node ← proofNode l idx
        let path ← proofLoop (build d (nextLevel l)) (idx / 2)
        return node :: path) := by
      obtain ⟨ls, h⟩ := build_cons d (nextLevel l)
      show proofLoop (l :: build d (nextLevel l)) idx = _
      rw [h]
      rfl
    rw [hb]
    by_cases ho : idx % 2 = 0
    · obtain ⟨k, rfl⟩ : ∃ k, idx = 2 * k := ⟨idx / 2, by omega⟩
      obtain ⟨s, h1, h2⟩ := next_even l hp he k hm
      obtain ⟨path, r, g1, g2, g3, g4⟩ := ih (nextLevel l) k _ hnl (next_pre l hp) h2
      rw [show 2 * k / 2 = k by omega] at *
      have hn : proofNode l (2 * k) = .ok ⟨s.or (some m), some (merkleNode (some m) (s.or (some m))), .right⟩ := by
        unfold proofNode
        rw [if_neg (by omega), h1, hm]
        rfl
      rw [hn, Res.ok_bind, g1, Res.ok_bind]
      refine ⟨_, r, rfl, g2, ?_, ?_⟩
      · unfold verifyLoop
        cases s with
        | none => exact (if_neg (by simp [merkleNode])).trans g3
        | some s => exact (if_neg (by simp [merkleNode])).trans g3
      · rw [hsides, List.map_cons, g4]
        congr 1
        simp [sideOf]
    · obtain ⟨k, rfl⟩ : ∃ k, idx = 2 * k + 1 := ⟨idx / 2, by omega⟩
      obtain ⟨s, h1, h2⟩ := next_odd l hp k hm
      obtain ⟨path, r, g1, g2, g3, g4⟩ := ih (nextLevel l) k _ hnl (next_pre l hp) h2
      rw [show (2 * k + 1) / 2 = k by omega] at *
      have hn : proofNode l (2 * k + 1) = .ok ⟨some s, some (merkleNode (some s) (some m)), .left⟩ := by
        unfold proofNode
        rw [if_pos ho, Nat.add_sub_cancel, h1, hm]
        rfl
      rw [hn, Res.ok_bind, g1, Res.ok_bind]
      refine ⟨_, r, rfl, g2, ?_, ?_⟩
      · unfold verifyLoop
        exact (if_neg (by simp [merkleNode])).trans g3
      · rw [hsides, List.map_cons, g4]
        congr 1
        simp [sideOf]

/-! ### What is hashed -/

omit [Hashes] in
theorem copy32_length (b : Option Bytes) : (copy32 b).length = 32 := by
  unfold copy32
  rw [List.length_append, List.length_take, List.length_replicate]
  omega

omit [Hashes] in
theorem copy32_id {b : Bytes} (h : b.length = 32) : copy32 (some b) = b := by
  unfold copy32
  simp [h, List.take_of_length_le]

/-- The branch a path is read as: the first 32 bytes of the other hash, zero bytes after it if it is shorter; a missing hash
on the right is the hash itself. -/
def branch : Bytes → List Node → Branch
  | _, [] => []
  | h, n :: path =>
    let s := if n.position = .left then copy32 n.hash else copy32 (n.hash.or (some h))
    (sideOf n, s) :: branch (sha256d (if sideOf n then s ++ h else h ++ s)) path

theorem climb_eq {h h' : Bytes} {n : Node} (hl : h.length = 32) (hc : climb h n = some h') :
    h' = sha256d (if sideOf n then (if n.position = .left then copy32 n.hash else copy32 (n.hash.or (some h))) ++ h
      else h ++ (if n.position = .left then copy32 n.hash else copy32 (n.hash.or (some h)))) := by
  unfold climb at hc
  split at hc
  · rename_i hp
    have := Option.some.inj hc
    simp [sideOf, hp, ← this, merkleNode, copy32_id hl]
  · rename_i hp
    split at hc
    · rename_i hn
      have := Option.some.inj hc
      simp [sideOf, hp, ← this, merkleNode, hn, copy32_id hl]
    · rename_i hn
      have := Option.some.inj hc
      simp [sideOf, hp, ← this, merkleNode, hn, copy32_id hl]
  · cases hc

theorem verify_top : ∀ (path : List Node) (h root : Bytes), h.length = 32 → verifyLoop h root path = true →
    top sha256d h (branch h path) = root := by
  intro path
  induction path with
  | nil =>
    intro h root _ hv
    unfold verifyLoop at hv
    exact of_decide_eq_true hv
  | cons n path ih =>
    intro h root hl hv
    unfold verifyLoop at hv
    split at hv
    · cases hv
    · rename_i h' hc
      split at hv
      · cases hv
      have e := climb_eq hl hc
      have := ih h' root (by rw [e]; exact sha256d_length _) hv
      unfold branch top
      rw [← e]
      exact this

theorem branch_sides (path : List Node) : ∀ h, (branch h path).map Prod.fst = path.map sideOf := by
  induction path with
  | nil => intro h; rfl
  | cons n path ih =>
    intro h
    unfold branch
    dsimp only
    rw [List.map_cons, List.map_cons, ih]

theorem branch_length (path : List Node) : ∀ h, ∀ x ∈ branch h path, x.2.length = 32 := by
  induction path with
  | nil => intro h x hx; cases hx
  | cons n path ih =>
    intro h x hx
    unfold branch at hx
    rcases List.mem_cons.mp hx with rfl | hx
    · dsimp only
      split <;> exact copy32_length _
    · exact ih _ x hx

omit [Hashes] in
/-- Two branches with the neighbours on the same sides, from different hashes to the same. -/
theorem branches_collide (H : Bytes → Bytes) (hH : ∀ x, (H x).length = 32) : ∀ (b1 b2 : Branch) (h1 h2 : Bytes),
    h1.length = 32 → h2.length = 32 → h1 ≠ h2 → (∀ x ∈ b1, x.2.length = 32) → (∀ x ∈ b2, x.2.length = 32) →
    b1.map Prod.fst = b2.map Prod.fst → top H h1 b1 = top H h2 b2 → Collision H (hashed H h1 b1) (hashed H h2 b2) := by
  intro b1
  induction b1 with
  | nil =>
    intro b2 h1 h2 _ _ hne _ _ hs ht
    have : b2 = [] := by
      cases b2 with
      | nil => rfl
      | cons => cases hs
    subst this
    exact absurd ht hne
  | cons x b1 ih =>
    intro b2 h1 h2 hl1 hl2 hne hb1 hb2 hs ht
    cases b2 with
    | nil => cases hs
    | cons y b2 =>
      obtain ⟨sx, x⟩ := x
      obtain ⟨sy, y⟩ := y
      rw [List.map_cons, List.map_cons] at hs
      injection hs with hs1 hs2
      dsimp only at hs1
      subst hs1
      have hx := hb1 _ List.mem_cons_self
      have hy := hb2 _ List.mem_cons_self
      dsimp only at hx hy
      unfold top at ht
      unfold hashed
      dsimp only
      have hin : (if sx = true then x ++ h1 else h1 ++ x) ≠ (if sx = true then y ++ h2 else h2 ++ y) := by
        cases sx
        · intro h
          simp only [Bool.false_eq_true, if_false] at h
          exact hne (List.append_inj h (by omega)).1
        · intro h
          simp only [if_true] at h
          exact hne (List.append_inj h (by omega)).2
      generalize (if sx = true then x ++ h1 else h1 ++ x) = i1 at hin ht ⊢
      generalize (if sx = true then y ++ h2 else h2 ++ y) = i2 at hin ht ⊢
      by_cases hc : H i1 = H i2
      · exact ⟨0, i1, i2, rfl, rfl, hin, hc⟩
      · obtain ⟨i, u, v, hu, hv, huv⟩ := ih b2 (H i1) (H i2) (hH _) (hH _) hc (fun z hz => hb1 z (List.mem_cons_of_mem _ hz))
          (fun z hz => hb2 z (List.mem_cons_of_mem _ hz)) hs2 ht
        exact ⟨i + 1, u, v, by rw [List.getElem?_cons_succ, hu], by rw [List.getElem?_cons_succ, hv], huv⟩

/-! ### The root -/

theorem nextLevel_full (xs : List Bytes) (h : ∀ x ∈ xs, x.length = 32) (p : ℕ) (hp : xs.length % 2 = 1 ∨ p = 0)
    (he : (xs.length + p) % 2 = 0) :
    nextLevel (xs.map some ++ List.replicate p none) = (pairUp sha256d xs).map some ++ List.replicate (p / 2) none := by
  induction xs using pairUp.induct with
  | case1 =>
    have : p = 0 := by simpa using hp
    subst this
    rfl
  | case2 a =>
    cases p with
    | zero => simp at he
    | succ p =>
      have h1 : nextLevel (some a :: none :: List.replicate p none) =
          some (merkleNode (some a) (some a)) :: List.replicate ((List.replicate p (none : Option Bytes)).length / 2) none := by
        unfold nextLevel; rfl
      show nextLevel (some a :: none :: List.replicate p none) = _
      rw [h1, List.length_replicate]
      have hp2 : (p + 1) / 2 = p / 2 := by simp at he; omega
      rw [hp2]
      unfold pairUp merkleNode
      rw [copy32_id (h a List.mem_cons_self)]
      rfl
  | case3 a b r ih =>
    have := ih (fun x hx => h x (List.mem_cons_of_mem _ (List.mem_cons_of_mem _ hx))) (by simp at hp; omega) (by simp at he; omega)
    show nextLevel (some a :: some b :: (r.map some ++ List.replicate p none)) = _
    unfold nextLevel
    dsimp only
    rw [this, pairUp]
    unfold merkleNode
    rw [copy32_id (h a List.mem_cons_self), copy32_id (h b (List.mem_cons_of_mem _ List.mem_cons_self))]
    rfl

omit [Hashes] in
theorem pairUp_length (H : Bytes → Bytes) (xs : List Bytes) : (pairUp H xs).length = (xs.length + 1) / 2 := by
  induction xs using pairUp.induct with
  | case1 => rfl
  | case2 a => simp [pairUp]
  | case3 a b r ih => rw [pairUp, List.length_cons, ih, List.length_cons, List.length_cons]; omega

omit [Hashes] in
theorem pairUp_32 (H : Bytes → Bytes) (hH : ∀ x, (H x).length = 32) (xs : List Bytes) : ∀ x ∈ pairUp H xs, x.length = 32 := by
  induction xs using pairUp.induct with
  | case1 => intro x hx; cases hx
  | case2 a => intro x hx; rw [List.mem_singleton.mp hx]; exact hH _
  | case3 a b r ih =>
    intro x hx
    unfold pairUp at hx
    rcases List.mem_cons.mp hx with rfl | hx
    · exact hH _
    · exact ih x hx

theorem root_good (d : ℕ) : ∀ (j : ℕ) (xs : List Bytes), (j < d ∨ d = 0 ∧ j = 0) → xs.length + 2 ^ j = 2 ^ d + 1 → (∀ x ∈ xs, x.length = 32) →
    ∃ r, nextLevel^[d] (xs.map some ++ List.replicate (2 ^ d - xs.length) none) = [some r] ∧ MerkleRoot sha256d xs r := by
  induction d with
  | zero =>
    intro j xs hj hl _
    have hj : j = 0 := by omega
    subst hj
    have : xs.length = 1 := by simpa using hl
    obtain ⟨a, rfl⟩ := List.length_eq_one_iff.mp this
    exact ⟨a, rfl, .one⟩
  | succ d ih =>
    intro j xs hj hl h32
    have hjd : 2 ^ j ≤ 2 ^ d := Nat.pow_le_pow_right (by decide) (by omega)
    have hj1 : 1 ≤ 2 ^ j := Nat.one_le_two_pow
    have h2 : 2 ^ (d + 1) = 2 * 2 ^ d := by rw [pow_succ]; ring
    have hstep : ∃ j', (j' < d ∨ d = 0 ∧ j' = 0) ∧ (xs.length + 1) / 2 + 2 ^ j' = 2 ^ d + 1 ∧
        (xs.length % 2 = 1 ∨ 2 ^ (d + 1) - xs.length = 0) := by
      cases j with
      | zero =>
        refine ⟨0, by omega, ?_, ?_⟩
        · rw [pow_zero] at *; omega
        · rw [pow_zero] at *; omega
      | succ j =>
        have hjs : 2 ^ (j + 1) = 2 * 2 ^ j := by rw [pow_succ]; ring
        refine ⟨j, by omega, by omega, by omega⟩
    obtain ⟨j', g1, g2, g3⟩ := hstep
    rw [Function.iterate_succ_apply, nextLevel_full xs h32 _ g3 (by omega)]
    have := ih j' (pairUp sha256d xs) g1 (by rw [pairUp_length]; exact g2) (pairUp_32 _ sha256d_length xs)
    rw [pairUp_length] at this
    obtain ⟨r, k1, k2⟩ := this
    refine ⟨r, ?_, .row (by omega) k2⟩
    rw [← k1]
    congr 3
    omega

omit [Hashes] in
theorem root_unique {H : Bytes → Bytes} {l : List Bytes} {r s : Bytes} (h1 : MerkleRoot H l r) (h2 : MerkleRoot H l s) : r = s := by
  induction h1 with
  | one =>
    cases h2 with
    | one => rfl
    | row h _ => simp at h
  | row h _ ih =>
    cases h2 with
    | one => simp at h
    | row _ h2 => exact ih h2

end

end Toku.Merkle
