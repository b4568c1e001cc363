import Verif.Proof.Merkle
/-
For which numbers of leaves the root of the code is not that of Bitcoin.
-/
namespace Toku.Merkle
open Toku.Spec

/-- What the code hashes to make the level above, xcrypto/merkle.go:54-67 with 74-79. -/
def levelInputs : Level → List Bytes
  | left :: right :: rest =>
    match right with
    | none => [copy32 left ++ copy32 left]
    | some r => (copy32 left ++ copy32 (some r)) :: levelInputs rest
  | _ => []

variable [Hashes]

/-- What the code hashes in a tree of `d` levels above the leaves, xcrypto/merkle.go:51-70. -/
def treeInputs : Nat → Level → List Bytes
  | 0, _ => []
  | d + 1, level => levelInputs level ++ treeInputs d (nextLevel level)

/-- The level above has the hashes of these inputs, then nils. -/
theorem next_inputs (l : Level) : ∃ p, nextLevel l = ((levelInputs l).map sha256d).map some ++ List.replicate p none := by
  induction l using nextLevel.induct with
  | case1 left rest => exact ⟨rest.length / 2, rfl⟩
  | case2 left rest r ih =>
    obtain ⟨p, e⟩ := ih
    refine ⟨p, ?_⟩
    unfold nextLevel levelInputs
    dsimp only
    rw [e]
    rfl
  | case3 l h =>
    refine ⟨0, ?_⟩
    match l, h with
    | [], _ => rfl
    | [_], _ => rfl
    | a :: b :: r, h => exact (h a b r rfl).elim

omit [Hashes] in
theorem pairUp_inputs (H : Bytes → Bytes) (l : List Bytes) : pairUp H l = (rowInputs l).map H := by
  induction l using pairUp.induct with
  | case1 => rfl
  | case2 a => rfl
  | case3 a b r ih => rw [pairUp, rowInputs, List.map_cons, ih]

omit [Hashes] in
theorem levelInputs_mem (A : List Bytes) (h : ∀ x ∈ A, x.length = 32) (p : ℕ) (he : (A.length + p) % 2 = 0) :
    ∀ a ∈ A, ∃ b : Bytes, b.length = 32 ∧ ((a ++ b) ∈ levelInputs (A.map some ++ List.replicate p none) ∨
      (b ++ a) ∈ levelInputs (A.map some ++ List.replicate p none)) := by
  induction A using pairUp.induct with
  | case1 => simp
  | case2 a =>
    intro x hx
    have hx : x = a := by simpa using hx
    subst hx
    obtain ⟨q, rfl⟩ : ∃ q, p = q + 1 := ⟨p - 1, by simp at he; omega⟩
    have hx := h x (by simp)
    refine ⟨x, hx, .inl ?_⟩
    rw [List.replicate_succ]
    simp [levelInputs, copy32_id hx]
  | case3 a b r ih =>
    intro x hx
    have ha := h a (by simp)
    have hb := h b (by simp)
    simp only [List.map_cons, List.cons_append, levelInputs, List.mem_cons, copy32_id ha, copy32_id hb]
    simp only [List.mem_cons] at hx
    rcases hx with rfl | rfl | hx
    · exact ⟨b, hb, .inl (.inl rfl)⟩
    · exact ⟨a, ha, .inr (.inl rfl)⟩
    · obtain ⟨c, hc, hm⟩ := ih (fun x hx => h x (by simp [hx])) (by simp at he; omega) x hx
      exact ⟨c, hc, hm.imp .inr .inr⟩

omit [Hashes] in
theorem rowInputs_split (B : List Bytes) (h : ∀ x ∈ B, x.length = 32) : ∀ x ∈ rowInputs B, ∃ a ∈ B, ∃ b ∈ B, x = a ++ b := by
  induction B using pairUp.induct with
  | case1 => intro x hx; cases hx
  | case2 a => intro x hx; exact ⟨a, by simp, a, by simp, by simpa [rowInputs] using hx⟩
  | case3 a b r ih =>
    intro x hx
    rcases List.mem_cons.mp hx with rfl | hx
    · exact ⟨a, by simp, b, by simp, rfl⟩
    · obtain ⟨c, hc, d, hd, e⟩ := ih (fun x hx => h x (by simp [hx])) x hx
      exact ⟨c, by simp [hc], d, by simp [hd], e⟩

/-- Two of the inputs of two lists differ and have the same hash. -/
def Collide (xs ys : List Bytes) : Prop := ∃ x ∈ xs, ∃ y ∈ ys, x ≠ y ∧ sha256d x = sha256d y

theorem Collide.mono {xs ys xs' ys' : List Bytes} (h1 : ∀ x ∈ xs, x ∈ xs') (h2 : ∀ x ∈ ys, x ∈ ys') (h : Collide xs ys) :
    Collide xs' ys' := by
  obtain ⟨x, hx, y, hy, r⟩ := h
  exact ⟨x, h1 x hx, y, h2 y hy, r⟩

omit [Hashes] in
theorem MerkleRoot.inv {H : Bytes → Bytes} {B : List Bytes} {r : Bytes} (h : MerkleRoot H B r) :
    (B = [r]) ∨ (2 ≤ B.length ∧ MerkleRoot H (pairUp H B) r) := by
  cases h with
  | one => exact .inl rfl
  | row h1 h2 => exact .inr ⟨h1, h2⟩

/-- If the code's root of the row `A` and nils is the Bitcoin root of the row `B` of the same depth, then all of `A` is in `B`,
or two inputs collide. -/
theorem same_root (e : ℕ) : ∀ (A B : List Bytes) (r : Bytes), A ≠ [] → A.length ≤ 2 ^ e → (∀ x ∈ A, x.length = 32) →
    (∀ x ∈ B, x.length = 32) → B.length ≤ 2 ^ e → 2 ^ e < 2 * B.length →
    (nextLevel^[e] (A.map some ++ List.replicate (2 ^ e - A.length) none))[0]? = some (some r) → MerkleRoot sha256d B r →
    Collide (treeInputs e (A.map some ++ List.replicate (2 ^ e - A.length) none)) (rootInputs sha256d e B) ∨ ∀ a ∈ A, a ∈ B := by
  induction e with
  | zero =>
    intro A B r hA hAl _ _ hB1 hB2 h0 hB
    right
    have : A.length = 1 := by have := List.length_pos_iff.mpr hA; omega
    obtain ⟨a, rfl⟩ := List.length_eq_one_iff.mp this
    have : B.length = 1 := by omega
    obtain ⟨b, rfl⟩ := List.length_eq_one_iff.mp this
    rcases MerkleRoot.inv hB with hb | ⟨hb, _⟩
    · simp at h0 hb
      simp [h0, hb]
    · simp at hb
  | succ e ih =>
    intro A B r hA hAl hA32 hB32 hB1 hB2 h0 hB
    have he : 2 ^ (e + 1) = 2 * 2 ^ e := by rw [pow_succ]; omega
    have hA1 := List.length_pos_iff.mpr hA
    set L : Level := A.map some ++ List.replicate (2 ^ (e + 1) - A.length) none with hL
    have hLl : L.length = 2 ^ (e + 1) := by rw [hL, List.length_append, List.length_map, List.length_replicate]; omega
    obtain ⟨p, hn⟩ := next_inputs L
    have hnl := next_length L (by rw [hLl, he]; omega)
    rw [hLl, he, Nat.mul_div_cancel_left _ (by decide)] at hnl
    have hp : p = 2 ^ e - ((levelInputs L).map sha256d).length := by
      rw [hn, List.length_append, List.length_map, List.length_replicate] at hnl
      omega
    have hin := levelInputs_mem A hA32 (2 ^ (e + 1) - A.length) (by rw [he]; omega)
    rw [← hL] at hin
    have hne : (levelInputs L).map sha256d ≠ [] := by
      obtain ⟨a, ha⟩ := List.exists_mem_of_ne_nil A hA
      obtain ⟨b, _, hm | hm⟩ := hin a ha
      all_goals
        intro hz
        rw [List.map_eq_nil_iff] at hz
        rw [hz] at hm
        cases hm
    have hBpos : 1 < B.length := by
      have : 1 ≤ 2 ^ e := Nat.one_le_two_pow
      omega
    have hB' : MerkleRoot sha256d (pairUp sha256d B) r := by
      rcases MerkleRoot.inv hB with hb | ⟨_, hb⟩
      · rw [hb] at hBpos; simp at hBpos
      · exact hb
    rw [Function.iterate_succ_apply] at h0
    have := ih ((levelInputs L).map sha256d) (pairUp sha256d B) r hne
      (by rw [hn, List.length_append, List.length_map] at hnl; omega)
      (by intro x hx; obtain ⟨y, _, rfl⟩ := List.mem_map.mp hx; exact sha256d_length _)
      (pairUp_32 _ sha256d_length B) (by rw [pairUp_length]; omega) (by rw [pairUp_length]; omega)
      (by rw [← hp, ← hn]; exact h0) hB'
    rw [← hp, ← hn] at this
    rcases this with hc | hsub
    · exact .inl (hc.mono (fun x hx => List.mem_append_right _ hx) (fun x hx => List.mem_append_right _ hx))
    · by_cases hcol : Collide (levelInputs L) (rowInputs B)
      · exact .inl (hcol.mono (fun x hx => List.mem_append_left _ hx) (fun x hx => List.mem_append_left _ hx))
      · right
        have key : ∀ x ∈ levelInputs L, x ∈ rowInputs B := by
          intro x hx
          have := hsub (sha256d x) (List.mem_map_of_mem hx)
          rw [pairUp_inputs] at this
          obtain ⟨y, hy, hxy⟩ := List.mem_map.mp this
          by_cases hxe : x = y
          · rw [hxe]; exact hy
          · exact absurd ⟨x, hx, y, hy, hxe, hxy.symm⟩ hcol
        intro a ha
        have ha32 := hA32 a ha
        obtain ⟨b, hb, hm | hm⟩ := hin a ha
        · obtain ⟨c, hc, d, hd, hcd⟩ := rowInputs_split B hB32 _ (key _ hm)
          have := (List.append_inj hcd (by rw [ha32, hB32 c hc])).1
          rw [this]; exact hc
        · obtain ⟨c, hc, d, hd, hcd⟩ := rowInputs_split B hB32 _ (key _ hm)
          have := (List.append_inj hcd (by rw [hb, hB32 c hc])).2
          rw [this]; exact hd

/-- An even row followed by at least two nils: the level above is the row above, then the hash of 64 zero bytes. -/
theorem next_invented (A : List Bytes) (h : ∀ x ∈ A, x.length = 32) (p : ℕ) (hp : 2 ≤ p) (he : A.length % 2 = 0) :
    nextLevel (A.map some ++ List.replicate p none) =
      (pairUp sha256d A ++ [sha256d (List.replicate 64 0)]).map some ++ List.replicate ((p - 2) / 2) none ∧
    levelInputs (A.map some ++ List.replicate p none) = rowInputs A ++ [List.replicate 64 0] := by
  induction A using pairUp.induct with
  | case1 =>
    obtain ⟨q, rfl⟩ : ∃ q, p = q + 2 := ⟨p - 2, by omega⟩
    rw [show q + 2 - 2 = q by omega, List.replicate_succ, List.replicate_succ]
    simp [nextLevel, levelInputs, pairUp, rowInputs, merkleNode, copy32]
  | case2 a => simp at he
  | case3 a b r ih =>
    obtain ⟨i1, i2⟩ := ih (fun x hx => h x (by simp [hx])) (by simp at he; omega)
    have ha := h a (by simp)
    have hb := h b (by simp)
    constructor
    · simp only [List.map_cons, List.cons_append, nextLevel, pairUp, merkleNode, copy32_id ha, copy32_id hb]
      rw [i1]
    · simp only [List.map_cons, List.cons_append, levelInputs, rowInputs, copy32_id ha, copy32_id hb]
      rw [i2]

/-- For the other numbers: equal roots mean a collision, or a node of 32 zero bytes. -/
theorem bad_size (e : ℕ) : ∀ (A : List Bytes) (r : Bytes), A.length ≤ 2 ^ e → 2 ^ e < 2 * A.length → (∀ x ∈ A, x.length = 32) →
    (∀ j ≤ e, A.length ≠ 2 ^ e - 2 ^ j + 1) →
    (nextLevel^[e] (A.map some ++ List.replicate (2 ^ e - A.length) none))[0]? = some (some r) → MerkleRoot sha256d A r →
    Collide (treeInputs e (A.map some ++ List.replicate (2 ^ e - A.length) none)) (rootInputs sha256d e A) ∨
    ∃ i < e, List.replicate 32 0 ∈ (pairUp sha256d)^[i] A := by
  induction e with
  | zero =>
    intro A r h1 h2 _ hb
    exact absurd (show A.length = 2 ^ 0 - 2 ^ 0 + 1 by omega) (hb 0 (le_refl _))
  | succ e ih =>
    intro A r h1 h2 h32 hb h0 hB
    have he : 2 ^ (e + 1) = 2 * 2 ^ e := by rw [pow_succ]; omega
    have hepos : 1 ≤ 2 ^ e := Nat.one_le_two_pow
    have hfull : A.length ≠ 2 ^ (e + 1) := by
      have := hb 0 (by omega)
      rw [pow_zero] at this
      omega
    have hB' : MerkleRoot sha256d (pairUp sha256d A) r := by
      rcases MerkleRoot.inv hB with h | ⟨_, h⟩
      · rw [h] at h2; simp at h2; omega
      · exact h
    rw [Function.iterate_succ_apply] at h0
    rcases Nat.mod_two_eq_zero_or_one A.length with hev | hodd
    · obtain ⟨n1, n2⟩ := next_invented A h32 (2 ^ (e + 1) - A.length) (by omega) hev
      have hlen : (pairUp sha256d A ++ [sha256d (List.replicate 64 0)]).length = A.length / 2 + 1 := by
        rw [List.length_append, pairUp_length, List.length_singleton]; omega
      have hq : (2 ^ (e + 1) - A.length - 2) / 2 = 2 ^ e - (pairUp sha256d A ++ [sha256d (List.replicate 64 0)]).length := by
        rw [hlen]; omega
      rw [hq] at n1
      rw [n1] at h0
      have := same_root e (pairUp sha256d A ++ [sha256d (List.replicate 64 0)]) (pairUp sha256d A) r (by simp) (by rw [hlen]; omega)
        (by
          intro x hx
          rcases List.mem_append.mp hx with hx | hx
          · exact pairUp_32 _ sha256d_length A x hx
          · rw [List.mem_singleton.mp hx]; exact sha256d_length _)
        (pairUp_32 _ sha256d_length A) (by rw [pairUp_length]; omega) (by rw [pairUp_length]; omega) h0 hB'
      rw [← n1] at this
      rcases this with hc | hsub
      · exact .inl (hc.mono (fun x hx => List.mem_append_right _ hx) (fun x hx => List.mem_append_right _ hx))
      · have hz := hsub (sha256d (List.replicate 64 0)) (by simp)
        rw [pairUp_inputs] at hz
        obtain ⟨y, hy, hxy⟩ := List.mem_map.mp hz
        by_cases hye : List.replicate 64 0 = y
        · right
          refine ⟨0, Nat.succ_pos _, ?_⟩
          obtain ⟨c, hc, d, _, hcd⟩ := rowInputs_split A h32 y hy
          rw [← hye, show (List.replicate 64 0 : Bytes) = List.replicate 32 0 ++ List.replicate 32 0 by decide] at hcd
          have := (List.append_inj hcd (by rw [h32 c hc]; rfl)).1
          rw [this]; exact hc
        · left
          refine ⟨List.replicate 64 0, List.mem_append_left _ ?_, y, List.mem_append_left _ hy, hye, hxy.symm⟩
          rw [n2]; simp
    · have hn := nextLevel_full A h32 (2 ^ (e + 1) - A.length) (.inl hodd) (by omega)
      have hlen := pairUp_length sha256d A
      have hq : (2 ^ (e + 1) - A.length) / 2 = 2 ^ e - (pairUp sha256d A).length := by rw [hlen]; omega
      rw [hq] at hn
      rw [hn] at h0
      have := ih (pairUp sha256d A) r (by rw [hlen]; omega) (by rw [hlen]; omega) (pairUp_32 _ sha256d_length A)
        (by
          intro j hj hbad
          rw [hlen] at hbad
          have hjle : 2 ^ j ≤ 2 ^ e := Nat.pow_le_pow_right (by decide) hj
          apply hb (j + 1) (by omega)
          rw [he, pow_succ]
          omega) h0 hB'
      rw [← hn] at this
      rcases this with hc | ⟨i, hlt, hi⟩
      · exact .inl (hc.mono (fun x hx => List.mem_append_right _ hx) (fun x hx => List.mem_append_right _ hx))
      · exact .inr ⟨i + 1, by omega, by rw [Function.iterate_succ_apply]; exact hi⟩

end Toku.Merkle
