import Verif.Model.ArgMem
import Verif.Proof.SliceBuf
/-
Lemmas for Props/ArgMem: what `append` does to each byte of the arrays there were.
-/
namespace Toku.ArgMem
open Toku.Slices

theorem append_get {extra : Bytes} {h : Heap UInt8} {s : Slice} (hs : Ok h s) (xs : Bytes) (a p : ℕ) (ha : a < h.length) :
    ((append extra h s xs).1.getD a [])[p]? =
      if a = s.arr ∧ s.off + s.len ≤ p ∧ p < s.off + s.len + xs.length ∧ s.len + xs.length ≤ capacity h s then xs[p - (s.off + s.len)]?
      else (h.getD a [])[p]? := by
  have h2 := hs.2
  unfold Slices.append
  split
  · next hc =>
    by_cases e : a = s.arr
    · subst e
      dsimp only
      rw [array_set_self hs.1]
      unfold writeAt
      have h3 : s.off + s.len + xs.length ≤ (array h s).length := by unfold capacity at hc; omega
      change _ = if _ then _ else (array h s)[p]?
      generalize array h s = A at *
      generalize s.off + s.len = q at *
      rcases Nat.lt_or_ge p q with hp | hp
      · rw [if_neg (by omega), List.append_assoc, List.getElem?_append_left (by rw [List.length_take]; omega), List.getElem?_take_of_lt hp]
      · rcases Nat.lt_or_ge p (q + xs.length) with hp' | hp'
        · rw [if_pos ⟨rfl, hp, hp', hc⟩, List.append_assoc, List.getElem?_append_right (by rw [List.length_take]; omega), List.length_take,
            min_eq_left (by omega), List.getElem?_append_left (by omega)]
        · rw [if_neg (by omega), List.getElem?_append_right (by simp only [List.length_append, List.length_take]; omega),
            List.getElem?_drop]
          congr 1
          simp only [List.length_append, List.length_take]
          omega
    · rw [if_neg (fun c => e c.1)]
      dsimp only
      rw [array_set_ne (fun c => e c.symm)]
  · next hc =>
    dsimp only
    rw [array_push ha, if_neg (fun c => hc c.2.2.2)]

/-- What lies right behind the slice after an append in place. -/
theorem append_behind {extra : Bytes} {h : Heap UInt8} {s : Slice} (hs : Ok h s) (xs : Bytes) (hc : s.len + xs.length ≤ capacity h s)
    (n : ℕ) (hn : n ≤ xs.length) : elems (append extra h s xs).1 ⟨s.arr, s.off + s.len, n⟩ = xs.take n := by
  have hg := fun p => append_get (extra := extra) hs xs s.arr p hs.1
  unfold elems array
  dsimp only
  generalize (append extra h s xs).1.getD s.arr [] = A at hg ⊢
  apply List.ext_getElem?
  intro i
  by_cases hi : i < n
  · rw [List.getElem?_take_of_lt hi, List.getElem?_take_of_lt hi, List.getElem?_drop, hg, if_pos ⟨rfl, by omega, by omega, hc⟩]
    congr 1
    omega
  · rw [List.getElem?_take_eq_none (by omega), List.getElem?_take_eq_none (by omega)]

end Toku.ArgMem
