import Verif.Model.Assemble
import Verif.Spec.Assemble
import Verif.Proof.Bits
import Verif.Proof.Push
/-
Lemmas about the assembler.
-/
namespace Toku.Assemble
open Toku.Spec Toku.Spec.Asm Toku.Script

theorem names_table : ∀ p : Bytes × UInt8, p ∈ names ↔ p ∈ table.map fun q => (ascii q.1.toList, q.2) := by
  have h1 : ∀ p ∈ names, p ∈ table.map fun q => (ascii q.1.toList, q.2) := by decide +kernel
  have h2 : ∀ p ∈ table.map fun q => (ascii q.1.toList, q.2), p ∈ names := by decide +kernel
  exact fun p => ⟨h1 p, h2 p⟩

theorem names_nodup : (names.map (·.1)).Nodup := by decide +kernel

theorem opByName_iff (t : Bytes) (b : UInt8) : opByName t = some b ↔ Names t b := by
  have e : (t, b) ∈ names ↔ Names t b := by
    rw [names_table]
    simp only [List.mem_map, Prod.mk.injEq, Names, Prod.exists]
    constructor
    · rintro ⟨n, b', h, rfl, rfl⟩; exact ⟨n, h, rfl⟩
    · rintro ⟨n, h, rfl⟩; exact ⟨n, b, h, rfl, rfl⟩
  rw [← e]
  unfold opByName
  constructor
  · intro h
    rw [Option.map_eq_some_iff] at h
    obtain ⟨p, hp, rfl⟩ := h
    have := List.find?_some hp
    simp only [decide_eq_true_eq] at this
    have hm := List.mem_of_find?_eq_some hp
    obtain ⟨a, c⟩ := p
    simp only at this
    subst this
    exact hm
  · intro h
    cases hf : names.find? (fun p => p.1 = t) with
    | none =>
      rw [List.find?_eq_none] at hf
      exact absurd (by simp) (hf _ h)
    | some p =>
      have h1 := List.find?_some hf
      simp only [decide_eq_true_eq] at h1
      have hm := List.mem_of_find?_eq_some hf
      have := List.inj_on_of_nodup_map names_nodup hm h h1
      rw [this]; rfl

theorem name_head (t : Bytes) (b : UInt8) (h : Names t b) : t.head? = some 0x4f := by
  have : ∀ q ∈ table, (ascii q.1.toList).head? = some 0x4f := by decide +kernel
  obtain ⟨n, hn, rfl⟩ := h
  exact this _ hn

theorem opByName_none (t : Bytes) (h : t.head? ≠ some 0x4f) : opByName t = none := by
  cases e : opByName t with
  | none => rfl
  | some b => exact absurd (name_head t b ((opByName_iff t b).mp e)) h

theorem foldl_digits (s : Bytes) (k : Nat) : s.foldl (fun n c => n * 10 + (c.toNat - 0x30)) k =
    Nat.ofDigits 10 ((s.map fun c => c.toNat - 48).reverse ++ [k]) := by
  induction s generalizing k with
  | nil => simp
  | cons c s ih =>
    rw [List.foldl_cons, ih]
    simp only [List.map_cons, List.reverse_cons, Nat.ofDigits_append, List.length_append, List.length_reverse, List.length_map,
      Nat.ofDigits_singleton, List.length_singleton, pow_succ]
    ring

theorem digits_iff (s : Bytes) (n : Nat) : digits s = some n ↔ Decimal s n := by
  unfold digits Decimal
  have e : s.foldl (fun n c => n * 10 + (c.toNat - 0x30)) 0 = Nat.ofDigits 10 (s.map fun c => c.toNat - 48).reverse := by
    rw [foldl_digits]; simp [Nat.ofDigits_append]
  have ha : s.all (fun c => 0x30 ≤ c && c ≤ 0x39) = true ↔ ∀ c ∈ s, 48 ≤ c.toNat ∧ c.toNat ≤ 57 := by
    rw [List.all_eq_true]
    simp only [Bool.and_eq_true, decide_eq_true_eq, UInt8.le_iff_toNat_le]
    rfl
  split_ifs with h
  · simp only [Option.some.injEq]
    rw [e]
    exact ⟨fun x => ⟨h.1, ha.mp h.2, x.symm⟩, fun x => x.2.2.symm⟩
  · simp only [reduceCtorEq, false_iff]
    rintro ⟨h1, h2, _⟩
    exact h ⟨h1, ha.mpr h2⟩

theorem decimal_head {s : Bytes} {n : Nat} (h : Decimal s n) : ∃ c r, s = c :: r ∧ 48 ≤ c.toNat ∧ c.toNat ≤ 57 := by
  obtain ⟨h1, h2, _⟩ := h
  cases s with
  | nil => exact absurd rfl h1
  | cons c r => exact ⟨c, r, rfl, h2 c (by simp)⟩

theorem posInt_iff (d : Bytes) (n : Int) : posInt d = some n ↔ ∃ m : Nat, Decimal d m ∧ n = m ∧ m < 2^63 := by
  unfold posInt
  cases e : digits d with
  | none =>
    simp only [reduceCtorEq, false_iff, not_exists]
    rintro m ⟨hm, _⟩
    rw [← digits_iff, e] at hm; cases hm
  | some k =>
    simp only
    rw [digits_iff] at e
    constructor
    · intro h
      split_ifs at h with hk
      exact ⟨k, e, (Option.some.inj h).symm, hk⟩
    · rintro ⟨m, hm, hn, hl⟩
      have : m = k := hm.2.2.trans e.2.2.symm
      subst this
      rw [if_pos hl, hn]

theorem negInt_iff (d : Bytes) (n : Int) : negInt d = some n ↔ ∃ m : Nat, Decimal d m ∧ n = -(m : Int) ∧ m ≤ 2^63 := by
  unfold negInt
  cases e : digits d with
  | none =>
    simp only [reduceCtorEq, false_iff, not_exists]
    rintro m ⟨hm, _⟩
    rw [← digits_iff, e] at hm; cases hm
  | some k =>
    simp only
    rw [digits_iff] at e
    constructor
    · intro h
      split_ifs at h with hk
      exact ⟨k, e, (Option.some.inj h).symm, hk⟩
    · rintro ⟨m, hm, hn, hl⟩
      have : m = k := hm.2.2.trans e.2.2.symm
      subst this
      rw [if_pos hl, hn]

theorem parseInt_iff (s : Bytes) (n : Int) : parseInt s = some n ↔ Integer s n ∧ -2^63 ≤ n ∧ n < 2^63 := by
  unfold parseInt
  split
  · rename_i r
    rw [negInt_iff]
    constructor
    · rintro ⟨m, hm, hn, hl⟩
      exact ⟨⟨r, m, hm, .inr ⟨rfl, hn⟩⟩, by omega, by omega⟩
    · rintro ⟨⟨d, m, hm, h⟩, h1, h2⟩
      obtain ⟨c, r', hr, c1, c2⟩ := decimal_head hm
      rcases h with ⟨h | h, hn⟩ | ⟨h, hn⟩
      · rw [hr] at h
        have := (List.cons.inj h).1
        subst this; simp at c1
      · simp [ascii] at h
      · have : r = d := by simpa [ascii] using h
        exact ⟨m, this ▸ hm, hn, by omega⟩
  · rename_i r
    rw [posInt_iff]
    constructor
    · rintro ⟨m, hm, hn, hl⟩
      exact ⟨⟨r, m, hm, .inl ⟨.inr rfl, hn⟩⟩, by omega, by omega⟩
    · rintro ⟨⟨d, m, hm, h⟩, h1, h2⟩
      obtain ⟨c, r', hr, c1, c2⟩ := decimal_head hm
      rcases h with ⟨h | h, hn⟩ | ⟨h, hn⟩
      · rw [hr] at h
        have := (List.cons.inj h).1
        subst this; simp at c1
      · have : r = d := by simpa [ascii] using h
        exact ⟨m, this ▸ hm, hn, by omega⟩
      · simp [ascii] at h
  · rename_i r h1 h2
    rw [posInt_iff]
    constructor
    · rintro ⟨m, hm, hn, hl⟩
      exact ⟨⟨s, m, hm, .inl ⟨.inl rfl, hn⟩⟩, by omega, by omega⟩
    · rintro ⟨⟨d, m, hm, h⟩, _, _⟩
      rcases h with ⟨h | h, hn⟩ | ⟨h, hn⟩
      · exact ⟨m, h ▸ hm, hn, by omega⟩
      · exact absurd h (h2 d)
      · exact absurd h (h1 d)

end Toku.Assemble
