import Verif.Model.Rand
import Verif.Props.Bip39
import Verif.Proof.Nonce
import Mathlib.RingTheory.Coprime.Lemmas
import Mathlib.Data.List.Perm.Subperm
/-
Property C123: how many mnemonics there are.
-/
namespace Toku.Props
open Toku Toku.Spec Toku.Bip39
open Toku.Rand hiding read seed

/-! ### The seed of the generator -/

/-- The numbers of the loop of `Seed` are those of the generator of Park and Miller, and stay in its range: nothing
overflows 32 bits. -/
theorem seedrand_spec (x : Int) (h0 : 0 < x) (h1 : x < 2 ^ 31 - 1) :
    seedrand x = (48271 * x) % (2 ^ 31 - 1) ∧ 0 < seedrand x ∧ seedrand x < 2 ^ 31 - 1 ∧
      48271 * x.tmod 44488 < 2 ^ 31 ∧ -(2 ^ 31) ≤ 48271 * x.tmod 44488 - 3399 * x.tdiv 44488 := by
  have hq : x.tdiv 44488 = x / 44488 := Int.tdiv_eq_ediv_of_nonneg h0.le
  have hr : x.tmod 44488 = x % 44488 := Int.tmod_eq_emod_of_nonneg h0.le
  have hne : (48271 * x) % (2 ^ 31 - 1) ≠ 0 := by
    intro h
    have hd : (2 ^ 31 - 1 : ℤ) ∣ 48271 * x := Int.dvd_of_emod_eq_zero h
    have hc : IsCoprime (2 ^ 31 - 1 : ℤ) 48271 := by
      rw [Int.isCoprime_iff_gcd_eq_one]; decide +kernel
    have := Int.le_of_dvd h0 (hc.dvd_of_dvd_mul_left hd)
    omega
  unfold seedrand int32max
  dsimp only
  rw [hq, hr]
  split <;> refine ⟨?_, ?_, ?_, ?_, ?_⟩ <;> omega

theorem start_eq (s : Int) : start s = if s % int32max = 0 then 89482311 else s % int32max := by
  unfold start int32max
  dsimp only
  have h := Int.tmod_eq_emod (a := s) (b := 2 ^ 31 - 1)
  have e : (if s.tmod (2 ^ 31 - 1) < 0 then s.tmod (2 ^ 31 - 1) + (2 ^ 31 - 1) else s.tmod (2 ^ 31 - 1)) = s % (2 ^ 31 - 1) := by
    rw [h]
    split <;> split_ifs <;> omega
  rw [e]

theorem start_range (s : Int) : 1 ≤ start s ∧ start s < 2 ^ 31 - 1 := by
  rw [start_eq]
  unfold int32max
  split_ifs <;> omega

/-- All that counts of the time is its remainder. -/
theorem start_start (s : Int) : start (start s) = start s := by
  have h := start_range s
  rw [start_eq (start s)]
  unfold int32max
  rw [Int.emod_eq_of_lt (by omega) (by omega), if_neg (by omega)]

theorem read_start (cooked : ℕ → UInt64) (s : Int) (n : ℕ) : Rand.read cooked (start s) n = Rand.read cooked s n := by
  unfold Rand.read Rand.seed
  rw [start_start]

theorem readLoop_length : ∀ (n : ℕ) (r : Source) (v : UInt64) (pos : ℕ), (readLoop n r v pos).length = n
  | 0, _, _, _ => rfl
  | n + 1, r, v, pos => by
    unfold readLoop
    split <;> simp [readLoop_length n]

theorem read_length (cooked : ℕ → UInt64) (s : Int) (n : ℕ) : (Rand.read cooked s n).length = n := readLoop_length ..

theorem range_getD (l : Bytes) : (List.range l.length).map (fun i => l.getD i 0) = l := by
  refine List.ext_getElem (by simp) fun i h1 h2 => ?_
  simp [List.getD_eq_getElem?_getD, List.getElem?_eq_getElem h2]

/-- What the call returns: the bytes of the generator. -/
theorem newEntropyAt_eq (cooked : ℕ → UInt64) (now : Int) (b : ℕ) :
    newEntropyAt cooked now b = if b % 32 = 0 ∧ 128 ≤ b ∧ b ≤ 256 then .ok (Rand.read cooked now (b / 8)) else .err errEntropyLength := by
  unfold newEntropyAt newEntropy validateEntropyBitSize
  have e := range_getD (Rand.read cooked now (b / 8))
  rw [read_length] at e
  split_ifs with h1 h2 h2
  · omega
  · rfl
  · show Res.ok _ = _
    rw [e]
  · omega

/-! ### C123 -/

/-- **C123**, negation: two calls of `NewEntropy` at times that differ by a multiple of 2147483647 nanoseconds (2.15 s)
return the same entropy. -/
theorem C123_negation_repeat (cooked : ℕ → UInt64) (now k : Int) (bitSize : ℕ) :
    newEntropyAt cooked (now + k * 2147483647) bitSize = newEntropyAt cooked now bitSize := by
  have : start (now + k * 2147483647) = start now := by
    rw [start_eq, start_eq]
    unfold int32max
    rw [show (2 ^ 31 - 1 : ℤ) = 2147483647 by norm_num, Int.add_mul_emod_self_right]
  rw [newEntropyAt_eq, newEntropyAt_eq, ← read_start, this, read_start]

/-- **C123**, negation: and so two calls of `NewBIP39` at such times return the same mnemonic, whose seed is the same
since `Seed` has one password for all. -/
theorem C123_negation_mnemonic [Hashes] (cooked : ℕ → UInt64) (now k : Int) (english chinese japanese : List Bytes) (list : ℕ) :
    newBIP39At cooked (now + k * 2147483647) english chinese japanese list =
      newBIP39At cooked now english chinese japanese list := by
  unfold newBIP39At
  have h := C123_negation_repeat cooked now k 128
  rw [newEntropyAt_eq, newEntropyAt_eq, if_pos (by decide), if_pos (by decide)] at h
  rw [Res.ok.inj h]

/-- **C123**, negation: for each size there is a list of 2^31 - 2 byte strings in which every entropy is that `NewEntropy`
returns at any time; its members are the bytes of the generator for the seeds 1 to 2^31 - 2. -/
theorem C123_negation_count (cooked : ℕ → UInt64) (bitSize : ℕ) : ∃ L : List Bytes, L.length = 2147483646 ∧
    L = (List.range 2147483646).map (fun s => Rand.read cooked (s + 1 : ℕ) (bitSize / 8)) ∧
    ∀ now e, newEntropyAt cooked now bitSize = .ok e → e ∈ L := by
  refine ⟨_, ?_, rfl, ?_⟩
  · rw [List.length_map, List.length_range]
  · intro now e h
    rw [newEntropyAt_eq] at h
    split_ifs at h
    rw [← Res.ok.inj h, List.mem_map]
    have hr := start_range now
    refine ⟨(start now - 1).toNat, ?_, ?_⟩
    · rw [List.mem_range]; omega
    · have : (((start now - 1).toNat + 1 : ℕ) : ℤ) = start now := by omega
      rw [this, read_start]

/-- **C123**, negation: the same for the mnemonics that `NewBIP39` returns: at most 2^31 - 2, of 2^128 there are. -/
theorem C123_negation_mnemonics [Hashes] (cooked : ℕ → UInt64) (english chinese japanese : List Bytes) (list : ℕ) :
    ∃ L : List (Bytes × Bytes), L.length ≤ 2147483646 ∧
      ∀ now wl p, newBIP39At cooked now english chinese japanese list = (wl, .ok p) → p ∈ L := by
  obtain ⟨L, h1, _, h2⟩ := C123_negation_count cooked 128
  let f : Bytes → Option (Bytes × Bytes) := fun e =>
    match (newBIP39 english chinese japanese list (fun i => e.getD i 0)).2 with
    | .ok p => some p
    | _ => none
  refine ⟨L.filterMap f, (List.length_filterMap_le _ _).trans h1.le, fun now wl p h => ?_⟩
  rw [List.mem_filterMap]
  refine ⟨Rand.read cooked now 16, h2 now _ ?_, ?_⟩
  · rw [newEntropyAt_eq, if_pos (by decide)]
  · unfold newBIP39At at h
    show (match (newBIP39 english chinese japanese list (fun i => (Rand.read cooked now 16).getD i 0)).2 with
      | .ok p => some p
      | _ => none) = some p
    rw [h]

/-- **C123**, negation: for every size there is an entropy that `NewEntropy` returns at no time. -/
theorem C123_negation_missing (cooked : ℕ → UInt64) (bitSize : ℕ) (hb : 128 ≤ bitSize) :
    ∃ e : Bytes, e.length = bitSize / 8 ∧ ∀ now, newEntropyAt cooked now bitSize ≠ .ok e := by
  by_contra hc
  push Not at hc
  obtain ⟨L, h1, _, h2⟩ := C123_negation_count cooked bitSize
  have hnd : ((List.range 2147483647).map (be (bitSize / 8))).Nodup := by
    rw [List.nodup_map_iff_inj_on (List.nodup_range)]
    intro x hx y hy h
    rw [List.mem_range] at hx hy
    have hp : 256 ^ 16 ≤ 256 ^ (bitSize / 8) := Nat.pow_le_pow_right (by norm_num) (by omega)
    have := congrArg natOfBE h
    rwa [Ecdsa.natOfBE_be, Ecdsa.natOfBE_be, Nat.mod_eq_of_lt (by omega), Nat.mod_eq_of_lt (by omega)] at this
  have hsub : (List.range 2147483647).map (be (bitSize / 8)) ⊆ L := by
    intro e he
    obtain ⟨x, _, rfl⟩ := List.mem_map.mp he
    obtain ⟨now, h⟩ := hc _ (Ecdsa.be_length _ _)
    exact h2 now _ h
  have := (hnd.subperm hsub).length_le
  rw [List.length_map, List.length_range, h1] at this
  omega

/-! ### The generator in closed form -/

/-- The n-th number of the generator of Park and Miller. -/
def parkMiller (s : ℤ) (n : ℕ) : ℤ := (48271 ^ n * s) % 2147483647

theorem parkMiller_range {s : ℤ} (h0 : 0 < s) (h1 : s < 2147483647) (n : ℕ) : 0 < parkMiller s n ∧ parkMiller s n < 2147483647 := by
  have hne : parkMiller s n ≠ 0 := by
    intro h
    have hd : (2147483647 : ℤ) ∣ 48271 ^ n * s := Int.dvd_of_emod_eq_zero h
    have hc : IsCoprime (2147483647 : ℤ) (48271 ^ n) := by
      refine IsCoprime.pow_right ?_
      rw [Int.isCoprime_iff_gcd_eq_one]; decide +kernel
    have := Int.le_of_dvd h0 (hc.dvd_of_dvd_mul_left hd)
    omega
  unfold parkMiller at *
  omega

theorem seedrand_parkMiller {s : ℤ} (h0 : 0 < s) (h1 : s < 2147483647) (n : ℕ) :
    seedrand (parkMiller s n) = parkMiller s (n + 1) := by
  obtain ⟨a, b⟩ := parkMiller_range h0 h1 n
  rw [(seedrand_spec _ a (by norm_num; exact b)).1]
  unfold parkMiller
  rw [show (2 ^ 31 - 1 : ℤ) = 2147483647 by norm_num, Int.mul_emod, Int.emod_emod_of_dvd _ (dvd_refl _), ← Int.mul_emod, pow_succ]
  ring_nf

theorem warm_parkMiller {s : ℤ} (h0 : 0 < s) (h1 : s < 2147483647) (k : ℕ) : ∀ n, warm k (parkMiller s n) = parkMiller s (n + k) := by
  induction k with
  | zero => exact fun n => rfl
  | succ k ih =>
    intro n
    unfold warm
    rw [seedrand_parkMiller h0 h1, ih, Nat.add_right_comm, Nat.add_assoc]

/-- A word of the state, in closed form. -/
def stateWord (cooked : ℕ → UInt64) (s : ℤ) (i : ℕ) : UInt64 :=
  word (parkMiller s (21 + 3 * i)) <<< 40 ^^^ word (parkMiller s (22 + 3 * i)) <<< 20 ^^^ word (parkMiller s (23 + 3 * i)) ^^^ cooked i

theorem fill_word (cooked : ℕ → UInt64) {s : ℤ} (h0 : 0 < s) (h1 : s < 2147483647) (n : ℕ) : ∀ i j, j < n →
    (fill cooked n i (parkMiller s (20 + 3 * i))).getD j 0 = stateWord cooked s (i + j) := by
  induction n with
  | zero => exact fun i j h => absurd h (Nat.not_lt_zero _)
  | succ n ih =>
    intro i j hj
    unfold fill
    dsimp only
    rw [seedrand_parkMiller h0 h1, seedrand_parkMiller h0 h1, seedrand_parkMiller h0 h1]
    cases j with
    | zero =>
      rw [List.getD_cons_zero]
      unfold stateWord
      rw [show 20 + 3 * i + 1 = 21 + 3 * (i + 0) by omega, show 21 + 3 * (i + 0) + 1 = 22 + 3 * (i + 0) by omega,
        show 22 + 3 * (i + 0) + 1 = 23 + 3 * (i + 0) by omega, Nat.add_zero]
    | succ j =>
      rw [List.getD_cons_succ, show 20 + 3 * i + 1 + 1 + 1 = 20 + 3 * (i + 1) by omega, ih (i + 1) j (by omega),
        show i + 1 + j = i + (j + 1) by omega]

/-- **C123.** The first seven bytes of an entropy, in closed form: the low bytes of the sum of words 333 and 606 of the
state, each three numbers of the generator of Park and Miller and a constant. -/
theorem C123_first (cooked : ℕ → UInt64) (now : ℤ) :
    (int63 (Rand.seed cooked now)).1 =
      (stateWord cooked (start now) 333 + stateWord cooked (start now) 606) &&& 0x7fffffffffffffff ∧
    ∀ i < 7, ∀ n, i < n → (Rand.read cooked now n).getD i 0 = ((int63 (Rand.seed cooked now)).1 >>> (8 * UInt64.ofNat i)).toUInt8 := by
  have hr := start_range now
  have h0 : 0 < start now := by omega
  have h1 : start now < 2147483647 := by omega
  constructor
  · have e : warm 20 (start now) = parkMiller (start now) (20 + 3 * 0) := by
      have := warm_parkMiller h0 h1 20 0
      rw [show parkMiller (start now) 0 = start now by
        unfold parkMiller; rw [pow_zero, one_mul, Int.emod_eq_of_lt h0.le h1]] at this
      rw [this]
    unfold int63 uint64 Rand.seed
    dsimp only
    rw [e, show back (607 - 273) = 333 from rfl, show back 0 = 606 from rfl, fill_word cooked h0 h1 607 0 333 (by omega),
      fill_word cooked h0 h1 607 0 606 (by omega), Nat.zero_add, Nat.zero_add]
  · intro i hi n hn
    have key : ∀ (m : ℕ) (r : Source) (v : UInt64) (pos i : ℕ), i < pos → i < m → pos ≤ 7 →
        (readLoop m r v pos).getD i 0 = (v >>> (8 * UInt64.ofNat i)).toUInt8 := by
      intro m
      induction m with
      | zero => exact fun _ _ _ _ _ h => absurd h (Nat.not_lt_zero _)
      | succ m ih =>
        intro r v pos i h1 h2 h7
        unfold readLoop
        rw [if_neg (by omega)]
        cases i with
        | zero => rw [List.getD_cons_zero]; simp
        | succ i =>
          rw [List.getD_cons_succ, ih r _ (pos - 1) i (by omega) (by omega) (by omega)]
          have : i = 0 ∨ i = 1 ∨ i = 2 ∨ i = 3 ∨ i = 4 ∨ i = 5 := by omega
          congr 1
          apply UInt64.toNat_inj.mp
          rcases this with rfl | rfl | rfl | rfl | rfl | rfl <;>
            simp [UInt64.toNat_shiftRight, Nat.shiftRight_eq_div_pow, Nat.div_div_eq_div_mul]
    unfold Rand.read
    cases n with
    | zero => omega
    | succ n =>
      unfold readLoop
      rw [if_pos rfl]
      dsimp only
      cases i with
      | zero => rw [List.getD_cons_zero]; simp
      | succ i =>
        rw [List.getD_cons_succ, key n _ _ 6 i (by omega) (by omega) (by omega)]
        have : i = 0 ∨ i = 1 ∨ i = 2 ∨ i = 3 ∨ i = 4 ∨ i = 5 := by omega
        congr 1
        apply UInt64.toNat_inj.mp
        rcases this with rfl | rfl | rfl | rfl | rfl | rfl <;>
          simp [UInt64.toNat_shiftRight, Nat.shiftRight_eq_div_pow, Nat.div_div_eq_div_mul]

/-- With a table of zeros: the times 1 and 2 give different entropies, so the list above is not one entropy repeated. -/
example : newEntropyAt (fun _ => 0) 1 128 ≠ newEntropyAt (fun _ => 0) 2 128 := by
  intro h
  rw [newEntropyAt_eq, newEntropyAt_eq, if_pos (by decide), if_pos (by decide)] at h
  have h : (Rand.read _ _ _).getD 0 0 = (Rand.read _ _ _).getD 0 0 := congrArg (fun l : Bytes => l.getD 0 0) (Res.ok.inj h)
  rw [(C123_first _ _).2 0 (by decide) _ (by decide), (C123_first _ _).2 0 (by decide) _ (by decide), (C123_first _ _).1,
    (C123_first _ _).1] at h
  revert h
  decide +kernel

/-- The generator of Park and Miller, from 1: 48271, 182605794. -/
example : seedrand 1 = 48271 ∧ seedrand 48271 = 182605794 ∧ start 0 = 89482311 ∧ start (-1) = 2147483646 := by decide

end Toku.Props
