import Verif.Proof.Fields
import Verif.Proof.Bits
import Mathlib.Data.List.GetD
import Mathlib.Data.Nat.Bitwise
/-
The numbers behind mnemonics.
-/
namespace Toku.Bip39
open Toku.Spec

/-! ### Bits -/

theorem bval_lt (l : List Bool) : bval l < 2 ^ l.length := by
  have := valBE_lt (b := 2) (by omega) (l := l.map Bool.toNat) (by
    intro d hd
    obtain ⟨b, _, rfl⟩ := List.mem_map.mp hd
    cases b <;> decide)
  rwa [List.length_map] at this

theorem bval_take (l : List Bool) (n : ℕ) : bval (l.take n) = bval l / 2 ^ (l.length - n) := by
  have h := bval_append (l.take n) (l.drop n)
  rw [List.take_append_drop, List.length_drop] at h
  have hlt := bval_lt (l.drop n)
  rw [List.length_drop] at hlt
  rw [h, Nat.mul_comm, Nat.mul_add_div (by positivity), Nat.div_eq_of_lt hlt, Nat.add_zero]

theorem groups_length (is : List ℕ) : (is.flatMap (bitsOf 11)).length = 11 * is.length := by
  induction is with
  | nil => rfl
  | cons i is ih => rw [List.flatMap_cons, List.length_append, bitsOf_length, ih, List.length_cons]; ring

theorem groups_val {is : List ℕ} (h : ∀ i ∈ is, i < 2048) : bval (is.flatMap (bitsOf 11)) = valBE 2048 is := by
  induction is with
  | nil => rfl
  | cons i is ih =>
    have hi := h i List.mem_cons_self
    rw [List.flatMap_cons, bval_append, bval_bitsOf, Nat.mod_eq_of_lt (by omega), groups_length,
      ih (fun j hj => h j (List.mem_cons_of_mem _ hj)), show i :: is = [i] ++ is from rfl, valBE_append, Nat.pow_mul]
    simp [valBE]

theorem bytes_val (e : Bytes) : bval (bitStream 8 e) = natOfBE e := by
  rw [bval_bitStream 8 e (fun b _ => by have := b.toNat_lt; omega), natOfBE_eq]
  rfl

/-- The checksum bits of a byte string, as a number. -/
def checkBits [Hashes] (e : Bytes) (n : ℕ) : ℕ := ((Hashes.sha256 e).headD 0).toNat / 2 ^ (8 - n)

theorem check_val [Hashes] (e : Bytes) {n : ℕ} (hn : n ≤ 8) :
    bval ((bitStream 8 (Hashes.sha256 e)).take n) = checkBits e n ∧ ((bitStream 8 (Hashes.sha256 e)).take n).length = n := by
  have hl := Hashes.sha256_length e
  unfold checkBits
  cases hs : Hashes.sha256 e with
  | nil => rw [hs] at hl; cases hl
  | cons c r =>
    rw [List.headD_cons]
    have e1 : (bitStream 8 (c :: r)).take n = (bitsOf 8 c.toNat).take n := by
      unfold bitStream
      rw [List.flatMap_cons, List.take_append_of_le_length (by rw [bitsOf_length]; exact hn)]
    rw [e1, bval_take, bval_bitsOf, bitsOf_length]
    have := c.toNat_lt
    refine ⟨by rw [Nat.mod_eq_of_lt (by omega)], ?_⟩
    rw [List.length_take, bitsOf_length]; omega

theorem checkBits_lt [Hashes] (e : Bytes) {n : ℕ} (hn : n ≤ 8) : checkBits e n < 2 ^ n := by
  unfold checkBits
  have := ((Hashes.sha256 e).headD 0).toNat_lt
  rw [Nat.div_lt_iff_lt_mul (by positivity), ← Nat.pow_add]
  rw [show n + (8 - n) = 8 by omega]
  exact this

/-- The number of an entropy with its checksum. -/
def fullNumber [Hashes] (e : Bytes) : ℕ := natOfBE e * 2 ^ (e.length / 4) + checkBits e (e.length / 4)

theorem size_facts {n : ℕ} (h : EntropySize n) : ∃ m, n = 4 * m ∧ 4 ≤ m ∧ m ≤ 8 ∧ n / 4 = m := by
  unfold EntropySize at h
  exact ⟨n / 4, by omega, by omega, by omega, rfl⟩

theorem size_of {m : ℕ} (h1 : 4 ≤ m) (h2 : m ≤ 8) : EntropySize (4 * m) := by unfold EntropySize; omega

theorem places_iff [Hashes] (e : Bytes) (h : EntropySize e.length) (is : List ℕ) :
    Places e is ↔ (∀ i ∈ is, i < 2048) ∧ is.length = e.length / 4 * 3 ∧ valBE 2048 is = fullNumber e := by
  obtain ⟨m, h1, h2, h3, h4⟩ := size_facts h
  obtain ⟨c1, c2⟩ := check_val e (n := e.length / 4) (by omega)
  have hbl : (bitStream 8 e ++ (bitStream 8 (Hashes.sha256 e)).take (e.length / 4)).length = 11 * (e.length / 4 * 3) := by
    rw [List.length_append, bitStream_length, c2]; omega
  have hbv : bval (bitStream 8 e ++ (bitStream 8 (Hashes.sha256 e)).take (e.length / 4)) = fullNumber e := by
    rw [bval_append, bytes_val, c1, c2]; rfl
  unfold Places
  constructor
  · rintro ⟨g1, g2⟩
    refine ⟨g1, ?_, ?_⟩
    · have := congrArg List.length g2
      rw [groups_length, hbl] at this
      omega
    · rw [← groups_val g1, g2, hbv]
  · rintro ⟨g1, g2, g3⟩
    refine ⟨g1, bval_inj ?_ ?_⟩
    · rw [groups_length, hbl, g2]
    · rw [groups_val g1, hbv, g3]

/-! ### The checksum loop -/

theorem testbit_pos (x i : ℕ) : (x &&& 1 <<< i > 0) ↔ x / 2 ^ i % 2 = 1 := by
  rw [Nat.one_shiftLeft, Nat.and_two_pow, Nat.testBit_eq_decide_div_mod_eq]
  have : 0 < 2 ^ i := by positivity
  by_cases h : x / 2 ^ i % 2 = 1
  · simp [h]
  · simp [h]

theorem or_one (d : ℕ) : d * 2 ||| 1 = d * 2 + 1 := by
  have := Nat.two_pow_add_eq_or_of_lt (i := 1) (b := 1) (by decide) d
  rw [pow_one, Nat.mul_comm] at this
  exact this.symm

theorem checksumLoop_val (first : UInt8) (n : ℕ) : ∀ i d, i + n ≤ 8 →
    checksumLoop first n i d = d * 2 ^ n + first.toNat / 2 ^ (8 - (i + n)) % 2 ^ n := by
  induction n with
  | zero => intro i d _; unfold checksumLoop; simp [Nat.mod_one]
  | succ n ih =>
    intro i d h
    unfold checksumLoop
    dsimp only
    rw [if_pos (show i ≤ 7 by omega), ih _ _ (by omega), show i + 1 + n = i + (n + 1) by ring]
    have e : (if first.toNat &&& 1 <<< (7 - i) > 0 then d * 2 ||| 1 else d * 2) = d * 2 + first.toNat / 2 ^ (7 - i) % 2 := by
      by_cases hb : first.toNat / 2 ^ (7 - i) % 2 = 1
      · rw [if_pos ((testbit_pos _ _).mpr hb), or_one, hb]
      · rw [if_neg (fun h => hb ((testbit_pos _ _).mp h))]; omega
    rw [e]
    have hd : first.toNat / 2 ^ (7 - i) = first.toNat / 2 ^ (8 - (i + (n + 1))) / 2 ^ n := by
      rw [Nat.div_div_eq_div_mul, ← Nat.pow_add]
      congr 2
      omega
    rw [hd]
    generalize first.toNat / 2 ^ (8 - (i + (n + 1))) = x
    rw [Nat.mod_pow_succ, pow_succ]
    ring

theorem addChecksum_val [Hashes] (e : Bytes) (h : e.length / 4 ≤ 8) : natOfBE (addChecksum e) = fullNumber e := by
  unfold addChecksum fullNumber checkBits computeChecksum
  dsimp only
  rw [natOfBE_natToBE, checksumLoop_val _ _ _ _ (by omega), Nat.zero_add, Nat.mod_eq_of_lt]
  exact checkBits_lt e h

/-! ### Words and places -/

theorem wordIndex_lt {wl : List Bytes} {v : Bytes} {i : ℕ} (h : wordIndex wl v = some i) : wl[i]? = some v := by
  induction wl generalizing i with
  | nil => cases h
  | cons w wl ih =>
    unfold wordIndex at h
    split at h
    · rename_i j hj
      cases Option.some.inj h
      rw [List.getElem?_cons_succ]
      exact ih hj
    · split at h
      · rename_i hw
        cases Option.some.inj h
        rw [List.getElem?_cons_zero, hw]
      · cases h

theorem wordIndex_of {wl : List Bytes} (hn : wl.Nodup) {v : Bytes} {i : ℕ} (h : wl[i]? = some v) : wordIndex wl v = some i := by
  induction wl generalizing i with
  | nil => cases h
  | cons w wl ih =>
    rw [List.nodup_cons] at hn
    unfold wordIndex
    cases i with
    | zero =>
      rw [List.getElem?_cons_zero] at h
      have h := Option.some.inj h
      subst h
      cases hj : wordIndex wl w with
      | none => dsimp only; rw [if_pos rfl]
      | some j => exact absurd (List.mem_of_getElem? (wordIndex_lt hj)) hn.1
    | succ i =>
      rw [List.getElem?_cons_succ] at h
      rw [ih hn.2 h]

theorem wordIndex_iff {wl : List Bytes} (hn : wl.Nodup) (v : Bytes) (i : ℕ) : wordIndex wl v = some i ↔ wl[i]? = some v :=
  ⟨wordIndex_lt, wordIndex_of hn⟩

/-- The lowest `n` digits to the base 2048. -/
def places : ℕ → ℕ → List ℕ
  | 0, _ => []
  | n + 1, v => places n (v / 2048) ++ [v % 2048]

theorem places_length (n v : ℕ) : (places n v).length = n := by
  induction n generalizing v with
  | zero => rfl
  | succ n ih => unfold places; rw [List.length_append, ih]; rfl

theorem places_lt (n v : ℕ) : ∀ i ∈ places n v, i < 2048 := by
  induction n generalizing v with
  | zero => intro i hi; cases hi
  | succ n ih =>
    intro i hi
    unfold places at hi
    rcases List.mem_append.mp hi with hi | hi
    · exact ih _ i hi
    · rw [List.mem_singleton.mp hi]; exact Nat.mod_lt _ (by decide)

theorem places_val (n v : ℕ) (h : v < 2048 ^ n) : valBE 2048 (places n v) = v := by
  induction n generalizing v with
  | zero => unfold places; rw [pow_zero] at h; simp [valBE]; omega
  | succ n ih =>
    unfold places
    rw [valBE_append, ih _ (by rw [Nat.div_lt_iff_lt_mul (by decide)]; rwa [pow_succ] at h)]
    have h1 : valBE 2048 [v % 2048] = v % 2048 := by simp [valBE]
    rw [h1, List.length_singleton, pow_one]
    omega

theorem wordsLoop_eq {wl : List Bytes} (hs : wl.length = 2048) (n : ℕ) : ∀ v acc,
    wordsLoop wl n v acc = .ok (wordsAt wl (places n v) ++ acc) := by
  induction n with
  | zero => intro v acc; rfl
  | succ n ih =>
    intro v acc
    unfold wordsLoop places
    have e : v &&& 2047 = v % 2048 := Nat.and_two_pow_sub_one_eq_mod v 11
    have hlt : v % 2048 < wl.length := by rw [hs]; exact Nat.mod_lt _ (by decide)
    dsimp only
    rw [e, List.getElem?_eq_getElem hlt]
    dsimp only
    rw [ih]
    unfold wordsAt
    rw [List.map_append, List.append_assoc]
    simp [hlt]

theorem or_eq_add (b i : ℕ) (h : i < 2048) : b * 2048 ||| i % 65536 = b * 2048 + i := by
  rw [Nat.mod_eq_of_lt (by omega)]
  have := Nat.two_pow_add_eq_or_of_lt (i := 11) h b
  rw [Nat.mul_comm] at this
  exact this.symm

theorem wordsNumber_of {wl : List Bytes} (hw : WordList wl) {is : List ℕ} (h : ∀ i ∈ is, i < 2048) :
    ∀ b, wordsNumber wl (wordsAt wl is) b = .ok (b * 2048 ^ is.length + valBE 2048 is) := by
  induction is with
  | nil => intro b; simp [wordsAt, wordsNumber, valBE]
  | cons i is ih =>
    intro b
    have hi := h i List.mem_cons_self
    have e : wl[i]? = some (wl.getD i []) := by
      rw [List.getElem?_eq_getElem (by rw [hw.size]; exact hi), List.getD_eq_getElem _ _ (by rw [hw.size]; exact hi)]
    unfold wordsAt
    rw [List.map_cons]
    unfold wordsNumber
    rw [wordIndex_of hw.nodup e]
    dsimp only
    have := ih (fun j hj => h j (List.mem_cons_of_mem _ hj)) (b * 2048 ||| i % 65536)
    unfold wordsAt at this
    rw [this, or_eq_add b i hi, show i :: is = [i] ++ is from rfl, valBE_append, List.length_append, pow_add]
    simp [valBE]
    ring

theorem wordsNumber_inv {wl : List Bytes} (hw : WordList wl) (ws : List Bytes) : ∀ b n, wordsNumber wl ws b = .ok n →
    ∃ is, (∀ i ∈ is, i < 2048) ∧ ws = wordsAt wl is := by
  induction ws with
  | nil => intro b n _; exact ⟨[], by simp, rfl⟩
  | cons w ws ih =>
    intro b n h
    unfold wordsNumber at h
    split at h
    · cases h
    rename_i i hi
    have hi := wordIndex_lt hi
    obtain ⟨is, h1, h2⟩ := ih _ _ h
    have hlt : i < wl.length := by
      by_contra hc
      rw [List.getElem?_eq_none (by omega)] at hi
      cases hi
    refine ⟨i :: is, ?_, ?_⟩
    · intro j hj
      rcases List.mem_cons.mp hj with rfl | hj
      · rw [← hw.size]; exact hlt
      · exact h1 j hj
    · unfold wordsAt at h2 ⊢
      rw [List.map_cons, ← h2]
      rw [List.getElem?_eq_getElem hlt] at hi
      rw [List.getD_eq_getElem _ _ hlt, Option.some.inj hi]

theorem wordsNumber_no_panic (wl ws : List Bytes) : ∀ b, wordsNumber wl ws b ≠ .panic := by
  induction ws with
  | nil => intro b h; cases h
  | cons w ws ih =>
    intro b
    unfold wordsNumber
    split
    · intro h; cases h
    · exact ih _

theorem wordsAt_words {wl : List Bytes} (hw : WordList wl) {is : List ℕ} (h : ∀ i ∈ is, i < 2048) :
    ∀ w ∈ wordsAt wl is, Word w := by
  intro w hm
  obtain ⟨i, hi, rfl⟩ := List.mem_map.mp hm
  have hlt : i < wl.length := by rw [hw.size]; exact h i hi
  rw [List.getD_eq_getElem _ _ hlt]
  exact hw.words _ (List.getElem_mem hlt)

theorem wordsAt_inj {wl : List Bytes} (hw : WordList wl) {a b : List ℕ} (ha : ∀ i ∈ a, i < 2048) (hb : ∀ i ∈ b, i < 2048)
    (h : wordsAt wl a = wordsAt wl b) : a = b := by
  have h1 := wordsNumber_of hw ha 0
  rw [h, wordsNumber_of hw hb 0] at h1
  have h1 := Res.ok.inj h1
  have hl : a.length = b.length := by
    have := congrArg List.length h
    simpa [wordsAt] using this
  rw [Nat.zero_mul, Nat.zero_mul, Nat.zero_add, Nat.zero_add] at h1
  have e : ∀ (x y : List ℕ), x.length = y.length → (∀ i ∈ x, i < 2048) → (∀ i ∈ y, i < 2048) → valBE 2048 x = valBE 2048 y → x = y := by
    intro x y hl hx hy hv
    rw [valBE_eq, valBE_eq] at hv
    have := Nat.ofDigits_inj_of_len_eq (by decide : 1 < 2048) (by simpa using hl) (by simpa using hx) (by simpa using hy) hv
    exact List.reverse_injective this
  exact e a b hl ha hb h1.symm

/-! ### Both directions -/

theorem fullNumber_lt [Hashes] (e : Bytes) (h : EntropySize e.length) : fullNumber e < 2048 ^ (e.length / 4 * 3) := by
  obtain ⟨m, h1, h2, h3, h4⟩ := size_facts h
  have hc := checkBits_lt e (n := m) h3
  have he := natOfBE_lt e
  unfold fullNumber
  rw [h4]
  rw [h1] at he
  have e1 : (2048 : ℕ) ^ (m * 3) = 256 ^ (4 * m) * 2 ^ m := by
    rw [show (2048 : ℕ) = 2 ^ 11 by decide, show (256 : ℕ) = 2 ^ 8 by decide, ← Nat.pow_mul, ← Nat.pow_mul, ← Nat.pow_add]
    congr 1
    ring
  rw [e1]
  calc natOfBE e * 2 ^ m + checkBits e m < natOfBE e * 2 ^ m + 2 ^ m := by omega
    _ = (natOfBE e + 1) * 2 ^ m := by ring
    _ ≤ _ := Nat.mul_le_mul_right _ he

theorem pad_len (n k : ℕ) (h : n < 256 ^ k) : (padByteSlice (natToBE n) k).length = k ∧ natOfBE (padByteSlice (natToBE n) k) = n := by
  unfold padByteSlice
  have := natToBE_length_le h
  refine ⟨by rw [List.length_append, List.length_replicate]; omega, ?_⟩
  rw [natOfBE_replicate, natOfBE_natToBE]

theorem mask_of {m : ℕ} (h1 : 4 ≤ m) (h2 : m ≤ 8) : checksumMask (m * 3) = some (2 ^ m - 1) := by
  rcases (by omega : m = 4 ∨ m = 5 ∨ m = 6 ∨ m = 7 ∨ m = 8) with rfl | rfl | rfl | rfl | rfl <;> rfl

theorem shift_of [Hashes] {m : ℕ} (h1 : 4 ≤ m) (h2 : m ≤ 8) (e : Bytes) :
    (if m * 3 = 24 then some ((computeChecksum e).headD 0).toNat
      else (checksumShift (m * 3)).map (fun k => ((computeChecksum e).headD 0).toNat / k)) = some (checkBits e m) := by
  rcases (by omega : m = 4 ∨ m = 5 ∨ m = 6 ∨ m = 7 ∨ m = 8) with rfl | rfl | rfl | rfl | rfl <;>
    simp [checksumShift, checkBits, computeChecksum]

theorem splitWords_iff (s : Bytes) (ws : List Bytes) :
    splitMnemonicWords s = some ws ↔ Separated s ws ∧ ∃ m, 4 ≤ m ∧ m ≤ 8 ∧ ws.length = m * 3 := by
  unfold splitMnemonicWords
  dsimp only
  rw [← fields_iff]
  constructor
  · intro h
    split at h
    · cases h
    · cases Option.some.inj h
      exact ⟨rfl, (fields s).length / 3, by omega, by omega, by omega⟩
  · rintro ⟨rfl, m, h1, h2, h3⟩
    rw [if_neg (by omega)]

/-- What is decided after the words are found. -/
theorem entropy_decision [Hashes] {wl : List Bytes} (hw : WordList wl) {s : Bytes} {is : List ℕ} (hi : ∀ i ∈ is, i < 2048)
    {m : ℕ} (h1 : 4 ≤ m) (h2 : m ≤ 8) (hl : is.length = m * 3) (hs : Separated s (wordsAt wl is)) :
    entropyFromMnemonic wl s =
      (let e := padByteSlice (natToBE (valBE 2048 is / 2 ^ m)) (4 * m)
       if valBE 2048 is % 2 ^ m ≠ checkBits e m then .err errChecksum else .ok e) := by
  have hlw : (wordsAt wl is).length = m * 3 := by unfold wordsAt; rw [List.length_map, hl]
  unfold entropyFromMnemonic
  rw [(splitWords_iff s (wordsAt wl is)).mpr ⟨hs, m, h1, h2, hlw⟩]
  dsimp only
  rw [wordsNumber_of hw hi, Res.ok_bind, hlw, mask_of h1 h2]
  dsimp only
  rw [shift_of h1 h2, Nat.zero_mul, Nat.zero_add, Nat.and_two_pow_sub_one_eq_mod,
    show 2 ^ m - 1 + 1 = 2 ^ m from Nat.sub_add_cancel Nat.one_le_two_pow, Nat.mul_div_cancel _ (by decide : 0 < 3),
    Nat.mul_comm m 4]

theorem valBE_split {is : List ℕ} (hi : ∀ i ∈ is, i < 2048) {m : ℕ} (hl : is.length = m * 3) :
    valBE 2048 is / 2 ^ m < 256 ^ (4 * m) := by
  have := valBE_lt (by decide : 1 < 2048) hi
  rw [Nat.div_lt_iff_lt_mul (by positivity)]
  have e1 : (2048 : ℕ) ^ (m * 3) = 256 ^ (4 * m) * 2 ^ m := by
    rw [show (2048 : ℕ) = 2 ^ 11 by decide, show (256 : ℕ) = 2 ^ 8 by decide, ← Nat.pow_mul, ← Nat.pow_mul, ← Nat.pow_add]
    congr 1
    ring
  rwa [hl, e1] at this

theorem entropy_iff [Hashes] {wl : List Bytes} (hw : WordList wl) (s e : Bytes) :
    entropyFromMnemonic wl s = .ok e ↔ EntropySize e.length ∧ ∃ ws, Separated s ws ∧ Mnemonic wl e ws := by
  constructor
  · intro h
    have h0 := h
    unfold entropyFromMnemonic at h0
    split at h0
    · cases h0
    rename_i ws hws
    rw [Res.bind_eq_ok] at h0
    obtain ⟨b, hb, _⟩ := h0
    obtain ⟨hsep, m, h1, h2, h3⟩ := (splitWords_iff s ws).mp hws
    obtain ⟨is, hi, rfl⟩ := wordsNumber_inv hw ws _ _ hb
    have hl : is.length = m * 3 := by unfold wordsAt at h3; rwa [List.length_map] at h3
    rw [entropy_decision hw hi h1 h2 hl hsep] at h
    dsimp only at h
    obtain ⟨p1, p2⟩ := pad_len _ _ (valBE_split hi hl)
    split at h
    · cases h
    rename_i hc
    rw [not_not] at hc
    have h := Res.ok.inj h
    rw [h] at p1 p2 hc
    refine ⟨by rw [p1]; exact size_of h1 h2, _, hsep, is, ?_, rfl⟩
    rw [places_iff e (by rw [p1]; exact size_of h1 h2)]
    refine ⟨hi, by rw [p1, hl]; omega, ?_⟩
    unfold fullNumber
    rw [p1, Nat.mul_div_cancel_left m (by decide), p2, ← hc, Nat.mul_comm]
    exact (Nat.div_add_mod _ _).symm
  · rintro ⟨hsz, ws, hsep, is, hp, rfl⟩
    obtain ⟨m, g1, g2, g3, g4⟩ := size_facts hsz
    obtain ⟨hi, hl, hv⟩ := (places_iff e hsz is).mp hp
    rw [g4] at hl
    rw [entropy_decision hw hi g2 g3 hl hsep]
    dsimp only
    have hc := checkBits_lt e (n := m) g3
    unfold fullNumber at hv
    rw [g4] at hv
    have e1 : valBE 2048 is / 2 ^ m = natOfBE e := by
      rw [hv, Nat.mul_comm, Nat.mul_add_div (by positivity), Nat.div_eq_of_lt hc, Nat.add_zero]
    have e2 : valBE 2048 is % 2 ^ m = checkBits e m := by
      rw [hv, Nat.mul_comm, Nat.mul_add_mod, Nat.mod_eq_of_lt hc]
    obtain ⟨p1, p2⟩ := pad_len _ _ (valBE_split hi hl)
    have e3 : padByteSlice (natToBE (valBE 2048 is / 2 ^ m)) (4 * m) = e := by
      apply natOfBE_inj
      · rw [p1, g1]
      · rw [p2, e1]
    rw [e3, e2, if_neg (by simp)]

theorem entropy_no_panic [Hashes] {wl : List Bytes} (hw : WordList wl) (s : Bytes) : entropyFromMnemonic wl s ≠ .panic := by
  intro h
  have h0 := h
  unfold entropyFromMnemonic at h0
  split at h0
  · cases h0
  rename_i ws hws
  obtain ⟨hsep, m, h1, h2, h3⟩ := (splitWords_iff s ws).mp hws
  cases hb : wordsNumber wl ws 0 with
  | panic => exact wordsNumber_no_panic wl ws 0 hb
  | err e => rw [hb] at h0; cases h0
  | ok b =>
    obtain ⟨is, hi, rfl⟩ := wordsNumber_inv hw ws _ _ hb
    have hl : is.length = m * 3 := by unfold wordsAt at h3; rwa [List.length_map] at h3
    rw [entropy_decision hw hi h1 h2 hl hsep] at h
    dsimp only at h
    split at h <;> cases h

theorem newMnemonic_iff [Hashes] {wl : List Bytes} (hw : WordList wl) (e t : Bytes) :
    newMnemonic wl e = .ok t ↔ EntropySize e.length ∧ ∃ ws, Mnemonic wl e ws ∧ t = spaced ws := by
  by_cases hsz : EntropySize e.length
  · obtain ⟨m, g1, g2, g3, g4⟩ := size_facts hsz
    have hn : newMnemonic wl e = .ok (spaced (wordsAt wl (places (m * 3) (fullNumber e)))) := by
      unfold newMnemonic
      have hv : validateEntropyBitSize (e.length * 8) = .ok () := by
        unfold validateEntropyBitSize
        rw [if_neg (by omega)]
      dsimp only
      rw [hv, Res.ok_bind, wordsLoop_eq hw.size, Res.ok_bind, List.append_nil, join_eq, addChecksum_val e (by omega),
        show (e.length * 8 + e.length * 8 / 32) / 11 = m * 3 by omega]
      rfl
    have hp : Places e (places (m * 3) (fullNumber e)) := by
      rw [places_iff e hsz]
      refine ⟨places_lt _ _, by rw [places_length, g4], places_val _ _ ?_⟩
      have := fullNumber_lt e hsz
      rwa [g4] at this
    constructor
    · intro h
      rw [hn] at h
      exact ⟨hsz, _, ⟨_, hp, rfl⟩, (Res.ok.inj h).symm⟩
    · rintro ⟨_, ws, ⟨is, hp', rfl⟩, rfl⟩
      obtain ⟨a1, a2, a3⟩ := (places_iff e hsz _).mp hp
      obtain ⟨b1, b2, b3⟩ := (places_iff e hsz _).mp hp'
      have : places (m * 3) (fullNumber e) = is := by
        have hv : valBE 2048 (places (m * 3) (fullNumber e)) = valBE 2048 is := by rw [a3, b3]
        rw [valBE_eq, valBE_eq] at hv
        exact List.reverse_injective (Nat.ofDigits_inj_of_len_eq (by decide : 1 < 2048) (by simp [a2, b2]) (by simpa using a1)
          (by simpa using b1) hv)
      rw [hn, this]
  · constructor
    · intro h
      exfalso
      unfold newMnemonic at h
      have hv : validateEntropyBitSize (e.length * 8) = .err errEntropyLength := by
        unfold validateEntropyBitSize EntropySize at *
        rw [if_pos (by omega)]
      dsimp only at h
      rw [hv] at h
      cases h
    · rintro ⟨h, _⟩
      exact absurd h hsz

/-! ### MnemonicToByteArray -/

theorem valid_iff {wl : List Bytes} (hw : WordList wl) (s : Bytes) :
    isMnemonicValid wl s = true ↔ ∃ is m, (∀ i ∈ is, i < 2048) ∧ 4 ≤ m ∧ m ≤ 8 ∧ is.length = m * 3 ∧ Separated s (wordsAt wl is) := by
  unfold isMnemonicValid
  dsimp only
  have at_of : ∀ ws : List Bytes, (∀ w ∈ ws, (wordIndex wl w).isSome = true) → ∃ is, (∀ i ∈ is, i < 2048) ∧ ws = wordsAt wl is := by
    intro ws
    induction ws with
    | nil => intro _; exact ⟨[], by simp, rfl⟩
    | cons w ws ih =>
      intro h
      obtain ⟨is, h1, h2⟩ := ih (fun v hv => h v (List.mem_cons_of_mem _ hv))
      obtain ⟨i, hi⟩ := Option.isSome_iff_exists.mp (h w List.mem_cons_self)
      have hg := wordIndex_lt hi
      obtain ⟨hlt, he⟩ := List.getElem?_eq_some_iff.mp hg
      refine ⟨i :: is, ?_, ?_⟩
      · intro j hj
        rcases List.mem_cons.mp hj with rfl | hj
        · rw [hw.size] at hlt; exact hlt
        · exact h1 j hj
      · unfold wordsAt at h2 ⊢
        rw [List.map_cons, ← h2, List.getD_eq_getElem _ _ hlt, he]
  constructor
  · intro h
    split at h
    · cases h
    rename_i hc
    obtain ⟨is, h1, h2⟩ := at_of (fields s) (List.all_eq_true.mp h)
    refine ⟨is, (fields s).length / 3, h1, by omega, by omega, ?_, (fields_iff s _).mp h2⟩
    have := congrArg List.length h2
    unfold wordsAt at this
    rw [List.length_map] at this
    omega
  · rintro ⟨is, m, h1, h2, h3, h4, h5⟩
    rw [(fields_iff s _).mpr h5]
    have hl : (wordsAt wl is).length = m * 3 := by unfold wordsAt; rw [List.length_map, h4]
    rw [if_neg (by omega), List.all_eq_true]
    intro w hm
    obtain ⟨i, hi, rfl⟩ := List.mem_map.mp hm
    have hlt : i < wl.length := by rw [hw.size]; exact h1 i hi
    rw [wordIndex_of hw.nodup (i := i) (by rw [List.getD_eq_getElem _ _ hlt]; exact List.getElem?_eq_getElem hlt)]
    rfl

theorem wordsSum_of {wl : List Bytes} (hw : WordList wl) {is : List ℕ} (h : ∀ i ∈ is, i < 2048) :
    wordsSum wl (wordsAt wl is) = valBE 2048 is := by
  have key : ∀ (is : List ℕ), (∀ i ∈ is, i < 2048) → ∀ b, (wordsAt wl is).foldl (fun n v => n * 2048 + (wordIndex wl v).getD 0) b
      = is.foldl (fun n i => n * 2048 + i) b := by
    intro is
    induction is with
    | nil => intro _ b; rfl
    | cons i is ih =>
      intro h b
      have hlt : i < wl.length := by rw [hw.size]; exact h i List.mem_cons_self
      unfold wordsAt at ih ⊢
      rw [List.map_cons, List.foldl_cons, List.foldl_cons, ih (fun j hj => h j (List.mem_cons_of_mem _ hj)),
        wordIndex_of hw.nodup (i := i) (by rw [List.getD_eq_getElem _ _ hlt]; exact List.getElem?_eq_getElem hlt)]
      rfl
  unfold wordsSum
  rw [key is h 0]
  rfl

theorem addChecksum_eq [Hashes] (e : Bytes) (h : e.length / 4 ≤ 8) : addChecksum e = natToBE (fullNumber e) := by
  have h1 := addChecksum_val e h
  unfold addChecksum at h1 ⊢
  dsimp only at h1 ⊢
  rw [natOfBE_natToBE] at h1
  rw [h1]

theorem array_decision [Hashes] {wl : List Bytes} (hw : WordList wl) {is : List ℕ} (hi : ∀ i ∈ is, i < 2048)
    {m : ℕ} (h1 : 4 ≤ m) (h2 : m ≤ 8) (hl : is.length = m * 3) (raw : Bool) :
    mnemonicToByteArray wl (spaced (wordsAt wl is)) raw =
      (let e := padByteSlice (natToBE (valBE 2048 is / 2 ^ m)) (4 * m)
       if valBE 2048 is % 2 ^ m ≠ checkBits e m then .err errChecksum
       else .ok (if raw then e else padByteSlice (natToBE (valBE 2048 is)) (4 * m + 1))) := by
  have hlw : (wordsAt wl is).length = m * 3 := by unfold wordsAt; rw [List.length_map, hl]
  have hws := wordsAt_words hw hi
  have hsep := separated_spaced hws
  have hsp : splitSpace (spaced (wordsAt wl is)) = wordsAt wl is :=
    split_spaced _ (fun v hv => word_no_space (hws v hv)) (by intro h; rw [h] at hlw; simp at hlw; omega)
  have hv := (valid_iff hw (spaced (wordsAt wl is))).mpr ⟨is, m, hi, h1, h2, hl, hsep⟩
  unfold mnemonicToByteArray
  dsimp only
  rw [hsp, hlw, hv, if_neg (by decide), wordsSum_of hw hi,
    show m * 3 * 11 % 32 = m by omega, show (m * 3 * 11 - m) / 8 + 1 = 4 * m + 1 by omega,
    show 4 * m + 1 - (4 * m + 1) % 4 = 4 * m by omega]
  obtain ⟨p1, p2⟩ := pad_len _ _ (valBE_split hi hl)
  generalize padByteSlice (natToBE (valBE 2048 is / 2 ^ m)) (4 * m) = e at p1 p2 ⊢
  rw [addChecksum_eq e (by omega)]
  have hsz : EntropySize e.length := by rw [p1]; exact size_of h1 h2
  have hp : (2048 : ℕ) ^ (m * 3) ≤ 256 ^ (4 * m + 1) := by
    rw [show (2048 : ℕ) = 2 ^ 11 by decide, show (256 : ℕ) = 2 ^ 8 by decide, ← Nat.pow_mul, ← Nat.pow_mul]
    exact Nat.pow_le_pow_right (by decide) (by omega)
  have q1 := pad_len (valBE 2048 is) (4 * m + 1) (by
    have := valBE_lt (by decide : 1 < 2048) hi
    rw [hl] at this
    omega)
  have q2 := pad_len (fullNumber e) (4 * m + 1) (by
    have := fullNumber_lt e hsz
    rw [p1, show 4 * m / 4 * 3 = m * 3 by omega] at this
    omega)
  have hf : fullNumber e = valBE 2048 is / 2 ^ m * 2 ^ m + checkBits e m := by
    unfold fullNumber
    rw [p1, p2, show 4 * m / 4 = m by omega]
  have hc := checkBits_lt e h2
  have hd := Nat.div_add_mod (valBE 2048 is) (2 ^ m)
  have hiff : padByteSlice (natToBE (valBE 2048 is)) (4 * m + 1) = padByteSlice (natToBE (fullNumber e)) (4 * m + 1) ↔
      valBE 2048 is % 2 ^ m = checkBits e m := by
    constructor
    · intro h
      have h := congrArg natOfBE h
      rw [q1.2, q2.2, hf] at h
      rw [Nat.mul_comm] at hd
      omega
    · intro h
      rw [← h, Nat.mul_comm, hd] at hf
      rw [hf]
  by_cases h : valBE 2048 is % 2 ^ m = checkBits e m
  · rw [if_neg (not_not.mpr (hiff.mpr h)), if_neg (not_not.mpr h)]
    cases raw <;> rfl
  · rw [if_pos (fun h' => h (hiff.mp h')), if_pos h]

theorem array_invalid [Hashes] {wl : List Bytes} {s : Bytes} (h : isMnemonicValid wl s = false) (raw : Bool) :
    mnemonicToByteArray wl s raw = .err errMnemonic := by
  unfold mnemonicToByteArray
  dsimp only
  rw [if_pos h]

theorem entropy_valid [Hashes] {wl : List Bytes} (hw : WordList wl) {s e : Bytes} (h : entropyFromMnemonic wl s = .ok e) :
    isMnemonicValid wl s = true := by
  obtain ⟨hsz, ws, hsep, is, hp, rfl⟩ := (entropy_iff hw s e).mp h
  obtain ⟨m, g1, g2, g3, g4⟩ := size_facts hsz
  obtain ⟨hi, hl, _⟩ := (places_iff e hsz is).mp hp
  exact (valid_iff hw s).mpr ⟨is, m, hi, g2, g3, by rw [hl, g4], hsep⟩

theorem array_no_panic [Hashes] (wl : List Bytes) (s : Bytes) (raw : Bool) : mnemonicToByteArray wl s raw ≠ .panic := by
  unfold mnemonicToByteArray
  dsimp only
  split
  · intro h; cases h
  · split
    · intro h; cases h
    · split <;> (intro h; cases h)

/-- A text of words and single spaces between them is the one way to read it. -/
theorem spaced_unique {ws vs : List Bytes} (hw : ∀ w ∈ ws, Word w) (h : Separated (spaced ws) vs) : vs = ws := by
  rw [← (fields_iff _ _).mpr h]
  exact (fields_iff _ _).mpr (separated_spaced hw)

end Toku.Bip39
