import Verif.Proof.Bip39
import Verif.Proof.Words
import Verif.Props.Pbkdf2
import Verif.Model.Sha
/-
C52, C53, C88: mnemonics and seeds.
-/
namespace Toku.Props
open Toku.Bip39 Toku.Spec

section
variable [Hashes]

/-! ### C52 -/

/-- **C52.** For an entropy of one of the five sizes, over every list of 2048 different words, the mnemonic is the text,
with single spaces, of three words for every four bytes; the places of the words in the list are the groups of 11 bits of
the entropy followed by its checksum. -/
theorem C52_mnemonic {wl : List Bytes} (hw : WordList wl) (e : Bytes) (h : EntropySize e.length) :
    ∃ is : List ℕ, is.length = e.length / 4 * 3 ∧ (∀ i ∈ is, i < 2048) ∧
      is.flatMap (bitsOf 11) = bitStream 8 e ++ (bitStream 8 (Hashes.sha256 e)).take (e.length / 4) ∧
      newMnemonic wl e = .ok (spaced (is.map (fun i => wl.getD i []))) := by
  obtain ⟨m, g1, g2, g3, g4⟩ := size_facts h
  have hp : Places e (places (m * 3) (fullNumber e)) := by
    rw [places_iff e h]
    refine ⟨places_lt _ _, by rw [places_length, g4], places_val _ _ ?_⟩
    have := fullNumber_lt e h
    rwa [g4] at this
  refine ⟨places (m * 3) (fullNumber e), by rw [places_length, g4], hp.1, hp.2, ?_⟩
  exact (newMnemonic_iff hw e _).mpr ⟨h, _, ⟨_, hp, rfl⟩, rfl⟩

/-- **C52.** Recovering the entropy from its mnemonic returns it, for each of the five sizes. -/
theorem C52_lossless {wl : List Bytes} (hw : WordList wl) (e : Bytes) (h : EntropySize e.length) :
    (newMnemonic wl e >>= entropyFromMnemonic wl) = .ok e := by
  obtain ⟨is, _, h2, h3, h4⟩ := C52_mnemonic hw e h
  rw [h4, Res.ok_bind]
  exact (entropy_iff hw _ e).mpr ⟨h, _, separated_spaced (wordsAt_words hw h2), is, ⟨h2, h3⟩, rfl⟩

/-- **C52.** Every other size is an error. -/
theorem C52_sizes (wl : List Bytes) (e : Bytes) (h : ¬ EntropySize e.length) : newMnemonic wl e = .err errEntropyLength := by
  unfold newMnemonic
  have hv : validateEntropyBitSize (e.length * 8) = .err errEntropyLength := by
    unfold validateEntropyBitSize EntropySize at *
    rw [if_pos (by omega)]
  dsimp only
  rw [hv]
  rfl

/-- **C52.** What `NewBIP39` makes, with whatever random bytes, is a mnemonic from which the list it has put in force
recovers those bytes. -/
theorem C52_new {english chinese japanese : List Bytes} (h1 : WordList english) (h2 : WordList chinese) (h3 : WordList japanese)
    (list : ℕ) (random : ℕ → UInt8) :
    ∃ wl mnemonic, newBIP39 english chinese japanese list random = (wl, .ok ((List.range 16).map random, mnemonic)) ∧
      (wl = english ∨ wl = chinese ∨ wl = japanese) ∧
      entropyFromMnemonic wl mnemonic = .ok ((List.range 16).map random) := by
  have key : ∀ wl, WordList wl → ∃ mnemonic, newMnemonic wl ((List.range 16).map random) = .ok mnemonic ∧
      entropyFromMnemonic wl mnemonic = .ok ((List.range 16).map random) := by
    intro wl hw
    have hsz : EntropySize ((List.range 16).map random).length := by
      rw [List.length_map, List.length_range]
      exact Or.inl rfl
    have := C52_lossless hw _ hsz
    rw [Res.bind_eq_ok] at this
    exact this
  have hlist : WordList (if list = 1 then chinese else if list = 2 then japanese else english) := by
    split
    · exact h2
    · split
      · exact h3
      · exact h1
  obtain ⟨m, hm1, hm2⟩ := key _ hlist
  refine ⟨_, m, ?_, ?_, hm2⟩
  · unfold newBIP39 newEntropy
    dsimp only
    rw [show validateEntropyBitSize 128 = .ok () from rfl, Res.ok_bind]
    show (_, (newMnemonic _ ((List.range 16).map random) >>= fun m => _)) = _
    rw [hm1]
    rfl
  · split
    · exact Or.inr (Or.inl rfl)
    · split
      · exact Or.inr (Or.inr rfl)
      · exact Or.inl rfl

omit [Hashes] in
/-- **C52.** The three lists of the library are lists of 2048 different words. -/
theorem C52_lists : WordList Words.english ∧ WordList Words.chinese ∧ WordList Words.japanese :=
  ⟨Words.english_wf, Words.chinese_wf, Words.japanese_wf⟩

/-! ### C53 -/

/-- **C53.** A text is accepted, with this entropy, exactly if its words with single spaces between them are the mnemonic
made from that entropy. -/
theorem C53_accepted {wl : List Bytes} (hw : WordList wl) (s e : Bytes) :
    entropyFromMnemonic wl s = .ok e ↔ ∃ ws, Separated s ws ∧ newMnemonic wl e = .ok (spaced ws) := by
  rw [entropy_iff hw]
  constructor
  · rintro ⟨h, ws, hs, hm⟩
    exact ⟨ws, hs, (newMnemonic_iff hw e _).mpr ⟨h, ws, hm, rfl⟩⟩
  · rintro ⟨ws, hs, hn⟩
    obtain ⟨h, vs, hm, he⟩ := (newMnemonic_iff hw e _).mp hn
    refine ⟨h, ws, hs, ?_⟩
    obtain ⟨is, hp, rfl⟩ := hm
    have h1 := separated_spaced (wordsAt_words hw hp.1)
    rw [← he] at h1
    have hwords : ∀ w ∈ ws, Word w := by
      clear he hn h1 hp h
      intro w hw
      induction hs with
      | nil _ => cases hw
      | last _ h _ => rw [List.mem_singleton] at hw; rw [hw]; exact h
      | cons _ h _ _ ih =>
        rcases List.mem_cons.mp hw with rfl | hw
        · exact h
        · exact ih hw
    rw [← spaced_unique hwords h1]
    exact ⟨is, hp, rfl⟩

/-- **C53.** Everything that is not accepted is an error; nothing panics. -/
theorem C53_no_panic {wl : List Bytes} (hw : WordList wl) (s : Bytes) :
    entropyFromMnemonic wl s ≠ .panic ∧ ∀ raw, mnemonicToByteArray wl s raw ≠ .panic :=
  ⟨entropy_no_panic hw s, array_no_panic wl s⟩

omit [Hashes] in
theorem wordsNumber_unknown {wl : List Bytes} {w : Bytes} (h : w ∉ wl) : ∀ (ws : List Bytes) (b : ℕ), w ∈ ws →
    wordsNumber wl ws b = .err errWord := by
  intro ws
  induction ws with
  | nil => intro b hm; cases hm
  | cons v ws ih =>
    intro b hm
    unfold wordsNumber
    split
    · rfl
    · rename_i i hi
      rcases List.mem_cons.mp hm with rfl | hm
      · exact absurd (List.mem_of_getElem? (wordIndex_lt hi)) h
      · exact ih _ hm

/-- **C53.** A number of words other than 12, 15, 18, 21 and 24 is an error. -/
theorem C53_count (wl : List Bytes) {s : Bytes} {ws : List Bytes} (hs : Separated s ws)
    (h : ws.length ∉ [12, 15, 18, 21, 24]) :
    entropyFromMnemonic wl s = .err errMnemonic ∧ isMnemonicValid wl s = false ∧
      ∀ raw, mnemonicToByteArray wl s raw = .err errMnemonic := by
  have hf := (fields_iff s ws).mpr hs
  have hc : ws.length % 3 ≠ 0 ∨ ws.length < 12 ∨ ws.length > 24 := by
    simp only [List.mem_cons, List.not_mem_nil, or_false] at h
    omega
  have hv : isMnemonicValid wl s = false := by
    unfold isMnemonicValid
    dsimp only
    rw [hf, if_pos hc]
  refine ⟨?_, hv, fun raw => array_invalid hv raw⟩
  unfold entropyFromMnemonic splitMnemonicWords
  dsimp only
  rw [hf, if_pos hc]

/-- **C53.** A word that is not in the list is an error. -/
theorem C53_unknown_word (wl : List Bytes) {s : Bytes} {ws : List Bytes} (hs : Separated s ws) {w : Bytes} (hw : w ∈ ws)
    (h : w ∉ wl) :
    (∃ err, entropyFromMnemonic wl s = .err err) ∧ isMnemonicValid wl s = false ∧
      ∀ raw, mnemonicToByteArray wl s raw = .err errMnemonic := by
  have hf := (fields_iff s ws).mpr hs
  have hv : isMnemonicValid wl s = false := by
    unfold isMnemonicValid
    dsimp only
    rw [hf]
    split
    · rfl
    · rw [List.all_eq_false]
      refine ⟨w, hw, ?_⟩
      cases hi : wordIndex wl w with
      | none => simp
      | some i => exact absurd (List.mem_of_getElem? (wordIndex_lt hi)) h
  refine ⟨?_, hv, fun raw => array_invalid hv raw⟩
  unfold entropyFromMnemonic
  split
  · exact ⟨_, rfl⟩
  · rename_i vs hvs
    have : vs = ws := by
      rw [← hf]
      unfold splitMnemonicWords at hvs
      dsimp only at hvs
      split at hvs
      · cases hvs
      · exact (Option.some.inj hvs).symm
    rw [this, wordsNumber_unknown h ws 0 hw]
    exact ⟨_, rfl⟩

/-- **C53.** Words of the list, in the right number, that are not the mnemonic of any entropy: an error. -/
theorem C53_checksum {wl : List Bytes} (hw : WordList wl) {s : Bytes} {ws : List Bytes} (hs : Separated s ws)
    (hc : ws.length ∈ [12, 15, 18, 21, 24]) (hm : ∀ w ∈ ws, w ∈ wl) (h : ¬ ∃ e, newMnemonic wl e = .ok (spaced ws)) :
    entropyFromMnemonic wl s = .err errChecksum := by
  have hat : ∃ is : List ℕ, (∀ i ∈ is, i < 2048) ∧ ws = wordsAt wl is := by
    clear hs hc h
    induction ws with
    | nil => exact ⟨[], by simp, rfl⟩
    | cons w ws ih =>
      obtain ⟨is, h1, h2⟩ := ih (fun v hv => hm v (List.mem_cons_of_mem _ hv))
      obtain ⟨i, hi, he⟩ := List.mem_iff_getElem.mp (hm w List.mem_cons_self)
      refine ⟨i :: is, ?_, ?_⟩
      · intro j hj
        rcases List.mem_cons.mp hj with rfl | hj
        · rw [hw.size] at hi; exact hi
        · exact h1 j hj
      · unfold wordsAt at h2 ⊢
        rw [List.map_cons, ← h2, List.getD_eq_getElem _ _ hi, he]
  obtain ⟨is, hi, rfl⟩ := hat
  have hl : is.length ∈ [12, 15, 18, 21, 24] := by unfold wordsAt at hc; rwa [List.length_map] at hc
  simp only [List.mem_cons, List.not_mem_nil, or_false] at hl
  have hd := entropy_decision hw hi (m := is.length / 3) (by omega) (by omega) (by omega) hs
  dsimp only at hd
  split at hd
  · exact hd
  · obtain ⟨vs, h1, h2⟩ := (C53_accepted hw s _).mp hd
    rw [← (fields_iff _ _).mpr hs, (fields_iff _ _).mpr h1] at h
    exact absurd ⟨_, h2⟩ h

omit [Hashes] in
/-- **C53.** `IsMnemonicValid` looks at the number of the words and at the words, not at the checksum. -/
theorem C53_valid {wl : List Bytes} (s : Bytes) :
    isMnemonicValid wl s = true ↔ ∃ ws, Separated s ws ∧ ws.length ∈ [12, 15, 18, 21, 24] ∧ ∀ w ∈ ws, w ∈ wl := by
  have hf : Separated s (fields s) := (fields_iff s _).mp rfl
  have hmem : ∀ w, (wordIndex wl w).isSome = true ↔ w ∈ wl := by
    intro w
    constructor
    · intro h
      obtain ⟨i, hi⟩ := Option.isSome_iff_exists.mp h
      exact List.mem_of_getElem? (wordIndex_lt hi)
    · intro h
      clear hf
      induction wl with
      | nil => cases h
      | cons v wl ih =>
        unfold wordIndex
        split
        · rfl
        · rename_i hn
          rcases List.mem_cons.mp h with rfl | h
          · rw [if_pos rfl]; rfl
          · have := ih h
            rw [hn] at this
            cases this
  unfold isMnemonicValid
  dsimp only
  constructor
  · intro h
    split at h
    · cases h
    · refine ⟨_, hf, ?_, fun w hw => (hmem w).mp (List.all_eq_true.mp h w hw)⟩
      simp only [List.mem_cons, List.not_mem_nil, or_false]
      omega
  · rintro ⟨ws, h1, h2, h3⟩
    rw [(fields_iff s ws).mpr h1]
    simp only [List.mem_cons, List.not_mem_nil, or_false] at h2
    rw [if_neg (by omega), List.all_eq_true]
    exact fun w hw => (hmem w).mpr (h3 w hw)

/-- **C53 (partial).** The other way to read a mnemonic, `MnemonicToByteArray`, agrees with the recovery of the entropy
for texts of words with single spaces between them: it returns the entropy, or (without the optional argument) the bytes
whose bits are zero bits up to a whole byte, the entropy and its checksum. Missing: other texts, for which it is wrong, see
`C53_negation`. -/
theorem C53_array_partial {wl : List Bytes} (hw : WordList wl) {ws : List Bytes} (hws : ∀ w ∈ ws, Word w) (b : Bytes) :
    (mnemonicToByteArray wl (spaced ws) true = .ok b ↔ entropyFromMnemonic wl (spaced ws) = .ok b) ∧
    (mnemonicToByteArray wl (spaced ws) false = .ok b ↔ ∃ e, entropyFromMnemonic wl (spaced ws) = .ok e ∧
      bitStream 8 b = List.replicate (8 - e.length / 4) false ++ bitStream 8 e ++
        (bitStream 8 (Hashes.sha256 e)).take (e.length / 4)) := by
  by_cases hv : isMnemonicValid wl (spaced ws) = true
  · obtain ⟨is, m, hi, h1, h2, hl, hsep⟩ := (valid_iff hw _).mp hv
    have he := spaced_unique hws hsep
    subst he
    have hd := entropy_decision hw hi h1 h2 hl hsep
    rw [array_decision hw hi h1 h2 hl, array_decision hw hi h1 h2 hl, hd]
    dsimp only
    obtain ⟨p1, p2⟩ := pad_len _ _ (valBE_split hi hl)
    generalize padByteSlice (natToBE (valBE 2048 is / 2 ^ m)) (4 * m) = e at p1 p2 hd ⊢
    constructor
    · split
      · exact ⟨fun h => (by cases h), fun h => (by cases h)⟩
      · rw [if_pos rfl]
    · split
      · exact ⟨fun h => (by cases h), by rintro ⟨_, h, _⟩; cases h⟩
      · rename_i hc
        rw [not_not] at hc
        have hp : (2048 : ℕ) ^ (m * 3) ≤ 256 ^ (4 * m + 1) := by
          rw [show (2048 : ℕ) = 2 ^ 11 by decide, show (256 : ℕ) = 2 ^ 8 by decide, ← Nat.pow_mul, ← Nat.pow_mul]
          exact Nat.pow_le_pow_right (by decide) (by omega)
        obtain ⟨q1, q2⟩ := pad_len (valBE 2048 is) (4 * m + 1) (by
          have := valBE_lt (by decide : 1 < 2048) hi
          rw [hl] at this
          omega)
        generalize padByteSlice (natToBE (valBE 2048 is)) (4 * m + 1) = c at q1 q2 ⊢
        obtain ⟨c1, c2⟩ := check_val e (n := m) h2
        have e4 : e.length / 4 = m := by omega
        have hbits : bitStream 8 c = List.replicate (8 - m) false ++ bitStream 8 e ++ (bitStream 8 (Hashes.sha256 e)).take m := by
          apply bval_inj
          · rw [bitStream_length, List.length_append, List.length_append, List.length_replicate, bitStream_length, c2, q1, p1]
            omega
          · rw [bval_append, bval_append, bval_replicate, bytes_val, bytes_val, c1, c2, q2, p2, ← hc, Nat.zero_mul, Nat.zero_add]
            have := Nat.div_add_mod (valBE 2048 is) (2 ^ m)
            rw [Nat.mul_comm] at this
            omega
        constructor
        · intro h
          rw [if_neg (by decide)] at h
          have h := Res.ok.inj h
          subst h
          exact ⟨e, rfl, by rw [e4]; exact hbits⟩
        · rintro ⟨e', h, hb⟩
          have h := Res.ok.inj h
          subst h
          rw [if_neg (by decide)]
          congr 1
          rw [e4] at hb
          have hbc : bitStream 8 c = bitStream 8 b := hbits.trans hb.symm
          have hlen := congrArg List.length hbc
          rw [bitStream_length, bitStream_length] at hlen
          apply natOfBE_inj
          · omega
          · rw [← bytes_val, ← bytes_val, hbc]
  · rw [Bool.not_eq_true] at hv
    rw [array_invalid hv, array_invalid hv]
    constructor
    · exact ⟨fun h => (by cases h), fun h => (by rw [entropy_valid hw h] at hv; cases hv)⟩
    · constructor
      · intro h; cases h
      · rintro ⟨e, h, _⟩
        rw [entropy_valid hw h] at hv
        cases hv

/-- A text without the space character (tabs, or the ideographic space used with the Japanese list, between the words) is
one piece for `MnemonicToByteArray`, which then looks at no word at all. -/
theorem array_tabs {wl : List Bytes} (hw : WordList wl) {s : Bytes} {ws : List Bytes} (hs : Separated s ws)
    (hc : ws.length ∈ [12, 15, 18, 21, 24]) (hm : ∀ w ∈ ws, w ∈ wl) (hsp : 0x20 ∉ s) :
    mnemonicToByteArray wl s true = .ok [] ∧ mnemonicToByteArray wl s false = .ok [0] := by
  have hv := (C53_valid (wl := wl) s).mpr ⟨ws, hs, hc, hm⟩
  have hsplit : splitSpace s = [s] := by
    have : ∀ s : Bytes, 0x20 ∉ s → splitSpace s = [s] := by
      intro s
      induction s with
      | nil => intro _; rfl
      | cons c s ih =>
        intro h
        unfold splitSpace
        rw [if_neg (fun (hc : c = 0x20) => h (hc ▸ List.mem_cons_self)), ih (fun h' => h (List.mem_cons_of_mem _ h'))]
    exact this s hsp
  have hnone : wordIndex wl s = none := by
    cases hi : wordIndex wl s with
    | none => rfl
    | some i =>
      exfalso
      have hword := hw.words s (List.mem_of_getElem? (wordIndex_lt hi))
      have h1 : Separated ([] ++ s ++ []) [s] := .last .nil hword .nil
      rw [List.nil_append, List.append_nil] at h1
      rw [← (fields_iff _ _).mpr hs, (fields_iff _ _).mpr h1] at hc
      simp at hc
  have hsum : wordsSum wl [s] = 0 := by
    unfold wordsSum
    simp [hnone]
  have hz : natToBE 0 = [] := rfl
  have hadd : addChecksum [] = [] := rfl
  constructor
  · unfold mnemonicToByteArray
    dsimp only
    rw [hsplit, hv, hsum]
    simp [hz, hadd, padByteSlice]
  · unfold mnemonicToByteArray
    dsimp only
    rw [hsplit, hv, hsum]
    simp [hz, hadd, padByteSlice]

/-- **C53 fails for `MnemonicToByteArray`** (xcore/bip39/bip39.go:214, 231): it divides the text at single spaces while
the check of the words divides it at any white space. Words of the list with tabs between them are accepted whatever their
checksum, so `NewSeedWithErrorChecking` accepts them too; over every list and every hash there is such a text whose checksum
is wrong. -/
theorem C53_negation {wl : List Bytes} (hw : WordList wl) :
    (∀ s ws, Separated s ws → ws.length ∈ [12, 15, 18, 21, 24] → (∀ w ∈ ws, w ∈ wl) → 0x20 ∉ s →
      mnemonicToByteArray wl s false = .ok [0]) ∧
    ∃ s, mnemonicToByteArray wl s false = .ok [0] ∧ entropyFromMnemonic wl s = .err errChecksum := by
  refine ⟨fun s ws h1 h2 h3 h4 => (array_tabs hw h1 h2 h3 h4).2, ?_⟩
  -- the words of these places with tabs between them
  have text : ∀ is : List ℕ, (∀ i ∈ is, i < 2048) → is ≠ [] → ∃ s, Separated s (wordsAt wl is) ∧ 0x20 ∉ s := by
    intro is
    induction is with
    | nil => intro _ h; exact absurd rfl h
    | cons i is ih =>
      intro hi _
      have hword := wordsAt_words hw hi
      cases is with
      | nil =>
        have hw1 := hword _ List.mem_cons_self
        exact ⟨_, .last .nil hw1 .nil, by simpa using word_no_space hw1⟩
      | cons j is =>
        obtain ⟨s, h1, h2⟩ := ih (fun k hk => hi k (List.mem_cons_of_mem _ hk)) (by simp)
        have hw1 := hword _ List.mem_cons_self
        refine ⟨_, .cons .nil hw1 (sp := [0x09]) (by decide) h1, ?_⟩
        have := word_no_space hw1
        simp only [List.nil_append, List.mem_append, List.mem_singleton]
        rintro ((h | h) | h)
        · exact this h
        · revert h; decide
        · exact h2 h
  have pick : ∀ v < 2048, ∃ s, Separated s (wordsAt wl (List.replicate 11 0 ++ [v])) ∧ mnemonicToByteArray wl s false = .ok [0] ∧
      entropyFromMnemonic wl s =
        (let e := padByteSlice (natToBE (v / 2 ^ 4)) (4 * 4)
         if v % 2 ^ 4 ≠ checkBits e 4 then .err errChecksum else .ok e) := by
    intro v hv
    have hi : ∀ i ∈ List.replicate 11 0 ++ [v], i < 2048 := by
      intro i hi
      rcases List.mem_append.mp hi with h | h
      · rw [(List.mem_replicate.mp h).2]; decide
      · rw [List.mem_singleton.mp h]; exact hv
    obtain ⟨s, h1, h2⟩ := text _ hi (by simp)
    refine ⟨s, h1, (array_tabs hw h1 (by simp [wordsAt]) ?_ h2).2, ?_⟩
    · intro w hm
      obtain ⟨i, hi', rfl⟩ := List.mem_map.mp hm
      have hlt : i < wl.length := by rw [hw.size]; exact hi i hi'
      rw [List.getD_eq_getElem _ _ hlt]
      exact List.getElem_mem _
    · have := entropy_decision hw hi (m := 4) (by decide) (by decide) (by simp) h1
      rw [this]
      have hval : valBE 2048 (List.replicate 11 0 ++ [v]) = v := by simp [valBE, List.replicate]
      rw [hval]
  obtain ⟨s0, _, a0, b0⟩ := pick 0 (by decide)
  obtain ⟨s1, _, a1, b1⟩ := pick 1 (by decide)
  dsimp only at b0 b1
  rw [show (0 : ℕ) / 2 ^ 4 = 0 from rfl, show (0 : ℕ) % 2 ^ 4 = 0 from rfl] at b0
  rw [show (1 : ℕ) / 2 ^ 4 = 0 from rfl, show (1 : ℕ) % 2 ^ 4 = 1 from rfl] at b1
  by_cases h : 0 = checkBits (padByteSlice (natToBE 0) (4 * 4)) 4
  · rw [if_pos (by rw [← h]; decide)] at b1
    exact ⟨s1, a1, b1⟩
  · rw [if_pos h] at b0
    exact ⟨s0, a0, b0⟩

/-! ### C88 -/

/-- **C88.** The seed is 64 bytes, the bytes RFC 2898 prescribes for HMAC-SHA512 keyed with the bytes of the mnemonic, the
salt "mnemonic" followed by the password, and 2048 rounds. (BIP 39 asks for the NFKD form of both texts; nothing here
changes them.) -/
theorem C88_seed (mnemonic password : Bytes) :
    ∃ dk, newSeed mnemonic password = .ok dk ∧ dk.length = 64 ∧
      ∀ q < 64, dk.getD q 0 = Spec.Pbkdf2.byte (hmac512 mnemonic) 64
        ([0x6d, 0x6e, 0x65, 0x6d, 0x6f, 0x6e, 0x69, 0x63] ++ password) 2048 q := by
  have := C74_rfc2898 (hmac512 mnemonic) 64 (hmac512_length mnemonic) (by decide)
    (ascii ['m', 'n', 'e', 'm', 'o', 'n', 'i', 'c'] ++ password) 2048 64 (by decide)
  exact this

/-- **C88.** With error checking there is a seed exactly for the accepted texts, if the words have single spaces between
them, and it is the seed of the text. (`C53_negation` is about the other texts.) -/
theorem C88_checked_partial {wl : List Bytes} (hw : WordList wl) {ws : List Bytes} (hws : ∀ w ∈ ws, Word w)
    (password seed : Bytes) :
    newSeedWithErrorChecking wl (spaced ws) password = .ok seed ↔
      (∃ e, entropyFromMnemonic wl (spaced ws) = .ok e) ∧ newSeed (spaced ws) password = .ok seed := by
  unfold newSeedWithErrorChecking
  rw [Res.bind_eq_ok]
  constructor
  · rintro ⟨b, h1, h2⟩
    obtain ⟨e, h, _⟩ := ((C53_array_partial hw hws b).2).mp h1
    exact ⟨⟨e, h⟩, h2⟩
  · rintro ⟨⟨e, h⟩, h2⟩
    have hv := entropy_valid hw h
    obtain ⟨is, m, hi, h1, h2', hl, hsep⟩ := (valid_iff hw _).mp hv
    have he := spaced_unique hws hsep
    subst he
    have ha := (C53_array_partial hw hws e).1.mpr h
    have hd := array_decision hw hi h1 h2' hl true
    have hf := array_decision hw hi h1 h2' hl false
    dsimp only at hd hf
    split at hd
    · rw [hd] at ha; cases ha
    · rename_i hc
      rw [if_neg hc] at hf
      exact ⟨_, hf, h2⟩

/-- **C88.** The method `Seed` uses the password "TREZOR" for every mnemonic. -/
theorem C88_default (mnemonic : Bytes) : Bip39.seed mnemonic = newSeed mnemonic [0x54, 0x52, 0x45, 0x5a, 0x4f, 0x52] := rfl

/-- There are such lists. -/
example : WordList Words.english := C52_lists.1

/-- There are such texts: twelve times the first word, a tab between the words. -/
example : fields ((List.replicate 12 (Words.english.getD 0 [])).flatMap (fun w => w ++ [0x09])) =
    List.replicate 12 (Words.english.getD 0 []) := by decide +kernel

end

section
attribute [local instance] Sha.realHashes

/-- The mnemonic of 16 zero bytes: eleven times the first word, then the fourth. -/
example : newMnemonic Words.english (List.replicate 16 0) =
    .ok (spaced (List.replicate 11 (Words.english.getD 0 []) ++ [Words.english.getD 3 []])) := by decide +kernel

/-- With single spaces and some at the end `MnemonicToByteArray` takes twelve words for fifteen. -/
example : mnemonicToByteArray Words.english
      (spaced (List.replicate 11 (Words.english.getD 0 []) ++ [ascii ['a', 'd', 'm', 'i', 't']]) ++ [0x20, 0x20, 0x20]) false ≠
      .err errChecksum ∧
    entropyFromMnemonic Words.english
      (spaced (List.replicate 11 (Words.english.getD 0 []) ++ [ascii ['a', 'd', 'm', 'i', 't']]) ++ [0x20, 0x20, 0x20]) =
      .err errChecksum := by
  decide +kernel

end

end Toku.Props
