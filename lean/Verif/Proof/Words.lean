import Verif.Model.Words
import Verif.Spec.Bip39
import Verif.Proof.Big
import Mathlib.Data.List.Nodup
import Mathlib.Data.List.Count
/-
The three lists of words are lists of 2048 different words.
-/
namespace Toku.Words
open Toku.Spec

/-- The numbers are different: the list is cut in two by one bit of the remainder modulo 65521 after the other. -/
def different : ℕ → List ℕ → Bool
  | 0, l => decide l.Nodup
  | d + 1, l =>
    different d (l.filter (fun x => (x % 65521 / 2 ^ d) % 2 == 0)) && different d (l.filter (fun x => !((x % 65521 / 2 ^ d) % 2 == 0)))

theorem different_sound (d : ℕ) : ∀ l : List ℕ, different d l = true → l.Nodup := by
  induction d with
  | zero => intro l h; exact of_decide_eq_true h
  | succ d ih =>
    intro l h
    unfold different at h
    rw [Bool.and_eq_true] at h
    have h1 := List.nodup_iff_count_le_one.mp (ih _ h.1)
    have h2 := List.nodup_iff_count_le_one.mp (ih _ h.2)
    rw [List.nodup_iff_count_le_one]
    intro a
    by_cases ha : ((a % 65521 / 2 ^ d) % 2 == 0) = true
    · have := h1 a
      rwa [List.count_filter (p := fun x : ℕ => (x % 65521 / 2 ^ d) % 2 == 0) ha] at this
    · have := h2 a
      rwa [List.count_filter (p := fun x : ℕ => !((x % 65521 / 2 ^ d) % 2 == 0)) (by simpa using ha)] at this

/-- White space at the beginning of a text, decided by the first byte. -/
def startsSpace : List ℕ → Bool
  | [] => false
  | c :: t =>
    if c < 0x21 then true
    else if c = 0xc2 then (match t with | d :: _ => d == 0x85 || d == 0xa0 | [] => false)
    else if c = 0xe1 then (match t with | d :: _ => d == 0x9a | [] => false)
    else if c = 0xe2 then true
    else if c = 0xe3 then (match t with | d :: e :: _ => d == 0x80 && e == 0x80 | _ => false)
    else false

/-- No white space begins anywhere. -/
def noSpace : List ℕ → Bool
  | [] => true
  | c :: t => !startsSpace (c :: t) && noSpace t

theorem startsSpace_of : ∀ sp ∈ whiteSpace, ∀ t : List ℕ, startsSpace (sp.map UInt8.toNat ++ t) = true := by
  intro sp hsp t
  have : sp.map UInt8.toNat ∈ whiteSpace.map (List.map UInt8.toNat) := List.mem_map_of_mem hsp
  revert this
  generalize sp.map UInt8.toNat = ns
  intro h
  have e : whiteSpace.map (List.map UInt8.toNat) = [[9], [10], [11], [12], [13], [32], [194, 133], [194, 160], [225, 154, 128],
    [226, 128, 128], [226, 128, 129], [226, 128, 130], [226, 128, 131], [226, 128, 132], [226, 128, 133], [226, 128, 134],
    [226, 128, 135], [226, 128, 136], [226, 128, 137], [226, 128, 138], [226, 128, 168], [226, 128, 169], [226, 128, 175],
    [226, 129, 159], [227, 128, 128]] := by decide
  rw [e] at h
  simp only [List.mem_cons, List.not_mem_nil, or_false] at h
  rcases h with rfl | rfl | rfl | rfl | rfl | rfl | rfl | rfl | rfl | rfl | rfl | rfl | rfl | rfl | rfl | rfl | rfl | rfl |
    rfl | rfl | rfl | rfl | rfl | rfl | rfl <;> rfl

theorem noSpace_sound (a l : List ℕ) (h : noSpace (a ++ l) = true) (hl : l ≠ []) : startsSpace l = false := by
  induction a with
  | nil =>
    cases l with
    | nil => exact absurd rfl hl
    | cons c l =>
      rw [List.nil_append] at h
      unfold noSpace at h
      rw [Bool.and_eq_true, Bool.not_eq_true'] at h
      exact h.1
  | cons c a ih =>
    rw [List.cons_append] at h
    unfold noSpace at h
    rw [Bool.and_eq_true] at h
    exact ih h.2

theorem word_sound {w : Bytes} (h0 : w ≠ []) (h : noSpace (w.map UInt8.toNat) = true) : Word w := by
  refine ⟨h0, ?_⟩
  rintro sp hsp ⟨a, b, rfl⟩
  rw [List.append_assoc, List.map_append, List.map_append] at h
  have hne : sp.map UInt8.toNat ++ b.map UInt8.toNat ≠ [] := by
    intro h
    have hs := (List.append_eq_nil_iff.mp h).1
    rw [List.map_eq_nil_iff] at hs
    subst hs
    revert hsp; decide
  have h1 := noSpace_sound _ _ h hne
  rw [startsSpace_of sp hsp] at h1
  cases h1

/-- The check on the digits of the number of a word. -/
def okNumber (n : ℕ) : Bool := n != 0 && noSpace (digitsLE 256 n n).reverse

theorem okNumber_sound {n : ℕ} (h : okNumber n = true) : Word (natToBE n) := by
  unfold okNumber at h
  rw [Bool.and_eq_true] at h
  apply word_sound
  · intro h0
    have := natOfBE_natToBE n
    rw [h0] at this
    have : n = 0 := this.symm
    subst this
    exact absurd h.1 (by decide)
  · have e : (natToBE n).map UInt8.toNat = (digitsLE 256 n n).reverse := by
      rw [natToBE_eq, map_toNat_ofNat (fun d hd => rep_lt (by decide) hd), digitsLE_self (by decide)]
      simp [rep]
    rw [e]
    exact h.2

theorem wordList_of (ns : List ℕ) (h1 : ns.length = 2048)
    (h2 : different 11 ns = true)
    (h3 : ns.all okNumber = true) : WordList (ns.map natToBE) := by
  refine ⟨by rw [List.length_map, h1], ?_, ?_⟩
  · have hn : ns.Nodup := different_sound 11 ns h2
    refine hn.map ?_
    intro a b hab
    rw [← natOfBE_natToBE a, hab, natOfBE_natToBE]
  · intro w hw
    obtain ⟨n, hn, rfl⟩ := List.mem_map.mp hw
    exact okNumber_sound (List.all_eq_true.mp h3 n hn)

theorem english_size : englishNumbers.length = 2048 := by decide +kernel
theorem english_different : different 11 englishNumbers = true := by decide +kernel
theorem english_words : englishNumbers.all okNumber = true := by decide +kernel

theorem english_wf : WordList english := wordList_of _ english_size english_different english_words

theorem chinese_size : chineseNumbers.length = 2048 := by decide +kernel
theorem chinese_different : different 11 chineseNumbers = true := by decide +kernel
theorem chinese_words : chineseNumbers.all okNumber = true := by decide +kernel

theorem chinese_wf : WordList chinese := wordList_of _ chinese_size chinese_different chinese_words

theorem japanese_size : japaneseNumbers.length = 2048 := by decide +kernel
theorem japanese_different : different 11 japaneseNumbers = true := by decide +kernel
theorem japanese_words : japaneseNumbers.all okNumber = true := by decide +kernel

theorem japanese_wf : WordList japanese := wordList_of _ japanese_size japanese_different japanese_words

end Toku.Words
