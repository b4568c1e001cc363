import Verif.Model.Big
import Mathlib.Data.Nat.Digits.Defs
import Mathlib.Data.Nat.Digits.Lemmas
/-
Numbers as digit lists: a big-endian digit list is determined by its leading zeros and its value.
-/
namespace Toku

theorem digitsLE_eq {b : Nat} (hb : 1 < b) : ∀ (fuel n : Nat), n ≤ fuel → digitsLE b fuel n = Nat.digits b n := by
  intro fuel
  induction fuel with
  | zero => intro n h; have : n = 0 := by omega
            subst this; simp [digitsLE]
  | succ f ih =>
    intro n h
    unfold digitsLE
    by_cases h0 : n = 0
    · subst h0; simp
    · rw [if_neg h0, Nat.digits_def' hb (by omega), ih]
      have := Nat.div_lt_self (by omega : 0 < n) hb
      omega

theorem digitsLE_self {b : Nat} (hb : 1 < b) (n : Nat) : digitsLE b n n = Nat.digits b n :=
  digitsLE_eq hb n n (Nat.le_refl _)

/-- big-endian value of a digit list -/
def valBE (b : Nat) (l : List Nat) : Nat := l.foldl (fun acc d => acc * b + d) 0

theorem valBE_eq (b : Nat) (l : List Nat) : valBE b l = Nat.ofDigits b l.reverse := by
  unfold valBE
  induction l using List.reverseRecOn with
  | nil => simp
  | append_singleton l d ih => simp [List.foldl_append, ih, Nat.ofDigits_cons]; ring

theorem valBE_append (b : Nat) (l m : List Nat) : valBE b (l ++ m) = valBE b l * b ^ m.length + valBE b m := by
  rw [valBE_eq, valBE_eq, valBE_eq, List.reverse_append, Nat.ofDigits_append]
  simp; ring

theorem valBE_lt {b : Nat} (hb : 1 < b) {l : List Nat} (h : ∀ d ∈ l, d < b) : valBE b l < b ^ l.length := by
  rw [valBE_eq]
  have := Nat.ofDigits_lt_base_pow_length hb (l := l.reverse) (by simpa using h)
  simpa using this

/-- number of leading zeros -/
def lz (l : List Nat) : Nat := (l.takeWhile (· == 0)).length

/-- the big-endian list with `z` leading zeros and value `n` -/
def rep (b z n : Nat) : List Nat := List.replicate z 0 ++ (Nat.digits b n).reverse

theorem digits_reverse_head {b n d : Nat} {t : List Nat} (h : (Nat.digits b n).reverse = d :: t) : d ≠ 0 := by
  have hn : n ≠ 0 := by rintro rfl; simp at h
  have := Nat.getLast_digit_ne_zero b hn
  have e : Nat.digits b n = (d :: t).reverse := by rw [← h, List.reverse_reverse]
  have hne : Nat.digits b n ≠ [] := by rw [e]; simp
  have h2 : (Nat.digits b n).getLast hne = d := by simp [e]
  rw [← h2]; exact this

theorem lz_rep (b z n : Nat) : lz (rep b z n) = z := by
  unfold lz rep
  induction z with
  | zero =>
    simp only [List.replicate_zero, List.nil_append]
    cases h : (Nat.digits b n).reverse with
    | nil => simp
    | cons d t => simp [digits_reverse_head h]
  | succ z ih => simpa [List.replicate_succ, List.takeWhile_cons] using ih

theorem valBE_rep (b z n : Nat) : valBE b (rep b z n) = n := by
  rw [valBE_eq, rep, List.reverse_append, List.reverse_reverse, List.reverse_replicate,
    Nat.ofDigits_append_replicate_zero, Nat.ofDigits_digits]

theorem rep_lt {b z n d : Nat} (hb : 1 < b) (h : d ∈ rep b z n) : d < b := by
  unfold rep at h
  rw [List.mem_append, List.mem_replicate, List.mem_reverse] at h
  rcases h with ⟨_, rfl⟩ | h
  · omega
  · exact Nat.digits_lt_base hb h

theorem rep_lz {b : Nat} (hb : 1 < b) {l : List Nat} (hl : ∀ d ∈ l, d < b) :
    rep b (lz l) (valBE b l) = l := by
  induction l with
  | nil => simp [rep, lz, valBE]
  | cons d t ih =>
    by_cases h0 : d = 0
    · subst h0
      have e1 : lz (0 :: t) = lz t + 1 := by simp [lz]
      have e2 : valBE b (0 :: t) = valBE b t := by simp [valBE]
      rw [e1, e2, rep, List.replicate_succ, List.cons_append]
      have := ih (fun d hd => hl d (by simp [hd]))
      rw [rep] at this; rw [this]
    · have e1 : lz (d :: t) = 0 := by simp [lz, h0]
      rw [e1, rep, List.replicate_zero, List.nil_append, valBE_eq, Nat.digits_ofDigits b hb]
      · simp
      · intro x hx; exact hl x (List.mem_reverse.mp hx)
      · intro _; simp [h0]

theorem natOfBE_eq (bs : Bytes) : natOfBE bs = valBE 256 (bs.map UInt8.toNat) := by
  unfold natOfBE valBE
  rw [List.foldl_map]

theorem map_ofNat_toNat (bs : Bytes) : (bs.map UInt8.toNat).map UInt8.ofNat = bs := by
  rw [List.map_map]
  conv_rhs => rw [← List.map_id bs]
  apply List.map_congr_left
  intro a _; simp

theorem map_toNat_ofNat {l : List Nat} (h : ∀ d ∈ l, d < 256) : (l.map UInt8.ofNat).map UInt8.toNat = l := by
  rw [List.map_map]
  conv_rhs => rw [← List.map_id l]
  apply List.map_congr_left
  intro a ha; simp [Nat.mod_eq_of_lt (h a ha)]

theorem toNat_map_lt (bs : Bytes) : ∀ d ∈ bs.map UInt8.toNat, d < 256 := by
  intro d hd
  simp only [List.mem_map] at hd
  obtain ⟨a, _, rfl⟩ := hd
  exact a.toNat_lt

theorem natToBE_eq (n : Nat) : natToBE n = (rep 256 0 n).map UInt8.ofNat := by
  unfold natToBE rep
  rw [digitsLE_self (by omega)]; simp

theorem natOfBE_natToBE (n : Nat) : natOfBE (natToBE n) = n := by
  rw [natOfBE_eq, natToBE_eq, map_toNat_ofNat, valBE_rep]
  intro d hd; exact rep_lt (by omega) hd

theorem natOfBE_lt (bs : Bytes) : natOfBE bs < 256 ^ bs.length := by
  rw [natOfBE_eq]
  have := valBE_lt (b := 256) (by omega) (toNat_map_lt bs)
  simpa using this

theorem natOfBE_append (a b : Bytes) : natOfBE (a ++ b) = natOfBE a * 256 ^ b.length + natOfBE b := by
  simp only [natOfBE_eq, List.map_append, valBE_append, List.length_map]

theorem natOfBE_replicate (z : Nat) (b : Bytes) : natOfBE (List.replicate z 0 ++ b) = natOfBE b := by
  induction z with
  | zero => simp
  | succ z ih => rw [List.replicate_succ, List.cons_append, ← ih]; simp [natOfBE]

theorem natToBE_length_le {n k : Nat} (h : n < 256 ^ k) : (natToBE n).length ≤ k := by
  rw [natToBE_eq, List.length_map, rep]
  simp only [List.replicate_zero, List.nil_append, List.length_reverse]
  by_cases h0 : n = 0
  · subst h0; simp
  · exact (Nat.digits_length_le_iff (by omega : 1 < 256) n).mpr h

/-- the fixed-width form: left-padded minimal bytes recover a byte string of that width -/
theorem pad_natToBE_natOfBE (bs : Bytes) :
    List.replicate (bs.length - (natToBE (natOfBE bs)).length) 0 ++ natToBE (natOfBE bs) = bs := by
  have h := rep_lz (b := 256) (by omega) (toNat_map_lt bs)
  have e : natToBE (natOfBE bs) = (rep 256 0 (valBE 256 (bs.map UInt8.toNat))).map UInt8.ofNat := by
    rw [natToBE_eq, natOfBE_eq]
  set z := lz (bs.map UInt8.toNat)
  set v := valBE 256 (bs.map UInt8.toNat)
  have hb : bs = List.replicate z 0 ++ natToBE (natOfBE bs) := by
    conv_lhs => rw [← map_ofNat_toNat bs, ← h]
    rw [e, rep, rep]; simp
  have hl := congrArg List.length hb
  simp only [List.length_append, List.length_replicate] at hl
  have : bs.length - (natToBE (natOfBE bs)).length = z := by omega
  rw [this]; exact hb.symm

theorem natOfBE_inj {a b : Bytes} (hl : a.length = b.length) (h : natOfBE a = natOfBE b) : a = b := by
  rw [← pad_natToBE_natOfBE a, ← pad_natToBE_natOfBE b, hl, h]

end Toku
