import Verif.Model.Base58
import Verif.Proof.Big
/-
Lemmas for Base58: both directions through the (leading zeros, value) normal form.
-/
namespace Toku.Base58

theorem forall_uint8 {p : UInt8 → Prop} (h : ∀ n : Fin 256, p (UInt8.ofNat n.val)) : ∀ c, p c := by
  intro c
  have := h ⟨c.toNat, c.toNat_lt⟩
  simpa using this

theorem alphabet_length : alphabet.length = 58 := by decide

theorem lookup_alphabet (i : Nat) (hi : i < 58) : (lookup (alphabet.getD i 0)).toNat = i := by
  have : ∀ i : Fin 58, (lookup (alphabet.getD i.val 0)).toNat = i.val := by decide +kernel
  exact this ⟨i, hi⟩

theorem alphabet_lookup : ∀ c : UInt8, lookup c ≠ 255 →
    (lookup c).toNat < 58 ∧ alphabet.getD (lookup c).toNat 0 = c := by
  apply forall_uint8; decide +kernel

theorem lookup_zero_iff : ∀ c : UInt8, lookup c ≠ 255 →
    (c == alphabetIdx0) = ((lookup c).toNat == 0) := by
  apply forall_uint8; decide +kernel

theorem lookup_ne_iff : ∀ c : UInt8, lookup c ≠ 255 ↔ c ∈ alphabet := by
  apply forall_uint8; decide +kernel

theorem decodeLoop_none {cs : Bytes} {a j : Nat} (h : ∃ c ∈ cs, lookup c = 255) : decodeLoop cs a j = none := by
  induction cs generalizing a j with
  | nil => simp at h
  | cons c cs ih =>
    unfold decodeLoop
    by_cases hc : lookup c = 255
    · simp [hc]
    · simp only [hc, if_false]
      apply ih
      obtain ⟨x, hx, h⟩ := h
      rcases List.mem_cons.mp hx with rfl | hx
      · exact absurd h hc
      · exact ⟨x, hx, h⟩

theorem decodeLoop_some {cs : Bytes} (a j : Nat) (h : ∀ c ∈ cs, lookup c ≠ 255) :
    decodeLoop cs a j = some (a + j * Nat.ofDigits 58 (cs.map (fun c => (lookup c).toNat))) := by
  induction cs generalizing a j with
  | nil => simp [decodeLoop]
  | cons c cs ih =>
    unfold decodeLoop
    have hc := h c (by simp)
    simp only [hc, if_false]
    rw [ih _ _ (fun x hx => h x (by simp [hx]))]
    simp only [List.map_cons, Nat.ofDigits_cons]
    congr 1
    ring

/-- digit values of a text -/
def vals (s : Bytes) : List Nat := s.map (fun c => (lookup c).toNat)

theorem takeWhile_lookup {s : Bytes} (h : ∀ c ∈ s, lookup c ≠ 255) :
    (s.takeWhile (· == alphabetIdx0)).length = lz (vals s) := by
  induction s with
  | nil => simp [lz, vals]
  | cons c s ih =>
    have hc := lookup_zero_iff c (h c (by simp))
    have := ih (fun x hx => h x (by simp [hx]))
    unfold lz vals at *
    rw [List.map_cons, List.takeWhile_cons, List.takeWhile_cons, hc]
    split <;> simp [this]

theorem decode_valid {s : Bytes} (h : ∀ c ∈ s, lookup c ≠ 255) :
    decode s = (rep 256 (lz (vals s)) (valBE 58 (vals s))).map UInt8.ofNat := by
  unfold decode
  rw [decodeLoop_some 0 1 (by intro c hc; exact h c (by simpa using hc))]
  simp only [Nat.zero_add, Nat.one_mul]
  rw [takeWhile_lookup h, valBE_eq, natToBE_eq, rep, rep]
  simp [vals]

theorem takeWhile_zero (b : Bytes) : (b.takeWhile (· == 0)).length = lz (b.map UInt8.toNat) := by
  unfold lz
  induction b with
  | nil => simp
  | cons c b ih =>
    rw [List.map_cons, List.takeWhile_cons, List.takeWhile_cons]
    have : (c == 0) = (c.toNat == 0) := by
      by_cases hc : c = 0
      · subst hc; rfl
      · have : c.toNat ≠ 0 := fun h => hc (UInt8.toNat_inj.mp h)
        simp [hc, this]
    rw [this]
    split <;> simp [ih]

theorem encode_eq (b : Bytes) :
    encode b = (rep 58 (lz (b.map UInt8.toNat)) (valBE 256 (b.map UInt8.toNat))).map (fun m => alphabet.getD m 0) := by
  unfold encode
  simp only [digitsLE_self (by omega : 1 < 58), natOfBE_eq, rep, List.reverse_append, List.map_append,
    List.map_reverse, List.map_const', takeWhile_zero, List.reverse_replicate, List.map_replicate]
  congr 2

theorem encode_valid (b : Bytes) : ∀ c ∈ encode b, lookup c ≠ 255 := by
  intro c hc
  rw [encode_eq, List.mem_map] at hc
  obtain ⟨d, hd, rfl⟩ := hc
  have hd' := rep_lt (by omega) hd
  intro h
  have := lookup_alphabet d hd'
  rw [h] at this
  have e : (255 : UInt8).toNat = 255 := rfl
  omega

theorem vals_encode (b : Bytes) :
    vals (encode b) = rep 58 (lz (b.map UInt8.toNat)) (valBE 256 (b.map UInt8.toNat)) := by
  rw [encode_eq, vals, List.map_map]
  conv_rhs => rw [← List.map_id (rep 58 _ _)]
  apply List.map_congr_left
  intro d hd
  exact lookup_alphabet d (rep_lt (by omega) hd)

theorem decode_encode (b : Bytes) : decode (encode b) = b := by
  rw [decode_valid (encode_valid b), vals_encode, lz_rep, valBE_rep, rep_lz (by omega) (toNat_map_lt b),
    map_ofNat_toNat]

theorem vals_lt {s : Bytes} (h : ∀ c ∈ s, lookup c ≠ 255) : ∀ d ∈ vals s, d < 58 := by
  intro d hd
  simp only [vals, List.mem_map] at hd
  obtain ⟨c, hc, rfl⟩ := hd
  exact (alphabet_lookup c (h c hc)).1

theorem encode_decode {s : Bytes} (h : ∀ c ∈ s, lookup c ≠ 255) : encode (decode s) = s := by
  rw [encode_eq, decode_valid h, map_toNat_ofNat (fun d hd => rep_lt (by omega) hd), lz_rep, valBE_rep,
    rep_lz (by omega) (vals_lt h), vals, List.map_map]
  conv_rhs => rw [← List.map_id s]
  apply List.map_congr_left
  intro c hc
  exact (alphabet_lookup c (h c hc)).2

theorem decode_invalid {s : Bytes} (h : ∃ c ∈ s, lookup c = 255) : decode s = [] := by
  unfold decode
  rw [decodeLoop_none (by obtain ⟨c, hc, h⟩ := h; exact ⟨c, by simpa using hc, h⟩)]

end Toku.Base58
