import Verif.Proof.Base58
/-
Properties C04, C05, C06: Base58 and Base58Check (xbase/base58.go).
-/
namespace Toku.Props
open Toku

/-- **C04.** Decoding inverts encoding for every byte string. -/
theorem C04_decode_encode (b : Bytes) : Base58.decode (Base58.encode b) = b :=
  Base58.decode_encode b

/-- **C04.** Hence two byte strings never share a text. -/
theorem C04_encode_injective (a b : Bytes) (h : Base58.encode a = Base58.encode b) : a = b := by
  rw [← C04_decode_encode a, h, C04_decode_encode]

example : Base58.encode [0, 0, 1, 0xff] = ascii ['1', '1', '9', 'p'] := by decide +kernel

/-- **C05.** Encoding inverts decoding on every text over the Base58 alphabet. -/
theorem C05_encode_decode (s : Bytes) (h : ∀ c ∈ s, c ∈ Base58.alphabet) :
    Base58.encode (Base58.decode s) = s :=
  Base58.encode_decode fun c hc => (Base58.lookup_ne_iff c).mpr (h c hc)

/-- **C05.** Hence two Base58 texts never decode to the same bytes. -/
theorem C05_decode_injective (s t : Bytes) (hs : ∀ c ∈ s, c ∈ Base58.alphabet)
    (ht : ∀ c ∈ t, c ∈ Base58.alphabet) (h : Base58.decode s = Base58.decode t) : s = t := by
  rw [← C05_encode_decode s hs, h, C05_encode_decode t ht]

/-- **C05.** Any text with a character outside the alphabet decodes to the empty byte string, and
encoding only ever produces alphabet characters. -/
theorem C05_invalid_empty (s : Bytes) (h : ∃ c ∈ s, c ∉ Base58.alphabet) : Base58.decode s = [] := by
  obtain ⟨c, hc, hn⟩ := h
  refine Base58.decode_invalid ⟨c, hc, ?_⟩
  by_contra hne
  exact hn ((Base58.lookup_ne_iff c).mp hne)

theorem C05_encode_alphabet (b : Bytes) : ∀ c ∈ Base58.encode b, c ∈ Base58.alphabet :=
  fun c hc => (Base58.lookup_ne_iff c).mp (Base58.encode_valid b c hc)

example : ∀ c ∈ ascii ['1', '9', 'p'], c ∈ Base58.alphabet := by decide
example : ∃ c ∈ ascii ['1', '0', 'p'], c ∉ Base58.alphabet := by decide

/-- **C06.** Decoding a Base58Check text returns the payload and the version. -/
theorem C06_check_decode_encode [Hashes] (payload : Bytes) (version : UInt8) :
    Base58.checkDecode (Base58.checkEncode payload version) = .ok (payload, version) := by
  have hck : (Base58.checksum (version :: payload)).length = 4 := by
    simp [Base58.checksum, sha256d_length]
  unfold Base58.checkDecode Base58.checkEncode
  simp only [Base58.decode_encode]
  have hl : (version :: payload ++ Base58.checksum (version :: payload)).length = payload.length + 5 := by
    simp [hck]
  rw [hl, if_neg (by omega)]
  have e : payload.length + 5 - 4 = (version :: payload).length := by simp
  rw [e, List.take_left', List.drop_left']
  · simp
  · rfl
  · rfl

/-- **C06.** Conversely a text that decodes to (payload, version) is exactly the Base58Check text of
(payload, version). -/
theorem C06_check_encode_decode [Hashes] (s payload : Bytes) (version : UInt8)
    (h : Base58.checkDecode s = .ok (payload, version)) : s = Base58.checkEncode payload version := by
  unfold Base58.checkDecode at h
  simp only at h
  by_cases h5 : (Base58.decode s).length < 5
  · rw [if_pos h5] at h; cases h
  · rw [if_neg h5] at h
    split at h
    · cases h
    · rename_i hck
      simp only [ne_eq, not_not] at hck
      simp only [Res.ok.injEq, Prod.mk.injEq] at h
      obtain ⟨h1, h2⟩ := h
      have hval : ∀ c ∈ s, c ∈ Base58.alphabet := by
        by_contra hne
        simp only [not_forall] at hne
        obtain ⟨c, hc, hn⟩ := hne
        rw [C05_invalid_empty s ⟨c, hc, hn⟩] at h5
        simp at h5
      have hb : (Base58.decode s).take ((Base58.decode s).length - 4) = version :: payload := by
        cases hd : Base58.decode s with
        | nil => rw [hd] at h5; simp at h5
        | cons x t =>
          rw [hd] at h1 h2 h5
          have : (x :: t).length - 4 = t.length - 4 + 1 := by simp at h5 ⊢; omega
          rw [this, List.take_succ_cons] at h1 ⊢
          simp only [List.headD_cons] at h2
          simp only [List.drop_succ_cons, List.drop_zero] at h1
          rw [h1, h2]
      unfold Base58.checkEncode
      simp only
      rw [hb] at hck
      rw [hck, ← hb, List.take_append_drop, C05_encode_decode s hval]

/-- **C06.** A text whose last four decoded bytes are not the checksum of the rest is rejected with a
checksum error; one decoding to fewer than five bytes is a format error. -/
theorem C06_check_reject [Hashes] (s body ck : Bytes) (hd : Base58.decode s = body ++ ck)
    (hck : ck.length = 4) (hne : body ≠ []) (hbad : (sha256d body).take 4 ≠ ck) :
    Base58.checkDecode s = .err .base58Checksum := by
  have hbl : 0 < body.length := List.length_pos_iff.mpr hne
  unfold Base58.checkDecode
  simp only [hd, List.length_append, hck]
  rw [if_neg (by omega)]
  have e : body.length + 4 - 4 = body.length := by omega
  rw [e, List.take_left', List.drop_left', if_pos]
  · exact hbad
  · rfl
  · rfl

theorem C06_check_short [Hashes] (s : Bytes) (h : (Base58.decode s).length < 5) :
    Base58.checkDecode s = .err .base58Format := by
  unfold Base58.checkDecode
  simp only
  rw [if_pos h]

example : @Base58.checkDecode toyHashes (@Base58.checkEncode toyHashes [1, 2, 3] 5) = .ok ([1, 2, 3], 5) := by
  decide +kernel
/-- hypotheses of `C06_check_reject` are met by a text with a wrong checksum -/
example : ∃ s body ck, Base58.decode s = body ++ ck ∧ ck.length = 4 ∧ body ≠ [] ∧
    (@sha256d toyHashes body).take 4 ≠ ck :=
  ⟨Base58.encode ([7] ++ [0, 0, 0, 0]), [7], [0, 0, 0, 0], C04_decode_encode _, rfl, by simp, by decide +kernel⟩

end Toku.Props
