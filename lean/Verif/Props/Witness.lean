import Verif.Proof.Bits
import Verif.Props.Bech32
/-
Properties C10, C11, C12, C13: bit regrouping, witness program text, identifiers (xbase/witness.go,
xbase/hash.go).
-/
namespace Toku.Props
open Toku Toku.Spec

/-- **C10.** Regrouping 8 to 5 with padding writes the same bit stream followed by fewer than five zero
bits, in five-bit groups. -/
theorem C10_regroup_bits (data : Bytes) : ∃ q p, Witness.convertBits data 8 5 true = .ok q ∧ p < 5 ∧
    (∀ b ∈ q, b.toNat < 32) ∧ bitStream 5 q = bitStream 8 data ++ List.replicate p false :=
  convert_pad_bits data

/-- **C10.** Regrouping and regrouping back returns the original bytes. -/
theorem C10_regroup_roundtrip (data : Bytes) :
    ∃ q, Witness.convertBits data 8 5 true = .ok q ∧ Witness.convertBits q 5 8 false = .ok data := by
  obtain ⟨q, h1, _, h2⟩ := Witness.convert_roundtrip data
  exact ⟨q, h1, h2⟩

/-- **C10.** The strict direction accepts only lists that are the padded regrouping of their result. -/
theorem C10_regroup_strict (q data : Bytes) (hq : ∀ b ∈ q, b.toNat < 32)
    (h : Witness.convertBits q 5 8 false = .ok data) : Witness.convertBits data 8 5 true = .ok q :=
  Witness.convert_canonical hq h

/-- **C10.** The strict direction accepts exactly: fewer than five leftover bits, all zero. -/
theorem C10_regroup_accepts_iff (q data : Bytes) (hq : ∀ b ∈ q, b.toNat < 32) :
    Witness.convertBits q 5 8 false = .ok data ↔
      ∃ p, p < 5 ∧ bitStream 5 q = bitStream 8 data ++ List.replicate p false := by
  constructor
  · intro h
    obtain ⟨q', p, e, hp, _, hb⟩ := C10_regroup_bits data
    rw [C10_regroup_strict q data hq h] at e
    cases e
    exact ⟨p, hp, hb⟩
  · rintro ⟨p, hp, hb⟩
    obtain ⟨q', e, h32, hr⟩ := Witness.convert_roundtrip data
    obtain ⟨q'', p', e', hp', _, hb'⟩ := C10_regroup_bits data
    rw [e] at e'
    cases e'
    have hl := congrArg List.length hb
    have hl' := congrArg List.length hb'
    simp only [List.length_append, bitStream_length, List.length_replicate] at hl hl'
    have hpp : p = p' := by omega
    rw [← hpp, ← hb] at hb'
    have : q' = q := by
      apply Witness.valW_inj (w := 5) (by omega) (by omega) h32 hq
      rw [← bval_bitStream 5 q' h32, ← bval_bitStream 5 q hq, hb']
    rw [← this]; exact hr

example : Witness.convertBits [0xff, 0x00] 8 5 true = .ok [31, 28, 0, 0] := by decide +kernel
example : Witness.convertBits [31, 28, 0, 1] 5 8 false = .err .convertNonZero := by decide +kernel
example : Witness.convertBits [31, 28, 0, 0, 0] 5 8 false = .ok [0xff, 0, 0] := by decide +kernel

/-- **C11.** A witness program text decodes to what was encoded. `8 * n` bits need at most
`(8 * n + 4) / 5` characters, so the length condition says that the text fits 90 characters. -/
theorem C11_witness_decode_encode (hrp : Bytes) (version : UInt8) (program : Bytes) (h1 : 1 ≤ hrp.length)
    (hh : ∀ c ∈ hrp, LowerPrintable c) (hv : version.toNat < 32)
    (hlen : hrp.length + 1 + (1 + (8 * program.length + 4) / 5) + 6 ≤ 90) :
    ∃ s, Witness.encode hrp version program = .ok s ∧ Witness.decode s = .ok (hrp, version, program) := by
  obtain ⟨q, e, h32, hr⟩ := Witness.convert_roundtrip program
  obtain ⟨q', p, e', hp, _, hb⟩ := C10_regroup_bits program
  rw [e] at e'
  cases e'
  have hl := congrArg List.length hb
  simp only [List.length_append, bitStream_length, List.length_replicate] at hl
  obtain ⟨s, es, ds, _⟩ := C07_decode_encode hrp (version :: q) h1 hh
    (by intro b hb; rcases List.mem_cons.mp hb with rfl | hb
        · exact hv
        · exact h32 b hb)
    (by simp only [List.length_cons]; omega)
  refine ⟨s, ?_, ?_⟩
  · unfold Witness.encode; rw [e, Res.ok_bind]; exact es
  · unfold Witness.decode; rw [ds, Res.ok_bind]; simp only; rw [hr, Res.ok_bind]; rfl

/-- **C11.** An accepted text re-encodes to its lower-case self. -/
theorem C11_witness_encode_decode (s hrp : Bytes) (version : UInt8) (program : Bytes)
    (h : Witness.decode s = .ok (hrp, version, program)) :
    Witness.encode hrp version program = .ok (lowered s) := by
  unfold Witness.decode at h
  cases hd : Bech32.decode s with
  | err e => rw [hd, Res.err_bind] at h; cases h
  | panic => rw [hd, Res.panic_bind] at h; cases h
  | ok r =>
    obtain ⟨hrp0, data⟩ := r
    rw [hd, Res.ok_bind] at h
    simp only at h
    cases data with
    | nil => cases h
    | cons v rest =>
      simp only at h
      obtain ⟨_, _, _, _, _, h6, h7⟩ := C08_decode_canonical s hrp0 (v :: rest) hd
      cases hc : Witness.convertBits rest 5 8 false with
      | err e => rw [hc, Res.err_bind] at h; cases h
      | panic => rw [hc, Res.panic_bind] at h; cases h
      | ok prog =>
        rw [hc, Res.ok_bind] at h
        simp only [Res.pure_eq, Res.ok.injEq, Prod.mk.injEq] at h
        obtain ⟨rfl, rfl, rfl⟩ := h
        unfold Witness.encode
        rw [C10_regroup_strict rest prog (fun b hb => h6 b (by simp [hb])) hc, Res.ok_bind, h7]

/-- **C11.** Two accepted lower-case texts for the same program are equal. -/
theorem C11_witness_unique (s t : Bytes) (r : Bytes × UInt8 × Bytes) (hs : Witness.decode s = .ok r)
    (ht : Witness.decode t = .ok r) : lowered s = lowered t := by
  obtain ⟨hrp, v, p⟩ := r
  have a := C11_witness_encode_decode s hrp v p hs
  rw [C11_witness_encode_decode t hrp v p ht] at a
  simpa using a.symm

example : LowerPrintable 0x62 ∧ LowerPrintable 0x63 := by unfold LowerPrintable; decide

/-- **C12, negation.** The nine characters `bc1gmk9yu` make `WitnessDecode` panic: the property "never
panics" is false of the code. -/
theorem C12_witness_decode_panics :
    Witness.decode (ascii ['b', 'c', '1', 'g', 'm', 'k', '9', 'y', 'u']) = .panic := by decide +kernel

/-- **C12 (partial).** Full statement: `WitnessDecode` never panics. Proved: it panics exactly on the
texts that are valid Bech32 with an empty data part, and on no others. -/
theorem C12_witness_decode_panic_iff_partial (s : Bytes) :
    Witness.decode s = .panic ↔ ∃ hrp, Bech32.decode s = .ok (hrp, []) := by
  have cb : ∀ x, Witness.convertBits x 5 8 false ≠ .panic := by
    intro x
    unfold Witness.convertBits
    simp only [Bool.false_eq_true, if_false]
    split
    · intro h; cases h
    · split <;> (intro h; cases h)
  constructor
  · intro h
    unfold Witness.decode at h
    cases hd : Bech32.decode s with
    | err e => rw [hd, Res.err_bind] at h; cases h
    | panic => exact absurd hd (C08_decode_total s)
    | ok r =>
      obtain ⟨hrp0, data⟩ := r
      rw [hd, Res.ok_bind] at h
      cases data with
      | nil => exact ⟨hrp0, rfl⟩
      | cons v rest =>
        simp only at h
        cases hc : Witness.convertBits rest 5 8 false with
        | err e => rw [hc, Res.err_bind] at h; cases h
        | panic => exact absurd hc (cb rest)
        | ok prog => rw [hc, Res.ok_bind] at h; cases h
  · rintro ⟨hrp, h⟩
    unfold Witness.decode
    rw [h, Res.ok_bind]

/-- **C12 (partial).** In particular the text of any encoded witness program is safe to decode. -/
theorem C12_no_panic_on_programs_partial (s hrp : Bytes) (v : UInt8) (rest : Bytes)
    (h : Bech32.decode s = .ok (hrp, v :: rest)) : Witness.decode s ≠ .panic := by
  rw [ne_eq, C12_witness_decode_panic_iff_partial]
  rintro ⟨hrp', h'⟩
  rw [h] at h'
  simp at h'

/-- **C13.** Parsing the display text returns the identifier. -/
theorem C13_id_roundtrip (id : Bytes) : Id.fromString (Id.toString id) = .ok id := by
  unfold Id.fromString Id.toString
  simp only [Id.swapLoop_reverse, Id.hexDecode_encode, Res.ok_bind]
  simp

/-- **C13.** The display text is the hexadecimal of the reversed bytes. -/
theorem C13_id_display_reversed (id : Bytes) : Id.toString id = Id.hexEncode id.reverse := by
  unfold Id.toString
  simp only [Id.swapLoop_reverse]

/-- **C13.** Every even-length hexadecimal text parses, and displays back as its lower-case form. -/
theorem C13_id_text_roundtrip (s : Bytes) (heven : s.length % 2 = 0) (hx : ∀ c ∈ s, IsHexChar c) :
    ∃ id, Id.fromString s = .ok id ∧ Id.toString id = s.map lowerAscii := by
  have key : ∀ s : Bytes, s.length % 2 = 0 → (∀ c ∈ s, IsHexChar c) →
      ∃ b, Id.hexDecode s = .ok b ∧ Id.hexEncode b = s.map lowerAscii := by
    intro s
    induction s using Id.hexDecode.induct with
    | case1 => intro _ _; exact ⟨[], rfl, rfl⟩
    | case2 => intro h _; simp at h
    | case3 a b rest x y hy hx ih =>
      intro hl hc
      obtain ⟨r, e1, e2⟩ := ih (by simp only [List.length_cons] at hl; omega) (fun c h => hc c (by simp [h]))
      obtain ⟨x16, hx'⟩ := Id.hexDigit_fromHex a x hx
      obtain ⟨y16, hy'⟩ := Id.hexDigit_fromHex b y hy
      refine ⟨UInt8.ofNat (x * 16 + y) :: r, ?_, ?_⟩
      · unfold Id.hexDecode
        rw [hx, hy]
        simp only
        rw [e1, Res.ok_bind]; rfl
      · unfold Id.hexEncode
        have en : (UInt8.ofNat (x * 16 + y)).toNat = x * 16 + y := by simp; omega
        rw [en, e2, show (x * 16 + y) / 16 = x by omega, show (x * 16 + y) % 16 = y by omega, hx', hy']
        rfl
    | case4 a b rest hne =>
      intro _ hc
      have ha := (Id.hexChar_iff a).mpr (hc a (by simp))
      have hb := (Id.hexChar_iff b).mpr (hc b (by simp))
      obtain ⟨x, hx⟩ := Option.isSome_iff_exists.mp ha
      obtain ⟨y, hy⟩ := Option.isSome_iff_exists.mp hb
      exact absurd hy (hne x y hx)
  obtain ⟨b, e1, e2⟩ := key s heven hx
  refine ⟨b.reverse, ?_, ?_⟩
  · unfold Id.fromString
    rw [e1, Res.ok_bind]
    simp only [Id.swapLoop_reverse]; rfl
  · rw [C13_id_display_reversed, List.reverse_reverse, e2]

/-- **C13.** Odd-length or non-hexadecimal text is rejected with an error. -/
theorem C13_id_rejects (s : Bytes) (h : s.length % 2 = 1 ∨ ∃ c ∈ s, ¬ IsHexChar c) :
    Id.fromString s = .err .hex := by
  have key : ∀ s : Bytes, (s.length % 2 = 1 ∨ ∃ c ∈ s, ¬ IsHexChar c) → Id.hexDecode s = .err .hex := by
    intro s
    induction s using Id.hexDecode.induct with
    | case1 => intro h; simp at h
    | case2 => intro _; rfl
    | case3 a b rest x y hy hx ih =>
      intro h
      have h' : rest.length % 2 = 1 ∨ ∃ c ∈ rest, ¬ IsHexChar c := by
        rcases h with h | ⟨c, hc, hn⟩
        · left; simp only [List.length_cons] at h; omega
        · right
          rcases List.mem_cons.mp hc with rfl | hc
          · exact absurd ((Id.hexChar_iff c).mp (by rw [hx]; rfl)) hn
          · rcases List.mem_cons.mp hc with rfl | hc
            · exact absurd ((Id.hexChar_iff c).mp (by rw [hy]; rfl)) hn
            · exact ⟨c, hc, hn⟩
      unfold Id.hexDecode
      rw [hx, hy]
      simp only
      rw [ih h', Res.err_bind]
    | case4 a b rest hne =>
      intro _
      unfold Id.hexDecode
      split
      · rename_i x y hx hy
        exact absurd hy (hne x y hx)
      · rfl
  unfold Id.fromString
  rw [key s h, Res.err_bind]

example : Id.toString [0x01, 0xab] = ascii ['a', 'b', '0', '1'] := by decide +kernel
example : Id.fromString (ascii ['A', 'b', '0', '1']) = .ok [0x01, 0xab] := by decide +kernel
example : (∃ c ∈ ascii ['g', '0'], ¬ IsHexChar c) := ⟨0x67, by decide, by unfold IsHexChar; decide⟩

end Toku.Props
