import Verif.Proof.Bech32Err
/-
Properties C07, C08, C09: Bech32 (xbase/bech32.go).
-/
namespace Toku.Props
open Toku

/-- A character allowed in a lower-case human-readable part: printable ASCII, no capital letter. -/
def LowerPrintable (c : UInt8) : Prop := 33 ≤ c.toNat ∧ c.toNat ≤ 126 ∧ ¬ (65 ≤ c.toNat ∧ c.toNat ≤ 90)

/-- Number of positions where two texts of equal length differ. -/
def differences (s t : Bytes) : Nat := (s.zip t).countP (fun p => p.1 ≠ p.2)

private theorem lowerByte_of {c : UInt8} (h : LowerPrintable c) :
    33 ≤ c ∧ c ≤ 126 ∧ Bech32.lowerByte c = c := by
  obtain ⟨h1, h2, h3⟩ := h
  refine ⟨UInt8.le_iff_toNat_le.mpr h1, UInt8.le_iff_toNat_le.mpr h2, ?_⟩
  unfold Bech32.lowerByte
  rw [if_neg]
  rintro ⟨a, b⟩
  exact h3 ⟨UInt8.le_iff_toNat_le.mp a, UInt8.le_iff_toNat_le.mp b⟩

/-- **C07.** Encoding succeeds and decoding the result returns the human-readable part and the values. -/
theorem C07_decode_encode (hrp data : Bytes) (h1 : 1 ≤ hrp.length) (hh : ∀ c ∈ hrp, LowerPrintable c)
    (hd : ∀ b ∈ data, b.toNat < 32) (hlen : hrp.length + 1 + data.length + 6 ≤ 90) :
    ∃ s, Bech32.encode hrp data = .ok s ∧ Bech32.decode s = .ok (hrp, data) ∧
      s.length = hrp.length + 1 + data.length + 6 := by
  have hall : ∀ b ∈ data ++ Bech32.checksum hrp data, b.toNat < 32 := by
    intro b hb
    rcases List.mem_append.mp hb with hb | hb
    · exact hd b hb
    · exact Bech32.checksum_lt _ _ b hb
  have hcl := Bech32.checksum_length hrp data
  refine ⟨_, Bech32.encode_ok hrp data hd, ?_, ?_⟩
  · rw [Bech32.decode_lower hrp _ (List.length_pos_iff.mp h1)
      (by rw [Bech32.chars_length, List.length_append, hcl]; omega)
      (by rw [Bech32.chars_length, List.length_append, hcl]; omega)
      (fun c hc => lowerByte_of (hh c hc)) (fun c hc => Bech32.mem_chars hall hc)
      (by rw [Bech32.chars_length, List.length_append, hcl]; omega), Bech32.toBytes_chars hall]
    simp only [Res.bind]
    rw [(Bech32.verify_iff hrp data _ hcl (Bech32.checksum_lt _ _)).mpr rfl]
    simp [hcl]
  · simp [Bech32.chars_length, hcl]; omega

/-- **C07**, counterpart: a value that does not fit five bits is refused, not encoded. -/
theorem C07_encode_rejects (hrp data : Bytes) (hd : ∃ b ∈ data, 32 ≤ b.toNat) :
    Bech32.encode hrp data = .err .bech32Data := by
  apply Bech32.encode_bad
  obtain ⟨b, hb, h⟩ := hd
  intro hall
  have := hall b hb
  omega

example : LowerPrintable 0x62 ∧ (∀ b ∈ ([0, 14, 20] : Bytes), b.toNat < 32) := by
  constructor
  · unfold LowerPrintable; decide
  · decide
example : Bech32.encode [0x62, 0x63] [] =
    .ok (ascii ['b', 'c', '1', 'g', 'm', 'k', '9', 'y', 'u']) := by decide +kernel

/-- a capital letter -/
def Capital (c : UInt8) : Prop := 65 ≤ c.toNat ∧ c.toNat ≤ 90

/-- a small letter -/
def Small (c : UInt8) : Prop := 97 ≤ c.toNat ∧ c.toNat ≤ 122

instance (c : UInt8) : Decidable (Capital c) := inferInstanceAs (Decidable (_ ∧ _))
instance (c : UInt8) : Decidable (Small c) := inferInstanceAs (Decidable (_ ∧ _))

/-- a text with its capital letters (65 to 90) replaced by the small ones (97 to 122) -/
def lowered (s : Bytes) : Bytes := s.map fun c => if Capital c then UInt8.ofNat (c.toNat + 32) else c

private theorem all_bytes {P : UInt8 → Prop} (h : ∀ n : Fin 256, P (UInt8.ofFin n)) (c : UInt8) : P c := h c.toFin

theorem lowered_eq (s : Bytes) : lowered s = Bech32.toLower s := by
  have : ∀ c : UInt8, (if Capital c then UInt8.ofNat (c.toNat + 32) else c) = Bech32.lowerByte c := by
    refine all_bytes ?_
    decide +kernel
  unfold lowered Bech32.toLower
  exact List.map_congr_left fun c _ => this c

private theorem eq_lower_iff (s : Bytes) : s = Bech32.toLower s ↔ ∀ c ∈ s, ¬ Capital c := by
  have key : ∀ c : UInt8, c = Bech32.lowerByte c ↔ ¬ Capital c := all_bytes (by decide +kernel)
  induction s with
  | nil => simp [Bech32.toLower]
  | cons c s ih =>
    unfold Bech32.toLower at ih ⊢
    rw [List.map_cons, List.cons.injEq, key, List.forall_mem_cons, and_congr_right fun _ => ih]

private theorem eq_upper_iff (s : Bytes) : s = Bech32.toUpper s ↔ ∀ c ∈ s, ¬ Small c := by
  have key : ∀ c : UInt8, c = Bech32.upperByte c ↔ ¬ Small c := all_bytes (by decide +kernel)
  induction s with
  | nil => simp [Bech32.toUpper]
  | cons c s ih =>
    unfold Bech32.toUpper at ih ⊢
    rw [List.map_cons, List.cons.injEq, key, List.forall_mem_cons, and_congr_right fun _ => ih]

/-- **C08.** What an accepted text looks like: length, character range, no capital letter or no small letter, five-bit values, and
its lower-case form is exactly the encoding of the decoded parts. -/
theorem C08_decode_canonical (s hrp data : Bytes) (h : Bech32.decode s = .ok (hrp, data)) :
    8 ≤ s.length ∧ s.length ≤ 90 ∧
    (∀ c ∈ s, 33 ≤ c.toNat ∧ c.toNat ≤ 126) ∧
    ((∀ c ∈ s, ¬ Capital c) ∨ (∀ c ∈ s, ¬ Small c)) ∧
    hrp ≠ [] ∧ (∀ b ∈ data, b.toNat < 32) ∧
    Bech32.encode hrp data = .ok (lowered s) := by
  obtain ⟨h1, h2, h3, h4, h5, h6, h7⟩ := Bech32.decode_inv h
  refine ⟨h1, h2, ?_, h4.imp (eq_lower_iff s).mp (eq_upper_iff s).mp, h5, h6, ?_⟩
  · intro c hc
    exact ⟨UInt8.le_iff_toNat_le.mp (h3 c hc).1, UInt8.le_iff_toNat_le.mp (h3 c hc).2⟩
  · rw [Bech32.encode_ok _ _ h6, lowered_eq, h7]

/-- **C08.** So for each (hrp, data) at most one lower-case text is accepted. -/
theorem C08_unique_text (s t hrp data : Bytes) (hs : Bech32.decode s = .ok (hrp, data))
    (ht : Bech32.decode t = .ok (hrp, data)) : lowered s = lowered t := by
  have a := (C08_decode_canonical s hrp data hs).2.2.2.2.2.2
  have b := (C08_decode_canonical t hrp data ht).2.2.2.2.2.2
  rw [a] at b
  simpa using b

/-- **C08.** A text without small letters is read as its lower-case form is. -/
theorem C08_upper_case (s : Bytes) (h : ∀ c ∈ s, ¬ Small c) : Bech32.decode s = Bech32.decode (lowered s) := by
  have key : ∀ c : UInt8, Bech32.lowerByte (Bech32.lowerByte c) = Bech32.lowerByte c ∧
      ((c < 33 || c > 126) = (Bech32.lowerByte c < 33 || Bech32.lowerByte c > 126)) := all_bytes (by decide +kernel)
  have hl : Bech32.toLower (Bech32.toLower s) = Bech32.toLower s := by
    unfold Bech32.toLower
    rw [List.map_map]
    exact List.map_congr_left fun c _ => (key c).1
  have hlen : (Bech32.toLower s).length = s.length := by simp [Bech32.toLower]
  have hany : (Bech32.toLower s).any (fun c => c < 33 || c > 126) = s.any (fun c => c < 33 || c > 126) := by
    unfold Bech32.toLower
    rw [List.any_map]
    exact congrArg (fun f => s.any f) (funext fun c => ((key c).2).symm)
  have hu := (eq_upper_iff s).mpr h
  rw [lowered_eq]
  unfold Bech32.decode
  dsimp only
  rw [hl, hlen, hany, if_neg (fun hc : s ≠ Bech32.toLower s ∧ s ≠ Bech32.toUpper s => hc.2 hu),
    if_neg (fun hc : Bech32.toLower s ≠ Bech32.toLower s ∧ Bech32.toLower s ≠ Bech32.toUpper (Bech32.toLower s) => hc.1 rfl)]

/-- **C08.** Decoding never panics: every text is accepted or rejected with an error. -/
theorem C08_decode_total (s : Bytes) : Bech32.decode s ≠ .panic := by
  have tb : ∀ x : Bytes, Bech32.toBytes x ≠ .panic := by
    intro x
    induction x with
    | nil => intro h; cases h
    | cons c x ih =>
      unfold Bech32.toBytes
      cases Bech32.indexByte Bech32.charset c with
      | none => intro h; cases h
      | some i =>
        simp only
        cases hx : Bech32.toBytes x with
        | ok r => rw [Res.ok_bind]; intro h; cases h
        | err e => rw [Res.err_bind]; intro h; cases h
        | panic => exact absurd hx ih
  unfold Bech32.decode
  split
  · intro h; cases h
  split
  · intro h; cases h
  simp only
  split
  · intro h; cases h
  split
  · intro h; cases h
  rename_i one ho
  split
  · intro h; cases h
  cases hx : Bech32.toBytes ((Bech32.toLower s).drop (one + 1)) with
  | ok r => rw [Res.ok_bind]; split <;> (intro h; cases h)
  | err e => rw [Res.err_bind]; intro h; cases h
  | panic => exact absurd hx (tb _)


/-- **C08.** A text with a capital and a small letter is refused. -/
theorem C08_mixed_case (s : Bytes) (c d : UInt8) (hc : c ∈ s) (hd : d ∈ s) (h1 : Capital c) (h2 : Small d) :
    ∃ e, Bech32.decode s = .err e := by
  cases h : Bech32.decode s with
  | ok p =>
    exfalso
    rcases (C08_decode_canonical s p.1 p.2 h).2.2.2.1 with hx | hx
    · exact hx c hc h1
    · exact hx d hd h2
  | err e => exact ⟨e, rfl⟩
  | panic => exact absurd h (C08_decode_total s)

example : Bech32.decode (ascii ['A', '1', '2', 'U', 'E', 'L', '5', 'L']) = .ok (ascii ['a'], []) := by
  decide +kernel
example : Bech32.decode (ascii ['A', '1', '2', 'u', 'E', 'L', '5', 'L']) = .err .bech32Case := by
  decide +kernel

private theorem chars_differences {D D' : Bytes} (hD : ∀ b ∈ D, b.toNat < 32) (hD' : ∀ b ∈ D', b.toNat < 32) :
    differences (Bech32.chars D) (Bech32.chars D') = differences D D' := by
  unfold differences
  induction D generalizing D' with
  | nil => simp [Bech32.chars]
  | cons a D ih =>
    cases D' with
    | nil => simp [Bech32.chars]
    | cons b D' =>
      have := ih (D' := D') (fun x hx => hD x (by simp [hx])) (fun x hx => hD' x (by simp [hx]))
      unfold Bech32.chars at this ⊢
      rw [List.map_cons, List.map_cons, List.zip_cons_cons, List.zip_cons_cons, List.countP_cons, List.countP_cons, this]
      congr 1
      have : Bech32.charset.getD a.toNat 0 ≠ Bech32.charset.getD b.toNat 0 ↔ a ≠ b := by
        constructor
        · intro h e; exact h (by rw [e])
        · intro h e
          have i1 := Bech32.indexByte_charset a.toNat (hD a (by simp))
          have i2 := Bech32.indexByte_charset b.toNat (hD' b (by simp))
          rw [e, i2] at i1
          exact h (UInt8.toNat_inj.mp (Option.some.inj i1).symm)
      simp only [decide_eq_true_eq, this]

private theorem mem_charset {c : UInt8} (h : c ∈ Bech32.charset) : ∃ i, i < 32 ∧ Bech32.charset.getD i 0 = c := by
  obtain ⟨i, hi, rfl⟩ := List.mem_iff_getElem.mp h
  refine ⟨i, by rw [← Bech32.charset_length]; exact hi, ?_⟩
  rw [Bech32.getD_lt hi]

private theorem exists_chars {s : Bytes} (h : ∀ c ∈ s, c ∈ Bech32.charset) :
    ∃ D : Bytes, (∀ b ∈ D, b.toNat < 32) ∧ s = Bech32.chars D := by
  induction s with
  | nil => exact ⟨[], by simp, rfl⟩
  | cons c s ih =>
    obtain ⟨D, h1, h2⟩ := ih (fun x hx => h x (by simp [hx]))
    obtain ⟨i, hi, e⟩ := mem_charset (h c (by simp))
    have en : (UInt8.ofNat i).toNat = i := by simp; omega
    refine ⟨UInt8.ofNat i :: D, ?_, ?_⟩
    · intro b hb
      rcases List.mem_cons.mp hb with rfl | hb
      · rw [en]; exact hi
      · exact h1 b hb
    · rw [h2]; simp only [Bech32.chars, List.map_cons, en, e]

/-- **C09, strengthened.** Take an accepted lower-case text `hrp ++ "1" ++ body` (split at its last
separator) and replace `body` by any text of the same length over the Bech32 characters that differs in
one to four places: the result is rejected with a checksum error. -/
theorem C09_detects_up_to_four (hrp body body' hrp0 data0 : Bytes)
    (hacc : Bech32.decode (hrp ++ 0x31 :: body) = .ok (hrp0, data0))
    (hlow : ∀ c ∈ hrp ++ 0x31 :: body, ¬ Capital c)
    (hsep : (0x31 : UInt8) ∉ body)
    (hlen : body'.length = body.length) (hcs : ∀ c ∈ body', c ∈ Bech32.charset)
    (h1 : 1 ≤ differences body body') (h4 : differences body body' ≤ 4) :
    Bech32.decode (hrp ++ 0x31 :: body') = .err .bech32Checksum := by
  obtain ⟨g1, g2, g3, g4, g5, g6, g7⟩ := Bech32.decode_inv hacc
  replace hlow := ((eq_lower_iff _).mpr hlow).symm
  rw [hlow] at g7
  have hall : ∀ b ∈ data0 ++ Bech32.checksum hrp0 data0, b.toNat < 32 := by
    intro b hb
    rcases List.mem_append.mp hb with hb | hb
    · exact g6 b hb
    · exact Bech32.checksum_lt _ _ b hb
  have hsep' : (0x31 : UInt8) ∉ Bech32.chars (data0 ++ Bech32.checksum hrp0 data0) :=
    fun h => (Bech32.mem_chars hall h).1 rfl
  have i1 := Bech32.lastIndexByte_append (a := hrp) hsep
  have i2 := Bech32.lastIndexByte_append (a := hrp0) hsep'
  rw [g7, i2, Option.some.injEq] at i1
  obtain ⟨rfl, e2⟩ := List.append_inj g7 i1.symm
  simp only [List.cons.injEq, true_and] at e2
  subst e2
  set D := data0 ++ Bech32.checksum hrp data0 with hDdef
  obtain ⟨D', hD', rfl⟩ := exists_chars hcs
  rw [Bech32.chars_length, Bech32.chars_length] at hlen
  rw [chars_differences hall hD'] at h1 h4
  have h6 : 6 ≤ D.length := by rw [hDdef, List.length_append, Bech32.checksum_length]; omega
  have hl : (hrp ++ 0x31 :: Bech32.chars D).length = hrp.length + 1 + D.length := by
    simp [Bech32.chars_length]; omega
  have hp : 0 < hrp.length := List.length_pos_iff.mpr g5
  have hv : Bech32.verifyChecksum hrp D = true :=
    (Bech32.verify_iff hrp data0 _ (Bech32.checksum_length _ _) (Bech32.checksum_lt _ _)).mpr rfl
  have hv' := Bech32.verify_detects hrp D D' hlen (by omega) hall hD' h1 h4 hv
  have hhc : ∀ c ∈ hrp, 33 ≤ c ∧ c ≤ 126 ∧ Bech32.lowerByte c = c := by
    intro c hc
    have := g3 c (List.mem_append_left _ hc)
    refine ⟨this.1, this.2, ?_⟩
    have hl' : Bech32.toLower hrp = hrp := by
      unfold Bech32.toLower at hlow ⊢
      rw [List.map_append] at hlow
      exact (List.append_inj hlow (by simp)).1
    obtain ⟨i, hi, rfl⟩ := List.mem_iff_getElem.mp hc
    have := congrArg (fun l => l[i]?) hl'
    simpa [Bech32.toLower, hi] using this
  rw [Bech32.decode_lower hrp _ g5 (by rw [Bech32.chars_length]; omega) (by rw [Bech32.chars_length]; omega)
    hhc (fun c hc => Bech32.mem_chars hD' hc) (by rw [Bech32.chars_length]; omega), Bech32.toBytes_chars hD']
  simp [Res.bind, hv']

/-- **C09.** One or two wrong characters are always detected. -/
theorem C09_detects_one_or_two (hrp body body' hrp0 data0 : Bytes)
    (hacc : Bech32.decode (hrp ++ 0x31 :: body) = .ok (hrp0, data0))
    (hlow : ∀ c ∈ hrp ++ 0x31 :: body, ¬ Capital c)
    (hsep : (0x31 : UInt8) ∉ body)
    (hlen : body'.length = body.length) (hcs : ∀ c ∈ body', c ∈ Bech32.charset)
    (h12 : differences body body' = 1 ∨ differences body body' = 2) :
    Bech32.decode (hrp ++ 0x31 :: body') = .err .bech32Checksum :=
  C09_detects_up_to_four hrp body body' hrp0 data0 hacc hlow hsep hlen hcs (by omega) (by omega)

/-- the hypotheses are met by "bc1gmk9yu" and "bc1qmk9yp" -/
example : Bech32.decode ([0x62, 0x63] ++ 0x31 :: ascii ['g', 'm', 'k', '9', 'y', 'u']) = .ok ([0x62, 0x63], []) ∧
    (∀ c ∈ ascii ['q', 'm', 'k', '9', 'y', 'p'], c ∈ Bech32.charset) ∧
    differences (ascii ['g', 'm', 'k', '9', 'y', 'u']) (ascii ['q', 'm', 'k', '9', 'y', 'p']) = 2 := by
  refine ⟨by decide +kernel, by decide +kernel, by decide +kernel⟩

end Toku.Props
