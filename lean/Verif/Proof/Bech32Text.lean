import Verif.Proof.Bech32
/-
Lemmas for Bech32: characters, separator search, checksum tails, and both directions of the codec.
-/
namespace Toku.Bech32
open Toku Toku.Base58

/-! ### characters -/

theorem charset_length : charset.length = 32 := by decide

theorem indexByte_spec : ∀ c : UInt8, ∀ i, indexByte charset c = some i → i < 32 ∧ charset.getD i 0 = c := by
  have : ∀ c : UInt8, match indexByte charset c with
      | some i => i < 32 ∧ charset.getD i 0 = c
      | none => True := by
    apply forall_uint8
    intro n
    have h : ∀ n : Fin 256, (match indexByte charset (UInt8.ofNat n.val) with
      | some i => decide (i < 32 ∧ charset.getD i 0 = (UInt8.ofNat n.val))
      | none => true) = true := by decide +kernel
    have := h n
    revert this
    cases indexByte charset (UInt8.ofNat n.val) <;> simp
  intro c i h
  have := this c
  rw [h] at this; exact this

theorem indexByte_charset (i : Nat) (h : i < 32) : indexByte charset (charset.getD i 0) = some i := by
  have : ∀ i : Fin 32, indexByte charset (charset.getD i.val 0) = some i.val := by decide +kernel
  exact this ⟨i, h⟩

theorem charset_ok (i : Nat) (h : i < 32) : charset.getD i 0 ≠ 0x31 ∧ 33 ≤ charset.getD i 0 ∧
    charset.getD i 0 ≤ 126 ∧ lowerByte (charset.getD i 0) = charset.getD i 0 := by
  have : ∀ i : Fin 32, charset.getD i.val 0 ≠ 0x31 ∧ 33 ≤ charset.getD i.val 0 ∧
    charset.getD i.val 0 ≤ 126 ∧ lowerByte (charset.getD i.val 0) = charset.getD i.val 0 := by decide +kernel
  exact this ⟨i, h⟩

theorem lower_lower : ∀ c : UInt8, lowerByte (lowerByte c) = lowerByte c := by
  apply forall_uint8; decide +kernel

/-! ### toBytes / toChars -/

/-- the text of a list of 5-bit values -/
def chars (d : Bytes) : Bytes := d.map (fun b => charset.getD b.toNat 0)

theorem toChars_ok {d : Bytes} (h : ∀ b ∈ d, b.toNat < 32) : toChars d = .ok (chars d) := by
  induction d with
  | nil => rfl
  | cons b d ih =>
    unfold toChars
    have hb := h b (by simp)
    rw [if_neg (by rw [charset_length]; omega), ih (fun x hx => h x (by simp [hx]))]
    rfl

theorem toChars_bad {d : Bytes} (h : ¬ ∀ b ∈ d, b.toNat < 32) : toChars d = .err .bech32Data := by
  induction d with
  | nil => simp at h
  | cons b d ih =>
    unfold toChars
    by_cases hb : b.toNat ≥ charset.length
    · rw [if_pos hb]
    · rw [if_neg hb, ih, Res.err_bind]
      rw [charset_length] at hb
      intro hall
      apply h
      intro x hx
      rcases List.mem_cons.mp hx with rfl | hx
      · omega
      · exact hall x hx

theorem toBytes_chars {d : Bytes} (h : ∀ b ∈ d, b.toNat < 32) : toBytes (chars d) = .ok d := by
  induction d with
  | nil => rfl
  | cons b d ih =>
    unfold chars toBytes
    rw [List.map_cons]
    simp only
    rw [indexByte_charset _ (h b (by simp))]
    simp only
    have := ih (fun x hx => h x (by simp [hx]))
    unfold chars at this
    rw [this, Res.ok_bind]
    simp

theorem toBytes_inv {s d : Bytes} (h : toBytes s = .ok d) : (∀ b ∈ d, b.toNat < 32) ∧ s = chars d := by
  induction s generalizing d with
  | nil =>
    unfold toBytes at h
    cases h; simp [chars]
  | cons c s ih =>
    unfold toBytes at h
    cases hi : indexByte charset c with
    | none => rw [hi] at h; cases h
    | some i =>
      rw [hi] at h
      simp only at h
      cases hr : toBytes s with
      | err e => rw [hr, Res.err_bind] at h; cases h
      | panic => rw [hr, Res.panic_bind] at h; cases h
      | ok r =>
        rw [hr, Res.ok_bind] at h
        simp only [Res.pure_eq, Res.ok.injEq] at h
        subst h
        obtain ⟨h1, h2⟩ := ih hr
        obtain ⟨hi1, hi2⟩ := indexByte_spec c i hi
        have e : (UInt8.ofNat i).toNat = i := by simp; omega
        constructor
        · intro b hb
          rcases List.mem_cons.mp hb with rfl | hb
          · rw [e]; exact hi1
          · exact h1 b hb
        · rw [h2]
          simp only [chars, List.map_cons, e]
          rw [hi2]

theorem chars_length (d : Bytes) : (chars d).length = d.length := by simp [chars]

theorem mem_chars {d : Bytes} (h : ∀ b ∈ d, b.toNat < 32) {c : UInt8} (hc : c ∈ chars d) :
    c ≠ 0x31 ∧ 33 ≤ c ∧ c ≤ 126 ∧ lowerByte c = c := by
  simp only [chars, List.mem_map] at hc
  obtain ⟨b, hb, rfl⟩ := hc
  exact charset_ok _ (h b hb)

/-! ### last separator -/

theorem lastIndexByte_none {s : Bytes} {c : UInt8} (h : c ∉ s) : lastIndexByte s c = none := by
  induction s with
  | nil => rfl
  | cons x s ih =>
    simp only [List.mem_cons, not_or] at h
    unfold lastIndexByte
    rw [ih h.2]
    simp [Ne.symm h.1]

theorem lastIndexByte_append {a b : Bytes} {c : UInt8} (h : c ∉ b) :
    lastIndexByte (a ++ c :: b) c = some a.length := by
  induction a with
  | nil =>
    simp only [List.nil_append, lastIndexByte, lastIndexByte_none h, List.length_nil, if_true]
  | cons x a ih => simp [lastIndexByte, ih]

theorem lastIndexByte_inv {s : Bytes} {c : UInt8} {i : Nat} (h : lastIndexByte s c = some i) :
    i < s.length ∧ s = s.take i ++ c :: s.drop (i + 1) ∧ c ∉ s.drop (i + 1) := by
  induction s generalizing i with
  | nil => cases h
  | cons x s ih =>
    unfold lastIndexByte at h
    cases hs : lastIndexByte s c with
    | some j =>
      rw [hs] at h
      simp only [Option.some.injEq] at h
      subst h
      obtain ⟨h1, h2, h3⟩ := ih hs
      refine ⟨by simp; exact h1, ?_, by simpa using h3⟩
      simp only [List.take_succ_cons, List.drop_succ_cons, List.cons_append]
      rw [← h2]
    | none =>
      rw [hs] at h
      simp only at h
      split at h
      · rename_i hx
        cases h
        refine ⟨by simp, by simp [hx], ?_⟩
        simp only [List.drop_succ_cons, List.drop_zero]
        intro hm
        have : ∀ s : Bytes, c ∈ s → ∃ j, lastIndexByte s c = some j := by
          intro s
          induction s with
          | nil => simp
          | cons y s ihs =>
            intro hm
            unfold lastIndexByte
            cases hh : lastIndexByte s c with
            | some j => exact ⟨_, rfl⟩
            | none =>
              rcases List.mem_cons.mp hm with rfl | hm
              · exact ⟨0, by simp⟩
              · obtain ⟨j, hj⟩ := ihs hm
                rw [hh] at hj; cases hj
        obtain ⟨j, hj⟩ := this s hm
        rw [hs] at hj; cases hj
      · cases h

/-! ### checksum tails -/

/-- state before the checksum -/
def pre (hrp data : Bytes) : Nat := run 1 (hrpExpand hrp ++ data.map UInt8.toNat)

theorem hrpExpand_lt (hrp : Bytes) : ∀ v ∈ hrpExpand hrp, v < 2^30 := by
  intro v hv
  unfold hrpExpand at hv
  simp only [List.mem_append, List.mem_map, List.mem_singleton] at hv
  rcases hv with (⟨c, _, rfl⟩ | rfl) | ⟨c, _, rfl⟩
  · have := (c >>> 5).toNat_lt; omega
  · omega
  · have := (c &&& 31).toNat_lt; omega

theorem pre_lt (hrp data : Bytes) : pre hrp data < 2^30 := by
  apply run_lt (by omega)
  intro v hv
  rw [List.mem_append] at hv
  rcases hv with hv | hv
  · exact hrpExpand_lt hrp v hv
  · simp only [List.mem_map] at hv
    obtain ⟨c, _, rfl⟩ := hv
    have := c.toNat_lt; omega

/-- the checksum number -/
def ckNum (hrp data : Bytes) : Nat := run (pre hrp data) [0,0,0,0,0,0] ^^^ 1

theorem ckNum_lt (hrp data : Bytes) : ckNum hrp data < 2^30 := by
  apply Nat.xor_lt_two_pow
  · apply run_lt (pre_lt _ _); intro v hv; simp at hv; omega
  · omega

theorem checksum_eq (hrp data : Bytes) : checksum hrp data =
    (List.range 6).map (fun i => UInt8.ofNat (ckNum hrp data / 2 ^ (5 * (5 - i)) % 32)) := by
  unfold checksum ckNum pre
  simp only
  apply List.map_congr_left
  intro i _
  rw [show (31 : Nat) = 2^5 - 1 from rfl, Nat.and_two_pow_sub_one_eq_mod, Nat.shiftRight_eq_div_pow,
    ← run_append]
  rfl

theorem checksum_length (hrp data : Bytes) : (checksum hrp data).length = 6 := by simp [checksum]

theorem checksum_lt (hrp data : Bytes) : ∀ b ∈ checksum hrp data, b.toNat < 32 := by
  intro b hb
  rw [checksum_eq, List.mem_map] at hb
  obtain ⟨i, _, rfl⟩ := hb
  simp only [UInt8.toNat_ofNat']
  omega

theorem six {l : Bytes} (h : l.length = 6) : ∃ a b c d e f, l = [a, b, c, d, e, f] := by
  match l, h with
  | [a, b, c, d, e, f], _ => exact ⟨a, b, c, d, e, f, rfl⟩

/-- A six-value tail makes the checksum verify exactly when it is the computed checksum. -/
theorem verify_iff (hrp data ck : Bytes) (hlen : ck.length = 6) (hck : ∀ b ∈ ck, b.toNat < 32) :
    verifyChecksum hrp (data ++ ck) = true ↔ ck = checksum hrp data := by
  obtain ⟨a, b, c, d, e, f, rfl⟩ := six hlen
  have ha := hck a (by simp)
  have hb := hck b (by simp)
  have hc := hck c (by simp)
  have hd := hck d (by simp)
  have he := hck e (by simp)
  have hf := hck f (by simp)
  have hv : verifyChecksum hrp (data ++ [a, b, c, d, e, f]) = true ↔
      (((((a.toNat * 32 + b.toNat) * 32 + c.toNat) * 32 + d.toNat) * 32 + e.toNat) * 32 + f.toNat) =
        ckNum hrp data := by
    unfold verifyChecksum
    rw [beq_iff_eq, List.map_append, ← List.append_assoc]
    have : polymod (hrpExpand hrp ++ data.map UInt8.toNat ++ [a, b, c, d, e, f].map UInt8.toNat) =
        run (pre hrp data) [a.toNat, b.toNat, c.toNat, d.toNat, e.toNat, f.toNat] := by
      unfold pre; rw [← run_append]; rfl
    rw [this, run6 _ ha hb hc hd he hf]
    unfold ckNum
    generalize run (pre hrp data) [0,0,0,0,0,0] = X
    generalize (((((a.toNat * 32 + b.toNat) * 32 + c.toNat) * 32 + d.toNat) * 32 + e.toNat) * 32 + f.toNat) = Y
    constructor
    · intro h
      have : X ^^^ (X ^^^ Y) = X ^^^ 1 := by rw [h]
      rwa [← Nat.xor_assoc, Nat.xor_self, Nat.zero_xor] at this
    · rintro rfl
      rw [← Nat.xor_assoc, Nat.xor_self, Nat.zero_xor]
  rw [hv, checksum_eq]
  generalize hn : ckNum hrp data = n
  have hnlt : n < 2^30 := hn ▸ ckNum_lt hrp data
  simp only [List.range_succ, List.range_zero, List.map_cons, List.map_nil, List.nil_append,
    List.cons_append, List.cons.injEq, and_true]
  have q : ∀ (x : UInt8) (m : Nat), x = UInt8.ofNat (m % 32) ↔ x.toNat = m % 32 := by
    intro x m
    constructor
    · rintro rfl; simp; omega
    · intro h; apply UInt8.toNat_inj.mp; rw [h]; simp; omega
  simp only [q]
  norm_num
  omega

/-! ### decode and encode -/

theorem any_bad_false {s : Bytes} (h : ∀ c ∈ s, 33 ≤ c ∧ c ≤ 126) :
    s.any (fun c => c < 33 || c > 126) = false := by
  rw [List.any_eq_false]
  intro c hc
  have := h c hc
  simp only [Bool.or_eq_true, decide_eq_true_eq, not_or, gt_iff_lt, UInt8.lt_iff_toNat_lt,
    UInt8.le_iff_toNat_le] at *
  omega

theorem encode_ok (hrp data : Bytes) (hd : ∀ b ∈ data, b.toNat < 32) :
    encode hrp data = .ok (hrp ++ 0x31 :: chars (data ++ checksum hrp data)) := by
  unfold encode
  simp only
  rw [toChars_ok, Res.ok_bind]
  · simp
  · intro b hb
    rw [List.mem_append] at hb
    rcases hb with hb | hb
    · exact hd b hb
    · exact checksum_lt _ _ b hb

theorem encode_bad (hrp data : Bytes) (hd : ¬ ∀ b ∈ data, b.toNat < 32) :
    encode hrp data = .err .bech32Data := by
  unfold encode
  simp only
  rw [toChars_bad, Res.err_bind]
  intro h; apply hd; intro b hb; exact h b (List.mem_append_left _ hb)

/-- decoding a lower-case text that is split at its last separator -/
theorem decode_lower (hrp body : Bytes) (hh : hrp ≠ []) (hlen : 8 ≤ hrp.length + 1 + body.length)
    (hlen2 : hrp.length + 1 + body.length ≤ 90)
    (hhc : ∀ c ∈ hrp, 33 ≤ c ∧ c ≤ 126 ∧ lowerByte c = c)
    (hbc : ∀ c ∈ body, c ≠ 0x31 ∧ 33 ≤ c ∧ c ≤ 126 ∧ lowerByte c = c) (h6 : 6 ≤ body.length) :
    decode (hrp ++ 0x31 :: body) = (toBytes body).bind (fun decoded =>
      if !verifyChecksum hrp decoded then .err .bech32Checksum
          else .ok (hrp, decoded.take (decoded.length - 6))) := by
  have hlow : toLower (hrp ++ 0x31 :: body) = hrp ++ 0x31 :: body := by
    unfold toLower
    conv_rhs => rw [← List.map_id (hrp ++ 0x31 :: body)]
    apply List.map_congr_left
    intro c hc
    simp only [List.mem_append, List.mem_cons] at hc
    rcases hc with hc | rfl | hc
    · exact (hhc c hc).2.2
    · rfl
    · exact (hbc c hc).2.2.2
  have hall : ∀ c ∈ hrp ++ 0x31 :: body, 33 ≤ c ∧ c ≤ 126 := by
    intro c hc
    simp only [List.mem_append, List.mem_cons] at hc
    rcases hc with hc | rfl | hc
    · exact ⟨(hhc c hc).1, (hhc c hc).2.1⟩
    · decide
    · exact ⟨(hbc c hc).2.1, (hbc c hc).2.2.1⟩
  have hl : (hrp ++ 0x31 :: body).length = hrp.length + 1 + body.length := by simp; omega
  have hpos : 0 < hrp.length := List.length_pos_iff.mpr hh
  unfold decode
  rw [if_neg (by rw [hl]; omega), any_bad_false hall]
  simp only [Bool.false_eq_true, if_false, hlow, ne_eq, not_true, false_and]
  rw [lastIndexByte_append (fun h => (hbc _ h).1 rfl)]
  simp only
  rw [if_neg (by rw [hl]; omega), List.take_left', show hrp.length + 1 = (hrp ++ [0x31]).length by simp,
    show hrp ++ 0x31 :: body = (hrp ++ [0x31]) ++ body by simp, List.drop_left']
  · rfl
  · rfl
  · rfl

theorem decode_inv {s hrp data : Bytes} (h : decode s = .ok (hrp, data)) :
    8 ≤ s.length ∧ s.length ≤ 90 ∧ (∀ c ∈ s, 33 ≤ c ∧ c ≤ 126) ∧ (s = toLower s ∨ s = toUpper s) ∧
    hrp ≠ [] ∧ (∀ b ∈ data, b.toNat < 32) ∧
    toLower s = hrp ++ 0x31 :: chars (data ++ checksum hrp data) := by
  unfold decode at h
  by_cases h1 : s.length < 8 ∨ s.length > 90
  · rw [if_pos h1] at h; cases h
  rw [if_neg h1] at h
  by_cases h2 : s.any (fun c => c < 33 || c > 126) = true
  · rw [if_pos h2] at h; cases h
  rw [if_neg h2] at h
  have hc : ∀ c ∈ s, 33 ≤ c ∧ c ≤ 126 := by
    intro c hc
    rw [List.any_eq_true, not_exists] at h2
    have := h2 c
    simp only [hc, true_and, Bool.or_eq_true, decide_eq_true_eq, not_or, gt_iff_lt, UInt8.lt_iff_toNat_lt,
      UInt8.le_iff_toNat_le] at *
    omega
  simp only at h
  by_cases h3 : s ≠ toLower s ∧ s ≠ toUpper s
  · rw [if_pos h3] at h; cases h
  rw [if_neg h3] at h
  have h3' : s = toLower s ∨ s = toUpper s := by
    by_cases hh : s = toLower s
    · exact Or.inl hh
    · exact Or.inr (by by_contra hu; exact h3 ⟨hh, hu⟩)
  cases ho : lastIndexByte (toLower s) 0x31 with
  | none => rw [ho] at h; cases h
  | some one =>
    rw [ho] at h
    simp only at h
    by_cases h4 : one < 1 ∨ one + 7 > (toLower s).length
    · rw [if_pos h4] at h; cases h
    rw [if_neg h4] at h
    obtain ⟨g1, g2, g3⟩ := lastIndexByte_inv ho
    cases hb : toBytes ((toLower s).drop (one + 1)) with
    | err e => rw [hb, Res.err_bind] at h; cases h
    | panic => rw [hb, Res.panic_bind] at h; cases h
    | ok dec =>
      rw [hb, Res.ok_bind] at h
      by_cases hv : verifyChecksum ((toLower s).take one) dec = true
      · simp only [hv, Bool.not_true, Bool.false_eq_true, if_false, Res.ok.injEq, Prod.mk.injEq] at h
        obtain ⟨rfl, rfl⟩ := h
        obtain ⟨k1, k2⟩ := toBytes_inv hb
        have hdl : dec.length = (toLower s).length - (one + 1) := by
          have := congrArg List.length k2
          rw [chars_length, List.length_drop] at this; omega
        have h6 : 6 ≤ dec.length := by omega
        have hsplit : dec = dec.take (dec.length - 6) ++ dec.drop (dec.length - 6) :=
          (List.take_append_drop _ _).symm
        have hlt : ∀ b ∈ dec.take (dec.length - 6), b.toNat < 32 := fun b hb => k1 b (List.mem_of_mem_take hb)
        have hck := (verify_iff ((toLower s).take one) (dec.take (dec.length - 6)) (dec.drop (dec.length - 6))
          (by rw [List.length_drop]; omega) (fun b hb => k1 b (List.mem_of_mem_drop hb))).mp
            (by rw [← hsplit]; exact hv)
        refine ⟨by omega, by omega, hc, h3', ?_, hlt, ?_⟩
        · intro he
          have := congrArg List.length he
          rw [List.length_take, List.length_nil] at this
          omega
        · rw [← hck, ← hsplit, ← k2]; exact g2
      · simp only [hv, Bool.not_false] at h
        cases h

end Toku.Bech32
