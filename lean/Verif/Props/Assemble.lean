import Verif.Proof.Disasm
/-
C95, C96: scripts as text.
-/
namespace Toku.Props
open Toku.Spec Toku.Spec.Asm Toku.Assemble

private theorem assemble_eq (text : Bytes) : assemble text = (loadTokens Buffer.new (words text) >>= fun b => .ok b.data) := by
  unfold assemble load
  rw [split_words]
  rfl

/-- **C95 (partial).** For a text without malformed quotes: `Load` gives a script exactly when every word stands for
something, and then the script is the concatenation of what the words stand for. -/
theorem C95_assembles_partial (text code : Bytes) (hq : ∀ t ∈ words text, ¬ BadQuote t) :
    assemble text = .ok code ↔ Assembles text code := by
  rw [assemble_eq]
  constructor
  · intro h
    rcases loadTokens_cases Buffer.new (words text) with ⟨h1, b, hb⟩ | ⟨_, t, _, _, _, _, _, h5, h6⟩
    · have hc : ∀ ts : List Bytes, (∀ t ∈ ts, ∃ c, Denotes t c) → ∃ codes, List.Forall₂ Denotes ts codes := by
        intro ts
        induction ts with
        | nil => exact fun _ => ⟨[], .nil⟩
        | cons t ts ih =>
          intro h
          obtain ⟨c, hc⟩ := h t (by simp)
          obtain ⟨cs, hcs⟩ := ih (fun u hu => h u (by simp [hu]))
          exact ⟨c :: cs, .cons hc hcs⟩
      obtain ⟨codes, hcodes⟩ := hc _ (fun t ht => (h1 t ht).resolve_right (hq t ht))
      obtain ⟨b', e, d⟩ := loadTokens_denotes Buffer.new hcodes
      rw [e, Res.ok_bind] at h
      exact ⟨codes, hcodes, by rw [← Res.ok.inj h, d]; rfl⟩
    · rcases h6 with ⟨_, h6⟩ | ⟨_, h6⟩
      · rw [h5, h6, Res.panic_bind] at h; cases h
      · rw [h5, h6, Res.err_bind] at h; cases h
  · rintro ⟨codes, hcodes, rfl⟩
    obtain ⟨b', e, d⟩ := loadTokens_denotes Buffer.new hcodes
    rw [e, Res.ok_bind, d]
    rfl

/-- **C95.** A text stands for at most one script. -/
theorem C95_unambiguous (text code code' : Bytes) (h : Assembles text code) (h' : Assembles text code') : code = code' := by
  obtain ⟨cs, h1, rfl⟩ := h
  obtain ⟨cs', h1', rfl⟩ := h'
  obtain ⟨b, e, d⟩ := loadTokens_denotes Buffer.new h1
  obtain ⟨b', e', d'⟩ := loadTokens_denotes Buffer.new h1'
  rw [e] at e'
  rw [← Res.ok.inj e', d] at d'
  simpa [Buffer.new] using d'

/-- **C95.** Without any condition: `Load` fails exactly when some word neither stands for something nor is in quotes, and
the first such word is not the integer -2^63. -/
theorem C95_rejects_iff (text : Bytes) : (∃ e, assemble text = .err e) ↔ ∃ ws t ws', words text = ws ++ t :: ws' ∧
    (∀ u ∈ ws, (∃ c, Denotes u c) ∨ BadQuote u) ∧ (∀ c, ¬ Denotes t c) ∧ ¬ BadQuote t ∧ ¬ Integer t (-2^63) := by
  rw [assemble_eq]
  constructor
  · rintro ⟨e, he⟩
    rcases loadTokens_cases Buffer.new (words text) with ⟨_, b, hb⟩ | ⟨ws, t, ws', h1, h2, h3, h4, h5, h6⟩
    · rw [hb, Res.ok_bind] at he; cases he
    · rcases h6 with ⟨_, h6⟩ | ⟨hi, _⟩
      · rw [h5, h6, Res.panic_bind] at he; cases he
      · exact ⟨ws, t, ws', h1, h2, h3, h4, hi⟩
  · rintro ⟨ws, t, ws', h1, h2, h3, h4, hi⟩
    rcases loadTokens_cases Buffer.new (words text) with ⟨ha, _⟩ | ⟨us, u, us', g1, g2, g3, g4, g5, g6⟩
    · rcases ha t (by rw [h1]; simp) with ⟨c, hc⟩ | hc
      · exact absurd hc (h3 c)
      · exact absurd hc h4
    · rcases g6 with ⟨gi, _⟩ | ⟨_, g6⟩
      · exfalso
        obtain ⟨_, e⟩ : ws = us ∧ t :: ws' = u :: us' := by
          rw [h1] at g1
          rcases List.append_eq_append_iff.mp g1 with ⟨as, e1, e2⟩ | ⟨as, e1, e2⟩
          · cases as with
            | nil => exact ⟨by simpa using e1.symm, by simpa using e2⟩
            | cons a as =>
              have : t = a := (List.cons.inj e2).1
              rcases g2 t (by rw [e1, this]; simp) with ⟨c, hc⟩ | hc
              · exact absurd hc (h3 c)
              · exact absurd hc h4
          · cases as with
            | nil => exact ⟨by simpa using e1, by simpa using e2.symm⟩
            | cons a as =>
              have : u = a := (List.cons.inj e2).1
              rcases h2 u (by rw [e1, this]; simp) with ⟨c, hc⟩ | hc
              · exact absurd hc (g3 c)
              · exact absurd hc g4
        rw [(List.cons.inj e).1] at hi
        exact hi gi
      · exact ⟨errToken, by rw [g5, g6]; rfl⟩

/-- **C95, negation.** `Load` panics exactly when a word is the integer -2^63 and no earlier word is rejected. -/
theorem C95_panics_iff (text : Bytes) : assemble text = .panic ↔ ∃ ws t ws', words text = ws ++ t :: ws' ∧
    (∀ u ∈ ws, (∃ c, Denotes u c) ∨ BadQuote u) ∧ Integer t (-2^63) := by
  rw [assemble_eq]
  constructor
  · intro he
    rcases loadTokens_cases Buffer.new (words text) with ⟨_, b, hb⟩ | ⟨ws, t, ws', h1, h2, _, _, h5, h6⟩
    · rw [hb, Res.ok_bind] at he; cases he
    · rcases h6 with ⟨hi, _⟩ | ⟨_, h6⟩
      · exact ⟨ws, t, ws', h1, h2, hi⟩
      · rw [h5, h6, Res.err_bind] at he; cases he
  · rintro ⟨ws, t, ws', h, hw, ht⟩
    rw [h]
    have : ∀ b, loadTokens b (ws ++ t :: ws') = .panic := by
      clear h
      induction ws with
      | nil => intro b; rw [List.nil_append, loadTokens, loadToken_min b ht]; rfl
      | cons w ws ih =>
        intro b
        obtain ⟨b1, e⟩ : ∃ b1, loadToken b w = .ok b1 := by
          rcases hw w (by simp) with ⟨c, hc⟩ | ⟨x, hx, _⟩
          · obtain ⟨b1, e, _⟩ := load_denotes b hc
            exact ⟨b1, e⟩
          · exact ⟨_, load_quoted b hx⟩
        rw [List.cons_append, loadTokens, e, Res.ok_bind]
        exact ih (fun u hu => hw u (by simp [hu])) b1
    rw [this, Res.panic_bind]

/-- **C95, negation.** A word in quotes is never rejected. If its content is not hexadecimal, the push is of the bytes of
the longest hexadecimal beginning. -/
theorem C95_bad_quote (t h : Bytes) (hs : ∀ c ∈ t, c ≠ 0x20 ∧ c ≠ 0x0a ∧ c ≠ 0x09) (hq : Quoted t h) : ∃ p, p <+: h ∧ IsHex p ∧
    (∀ q, q <+: h → IsHex q → q.length ≤ p.length) ∧ assemble t = .ok (Script.addData Buffer.new (hexBytes p)).data := by
  obtain ⟨p, h1, h2, h3, h4⟩ := hexPrefix_spec h
  refine ⟨p, h1, h2, h4, ?_⟩
  have hw : words t = [t] := List.splitOnP_eq_singleton (by
    intro c hc
    have := hs c hc
    simp [this])
  rw [assemble_eq, hw, loadTokens, load_quoted _ hq, h3]
  rfl

/-- **C95.** Two separators in a row, or one at the beginning or the end, or an empty text, are not accepted. -/
theorem C95_empty_word (text : Bytes) (h : [] ∈ words text) (code : Bytes) : assemble text ≠ .ok code := by
  rw [assemble_eq]
  intro he
  rcases loadTokens_cases Buffer.new (words text) with ⟨ha, _⟩ | ⟨_, t, _, _, _, _, _, h5, h6⟩
  · rcases ha [] h with ⟨c, hc⟩ | ⟨x, hx, _⟩
    · exact denotes_nil c hc
    · have := congrArg List.length hx.2
      simp [ascii] at this
  · rcases h6 with ⟨_, h6⟩ | ⟨_, h6⟩
    · rw [h5, h6, Res.panic_bind] at he; cases he
    · rw [h5, h6, Res.err_bind] at he; cases he

example : assemble (ascii "OP_DUP OP_HASH160\t'0102'\nOP_EQUALVERIFY 0xac 17 -3".toList) =
    .ok [0x76, 0xa9, 0x02, 0x01, 0x02, 0x88, 0xac, 0x01, 0x11, 0x01, 0x83] := by decide +kernel
/-- malformed quotes: accepted, with another meaning -/
example : assemble (ascii "'050g'".toList) = .ok [0x55] := by decide +kernel
example : assemble (ascii "'0g'".toList) = .ok [0x00] := by decide +kernel
example : assemble (ascii "-9223372036854775808".toList) = .panic := by decide +kernel
example : assemble (ascii "OP_DUP  OP_DUP".toList) = .err errToken := by decide +kernel
example : Integer (ascii "-9223372036854775808".toList) (-2^63) :=
  ((parseInt_iff _ _).mp (by decide +kernel)).1

/-- **C96.** Disassembling a script that parses shows its tokens in order, separated by spaces: the name of the opcode, and
after each push the data in hexadecimal. -/
theorem C96_shows (ts : List Token) (hv : ∀ t ∈ ts, t.Valid) (hl : (encTokens ts).length < 2^62) :
    ∃ wss, List.Forall₂ Shown ts wss ∧ disasm (encTokens ts) = .ok (List.intercalate [0x20] wss.flatten) := by
  refine ⟨ts.map fun t => line (Script.instrOf t), ?_, ?_⟩
  · clear hl
    induction ts with
    | nil => exact .nil
    | cons t ts ih => exact .cons (line_shown (hv t (by simp)).1) (ih fun u hu => hv u (by simp [hu]))
  · rw [disasm_tokens hv hl, join_intercalate]
    rfl

/-- **C96.** It fails exactly when the script does not parse. -/
theorem C96_fails_iff (s : Bytes) (hl : s.length < 2^62) :
    (∃ e, disasm s = .err e) ↔ ¬ ∃ ts, (∀ t ∈ ts, Token.Valid t) ∧ s = encTokens ts := by
  constructor
  · rintro ⟨e, he⟩ ⟨ts, hv, rfl⟩
    rw [disasm_tokens hv hl] at he
    cases he
  · exact disasm_stuck hl

/-- **C96.** Different scripts have different texts. -/
theorem C96_injective (s s' text : Bytes) (hl : s.length < 2^62) (hl' : s'.length < 2^62) (h : disasm s = .ok text)
    (h' : disasm s' = .ok text) : s = s' := by
  have get : ∀ s : Bytes, s.length < 2^62 → disasm s = .ok text → ∃ ts, (∀ t ∈ ts, Token.Valid t) ∧ s = encTokens ts := by
    intro s hl h
    by_contra hn
    obtain ⟨e, he⟩ := disasm_stuck hl hn
    rw [h] at he
    cases he
  obtain ⟨ts, hv, rfl⟩ := get s hl h
  obtain ⟨ts', hv', rfl⟩ := get s' hl' h'
  rw [disasm_tokens hv hl] at h
  rw [disasm_tokens hv' hl'] at h'
  rw [join_lines_inj hv hv' ((Res.ok.inj h).trans (Res.ok.inj h').symm)]

/-- **C96 (partial).** A non-empty script without pushes of data is assembled back from its text. Missing: scripts with
data, see the negations below. -/
theorem C96_reassembles_partial (ts : List Token) (hv : ∀ t ∈ ts, t.Valid) (hne : ts ≠ []) (hl : (encTokens ts).length < 2^62)
    (hp : ∀ t ∈ ts, ¬ (1 ≤ t.op.toNat ∧ t.op.toNat ≤ 0x4e)) :
    ∃ text, disasm (encTokens ts) = .ok text ∧ assemble text = .ok (encTokens ts) := by
  refine ⟨_, disasm_tokens hv hl, ?_⟩
  obtain ⟨w, r, e, _⟩ := lines_ne hv hne
  rw [assemble_eq, words_join _ (by rw [e]; simp) (lines_no_sep hv)]
  have : List.Forall₂ Denotes (ts.flatMap fun t => line (Script.instrOf t)) (ts.map Token.enc) := by
    clear e hne hl
    induction ts with
    | nil => exact .nil
    | cons t ts ih =>
      have v := hv t (by simp)
      have hn := hp t (by simp)
      obtain ⟨n, hn', e⟩ := opName_table t.op v.1
      rw [List.flatMap_cons, line_eq v.1, if_neg hn, e]
      refine .cons ?_ (ih (fun u hu => hv u (by simp [hu])) (fun u hu => hp u (by simp [hu])))
      have hd : ¬ Direct t.op := fun h => hn ⟨h.1, by have := h.2; omega⟩
      have hw : lenWidth t.op = 0 := by unfold lenWidth; split_ifs <;> omega
      have hdata : t.data = [] := by
        have := v.2
        rw [if_neg hd, hw] at this
        exact List.length_eq_zero_iff.mp (by simpa using this)
      have he : t.enc = [t.op] := by unfold Token.enc; rw [hw, hdata]; rfl
      rw [he]
      exact .opcode ⟨n, table_take _ hn', rfl⟩
  obtain ⟨b, e, d⟩ := loadTokens_denotes Buffer.new this
  rw [e, Res.ok_bind, d]
  simp [Buffer.new, encTokens, List.flatMap_def]

/-- **C96, negation.** The text of a push is read back as something else: the data comes out as a number, or as nothing
known. -/
theorem C96_data_changed :
    disasm [0x01, 0x05] = .ok (ascii "OP_DATA_1 05".toList) ∧ assemble (ascii "OP_DATA_1 05".toList) = .ok [0x01, 0x55] ∧
    disasm [0x01, 0xab] = .ok (ascii "OP_DATA_1 ab".toList) ∧ assemble (ascii "OP_DATA_1 ab".toList) = .err errToken := by
  decide +kernel

/-- **C96, negation.** The empty script has the empty text, which is not accepted. -/
theorem C96_empty : disasm [] = .ok [] ∧ assemble [] = .err errToken := by decide +kernel

example : disasm [0x76, 0xa9, 0x02, 0x01, 0xff, 0x88, 0xac] =
    .ok (ascii "OP_DUP OP_HASH160 OP_DATA_2 01ff OP_EQUALVERIFY OP_CHECKSIG".toList) := by decide +kernel
example : (⟨0x76, []⟩ : Token).Valid := by unfold Token.Valid; decide

end Toku.Props
