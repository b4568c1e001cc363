import Verif.Proof.BufferFields
/-
Properties C01, C02, C03: the byte buffer of xbase/buffer.go.
-/
namespace Toku.Props
open Toku Toku.Spec Toku.Buffer

/-- **C01.** Any sequence of writes into a fresh buffer, followed by arbitrary further bytes, is read
back field by field as written (16-bit fields modulo 2^16) and the reader stops exactly at the further
bytes. The only assumption is that the whole message fits Go's address space. -/
theorem C01_fields_roundtrip (fs : List Field) (rest : Bytes)
    (hsize : ((writeAll Buffer.new fs).data ++ rest).length < 2^62) :
    ∃ b', readAll (Buffer.reader ((writeAll Buffer.new fs).data ++ rest)) (fs.map Field.kind)
        = .ok (fs.map Field.expected, b') ∧ b'.remaining = rest := by
  have hd := writeAll_data fs Buffer.new
  rw [hd] at hsize ⊢
  obtain ⟨b', e, r⟩ := readAll_enc fs (rd_reader _ hsize)
  exact ⟨b', e, r.remaining⟩

/-- **C01**, corollary: different field sequences of the same shape never share an encoding. -/
theorem C01_fields_injective (fs gs : List Field) (hk : fs.map Field.kind = gs.map Field.kind)
    (hsize : (writeAll Buffer.new fs).data.length < 2^62)
    (h : (writeAll Buffer.new fs).data = (writeAll Buffer.new gs).data) :
    fs.map Field.expected = gs.map Field.expected := by
  obtain ⟨b1, e1, _⟩ := C01_fields_roundtrip fs [] (by simpa using hsize)
  obtain ⟨b2, e2, _⟩ := C01_fields_roundtrip gs [] (by rw [← h]; simpa using hsize)
  rw [h, hk, e2] at e1
  simp only [Res.ok.injEq, Prod.mk.injEq] at e1
  exact e1.1.symm

/-- **C01**, reading back from the very buffer written to (the writer's own length bookkeeping is used). -/
theorem C01_read_own_writes (fs : List Field) (hsize : (writeAll Buffer.new fs).data.length < 2^62) :
    ∃ b', readAll (writeAll Buffer.new fs) (fs.map Field.kind) = .ok (fs.map Field.expected, b')
      ∧ b'.atEnd = true := by
  have e : writeAll Buffer.new fs = Buffer.reader ((writeAll Buffer.new fs).data) := writeAll_reader fs []
  have hd := writeAll_data fs Buffer.new
  rw [e, hd]
  rw [hd] at hsize
  have hr := rd_reader _ hsize
  rw [← List.append_nil (Buffer.new.data ++ _)] at hr
  obtain ⟨b', h1, r⟩ := readAll_enc fs hr
  exact ⟨b', by simpa using h1, r.atEnd_iff.mpr rfl⟩

example : (writeAll Buffer.new [.u16 0x12345, .varInt 0xfd, .varBytes [1, 2]]).data
    = [0x45, 0x23, 0xfd, 0xfd, 0x00, 0x02, 0x01, 0x02] := by decide

/-! ### C02 -/

/-- **C02.** The written form is a CompactSize form of the value, no other form is shorter, and its
length is the advertised one. -/
theorem C02_varint_shortest (v : UInt64) :
    IsVarInt (Buffer.new.writeVarInt v).data v.toNat ∧
    (∀ e, IsVarInt e v.toNat → (Buffer.new.writeVarInt v).data.length ≤ e.length) ∧
    (Buffer.new.writeVarInt v).data.length = varIntSerializeSize v := by
  have hd : (Buffer.new.writeVarInt v).data = encVarInt v := by simp
  rw [hd]
  refine ⟨encVarInt_isVarInt v, ?_, encVarInt_length v⟩
  intro e he
  rw [encVarInt_length]
  unfold varIntSerializeSize
  have c1 : v < 0xfd ↔ v.toNat < 253 := UInt64.lt_iff_toNat_lt
  have c2 : v ≤ 0xffff ↔ v.toNat ≤ 65535 := UInt64.le_iff_toNat_le
  have c3 : v ≤ 0xffffffff ↔ v.toNat ≤ 4294967295 := by
    rw [UInt64.le_iff_toNat_le, show (0xffffffff : UInt64).toNat = 4294967295 from rfl]
  have d4 : (varIntSerializeSize v) ≤ 9 := by
    unfold varIntSerializeSize; repeat' split
    all_goals omega
  rcases he with ⟨b, hb, rfl, hn⟩ | ⟨t, hl, rfl, hn⟩ | ⟨t, hl, rfl, hn⟩ | ⟨t, hl, rfl, hn⟩
  · rw [if_pos (c1.mpr (by omega))]; simp
  · have := leNat_lt t
    rw [hl] at this
    by_cases h1 : v < 0xfd
    · rw [if_pos h1]; simp
    · rw [if_neg h1, if_pos (c2.mpr (by omega))]; simp [hl]
  · have := leNat_lt t
    rw [hl] at this
    by_cases h1 : v < 0xfd
    · rw [if_pos h1]; simp
    · rw [if_neg h1]
      by_cases h2 : v ≤ 0xffff
      · rw [if_pos h2]; simp [hl]
      · rw [if_neg h2, if_pos (c3.mpr (by omega))]; simp [hl]
  · change varIntSerializeSize v ≤ _
    simp only [List.length_cons, hl]
    exact d4

/-- **C02.** Encodings are self-delimiting: no encoding is a prefix of another value's encoding. -/
theorem C02_varint_prefix_free (v w : UInt64)
    (h : (Buffer.new.writeVarInt v).data <+: (Buffer.new.writeVarInt w).data) : v = w := by
  have hv : (Buffer.new.writeVarInt v).data = encVarInt v := by simp
  have hw : (Buffer.new.writeVarInt w).data = encVarInt w := by simp
  rw [hv, hw] at h
  obtain ⟨t, ht⟩ := h
  have hsz : (encVarInt v ++ t).length < 2^62 := by
    rw [ht, encVarInt_length]; unfold varIntSerializeSize
    repeat' split
    all_goals omega
  obtain ⟨b1, e1, _, _⟩ := readVarInt_enc (rd_reader _ hsz)
  have hsz' : (encVarInt w ++ []).length < 2^62 := by rw [List.append_nil, ← ht]; exact hsz
  obtain ⟨b2, e2, _, _⟩ := readVarInt_enc (rd_reader _ hsz')
  rw [List.append_nil, ← ht, e1] at e2
  simp only [Res.ok.injEq, Prod.mk.injEq] at e2
  exact e2.1

/-- **C02.** `ReadVarInt` returns `n` on exactly the CompactSize forms of `n` (shortest or not), and on
nothing else: whatever follows the form is left unread. -/
theorem C02_varint_read_iff (d : Bytes) (hd : d.length < 2^62) (n : UInt64) :
    (∃ b', (Buffer.reader d).readVarInt = .ok (n, b')) ↔
      ∃ e t, d = e ++ t ∧ IsVarInt e n.toNat := by
  constructor
  · rintro ⟨b', h⟩
    rcases readVarInt_cases (rd_reader d hd) with ⟨_, e1⟩ | ⟨e, v, t, b1, hd', hv, e1, _, _⟩
    · rw [e1] at h; cases h
    · rw [e1] at h
      simp only [Res.ok.injEq, Prod.mk.injEq] at h
      rw [← h.1]
      exact ⟨e, t, hd', hv⟩
  · rintro ⟨e, t, rfl, he⟩
    rcases readVarInt_cases (rd_reader _ hd) with ⟨hsh, e1⟩ | ⟨e', v, t', b1, hd', hv, e1, _, _⟩
    · exfalso
      rcases he with ⟨b, hb, rfl, hn⟩ | ⟨s, hl, rfl, hn⟩ | ⟨s, hl, rfl, hn⟩ | ⟨s, hl, rfl, hn⟩ <;>
        rcases hsh with hsh | ⟨f, t', hf, hlt⟩
      · simp at hsh
      · simp only [List.cons_append, List.nil_append, List.cons.injEq] at hf
        obtain ⟨rfl, rfl⟩ := hf
        unfold varIntTail at hlt
        rw [if_neg, if_neg, if_neg] at hlt
        · omega
        all_goals
          intro hh; rw [hh] at hb; revert hb; decide
      · simp at hsh
      · simp only [List.cons_append, List.cons.injEq] at hf
        obtain ⟨rfl, rfl⟩ := hf
        simp only [List.length_append, hl, varIntTail, if_true] at hlt
        omega
      · simp at hsh
      · simp only [List.cons_append, List.cons.injEq] at hf
        obtain ⟨rfl, rfl⟩ := hf
        rw [List.length_append, hl, show varIntTail 0xfe = 4 from rfl] at hlt
        omega
      · simp at hsh
      · simp only [List.cons_append, List.cons.injEq] at hf
        obtain ⟨rfl, rfl⟩ := hf
        rw [List.length_append, hl, show varIntTail 0xff = 8 from rfl] at hlt
        omega
    · refine ⟨b1, ?_⟩
      rw [e1]
      have : n = v := by
        apply UInt64.toNat_inj.mp
        rcases he with ⟨b, hb, rfl, hn⟩ | ⟨s, hl, rfl, hn⟩ | ⟨s, hl, rfl, hn⟩ | ⟨s, hl, rfl, hn⟩ <;>
          rcases hv with ⟨b', hb', rfl, hn'⟩ | ⟨s', hl', rfl, hn'⟩ | ⟨s', hl', rfl, hn'⟩ |
            ⟨s', hl', rfl, hn'⟩ <;>
          simp only [List.cons_append, List.cons.injEq, List.nil_append] at hd' <;>
          obtain ⟨hx, hy⟩ := hd'
        all_goals first
          | (rw [hn, hn', hx]; done)
          | (exfalso; revert hx; decide)
          | (exfalso; rw [hx] at hb; revert hb; decide)
          | (exfalso; rw [← hx] at hb'; revert hb'; decide)
          | (rw [hn, hn']; rw [(List.append_inj hy (by rw [hl, hl'])).1]; done)
      rw [this]

example : IsVarInt [0xfd, 0x05, 0x00] 5 := by
  right; left; exact ⟨[5, 0], rfl, rfl, by decide⟩

/-! ### C03 -/

/-- **C03 (partial).** Full statement: every read of every kind from every well-formed buffer returns
either an error or exactly the field at the read position, and never panics. Proved for all inputs
except variable-length fields whose declared length reaches position 2^63 (`HugeDeclared`); there the
code panics, see `C03_varBytes_panics`. -/
theorem C03_read_exact_partial (b : Buffer) (hb : b.WF) (k : Kind)
    (hk : (k = .varBytes ∨ k = .varString) → ¬ HugeDeclared b b.remaining)
    (hl : ∀ l, k = .bytes l → b.seek + l < 2^63) :
    readKind b k = .err .bufferShort ∨
    ∃ f e b', readKind b k = .ok (f, b') ∧ f.kind = k ∧ b.remaining = e ++ b'.remaining
      ∧ Consumes f e ∧ b'.WF := by
  have hrd : Rd b b.remaining := by
    have : Rd b (b.data.drop b.seek) := ⟨hb, rfl⟩
    rw [this.remaining]; exact this
  generalize hr : b.remaining = r at *
  cases k with
  | u8 =>
    rcases readU8_cases hrd with ⟨_, e⟩ | ⟨v, t, b', rfl, e, r1, _⟩
    · left; simp [readKind, e]
    · right
      refine ⟨.u8 v, [v], b', by simp [readKind, e], rfl, by rw [r1.remaining]; rfl, ⟨rfl, by simp [leNat]⟩, r1.1⟩
  | u16 =>
    rcases readU16_cases hrd with ⟨_, e⟩ | ⟨v, t, b', rfl, hv, e, r1, _⟩
    · left; simp [readKind, e]
    · right
      refine ⟨.u16 v, le16 v, b', by simp [readKind, e], rfl, by rw [r1.remaining], ⟨rfl, ?_⟩, r1.1⟩
      rw [leNat_le16]; omega
  | u32 =>
    rcases readU32_cases hrd with ⟨_, e⟩ | ⟨v, t, b', rfl, e, r1, _⟩
    · left; simp [readKind, e]
    · right
      exact ⟨.u32 v, le32 v, b', by simp [readKind, e], rfl, by rw [r1.remaining], ⟨rfl, leNat_le32 v⟩, r1.1⟩
  | u64 =>
    rcases readU64_cases hrd with ⟨_, e⟩ | ⟨v, t, b', rfl, e, r1, _⟩
    · left; simp [readKind, e]
    · right
      exact ⟨.u64 v, le64 v, b', by simp [readKind, e], rfl, by rw [r1.remaining], ⟨rfl, leNat_le64 v⟩, r1.1⟩
  | varInt =>
    rcases readVarInt_cases hrd with ⟨_, e⟩ | ⟨e0, v, t, b', rfl, hv, e, r1, _⟩
    · left; simp [readKind, e]
    · right
      exact ⟨.varInt v, e0, b', by simp [readKind, e], rfl, by rw [r1.remaining], hv, r1.1⟩
  | bytes l =>
    rcases readBytes_cases hrd l (hl l rfl) with ⟨_, e⟩ | ⟨x, t, b', rfl, hx, e, r1, _⟩
    · left; simp [readKind, e]
    · right
      refine ⟨.bytes x, x, b', by simp [readKind, e], by simp [Field.kind, hx], by rw [r1.remaining], rfl, r1.1⟩
  | varBytes =>
    rcases readVarBytes_cases hrd with ⟨_, e⟩ | ⟨e0, t, n, rfl, hn, h⟩
    · left; simp [readKind, e]
    · rcases h with ⟨hp, _⟩ | ⟨_, _, e⟩ | ⟨x, t', b', rfl, hx, e, r1, _⟩
      · exact absurd ⟨e0, t, n, rfl, hn, hp⟩ (hk (Or.inl rfl))
      · left; simp [readKind, e]
      · right
        refine ⟨.varBytes x, e0 ++ x, b', by simp [readKind, e], rfl, by rw [r1.remaining]; simp, ⟨e0, rfl, by rw [hx]; exact hn⟩, r1.1⟩
  | varString =>
    rcases readVarBytes_cases hrd with ⟨_, e⟩ | ⟨e0, t, n, rfl, hn, h⟩
    · left; simp [readKind, readVarString, e]
    · rcases h with ⟨hp, _⟩ | ⟨_, _, e⟩ | ⟨x, t', b', rfl, hx, e, r1, _⟩
      · exact absurd ⟨e0, t, n, rfl, hn, hp⟩ (hk (Or.inr rfl))
      · left; simp [readKind, readVarString, e]
      · right
        refine ⟨.varString x, e0 ++ x, b', by simp [readKind, readVarString, e], rfl, by rw [r1.remaining]; simp, ⟨e0, rfl, by rw [hx]; exact hn⟩, r1.1⟩

/-- **C03, negation.** Nine bytes from the network make `ReadVarBytes` panic: the property "reads never
panic" is false of the code. The witness declares a length of 2^63. -/
theorem C03_varBytes_panics :
    (Buffer.reader [0xff, 0, 0, 0, 0, 0, 0, 0, 0x80]).readVarBytes = .panic := by decide +kernel

/-- **C03, negation, exact.** The panic happens precisely when the declared length reaches position
2^63; this covers both the negative `int` conversion and the overflowing sum. -/
theorem C03_varBytes_panic_iff (b : Buffer) (hb : b.WF) :
    b.readVarBytes = .panic ↔
      ∃ e t, ∃ n : UInt64, ∃ b', b.remaining = e ++ t ∧ IsVarInt e n.toNat ∧
        b.readVarInt = .ok (n, b') ∧ 2^63 ≤ b.seek + e.length + n.toNat := by
  have hrd : Rd b b.remaining := by
    have : Rd b (b.data.drop b.seek) := ⟨hb, rfl⟩
    rw [this.remaining]; exact this
  rcases readVarInt_cases hrd with ⟨hr, e1⟩ | ⟨e, v, t, b1, hr, hv, e1, r1, d1⟩
  · constructor
    · intro h
      unfold readVarBytes at h
      rw [e1, Res.err_bind] at h; cases h
    · rintro ⟨e, t, n, b', _, _, h, _⟩
      rw [e1] at h; cases h
  · have hs : b1.seek = b.seek + e.length := by
      have q1 := hrd.length_le
      have q2 := r1.length_le
      have q3 := hrd.1.1
      have q4 := r1.1.1
      rw [d1] at q4
      rw [hr] at q1
      simp at q1
      omega
    have step : b.readVarBytes = b1.readBytes (intOfU64 v) := by
      unfold readVarBytes
      rw [e1, Res.ok_bind]
    rw [step]
    constructor
    · intro h
      refine ⟨e, t, v, b1, hr, hv, e1, ?_⟩
      apply Classical.byContradiction
      intro hlt
      rw [intOfU64_small (by omega)] at h
      rcases readBytes_cases r1 v.toNat (by omega) with ⟨_, e2⟩ | ⟨x, t', b2, _, _, e2, _, _⟩ <;>
        rw [e2] at h <;> cases h
    · rintro ⟨e', t', n, b', hr', hn, h, hp⟩
      rw [e1] at h
      simp only [Res.ok.injEq, Prod.mk.injEq] at h
      obtain ⟨rfl, rfl⟩ := h
      apply readBytes_panic r1
      -- both prefixes have the length consumed by the same read
      have : e'.length = e.length := by
        rw [hr] at hr'
        rcases hn with ⟨b', hb', rfl, hn'⟩ | ⟨s', hl', rfl, hn'⟩ | ⟨s', hl', rfl, hn'⟩ |
            ⟨s', hl', rfl, hn'⟩ <;>
          rcases hv with ⟨b, hb, rfl, hn⟩ | ⟨s, hl, rfl, hn⟩ | ⟨s, hl, rfl, hn⟩ | ⟨s, hl, rfl, hn⟩ <;>
          simp only [List.cons_append, List.cons.injEq, List.nil_append] at hr' <;>
          obtain ⟨hx, hy⟩ := hr'
        all_goals first
          | (simp only [List.length_cons, List.length_nil]; done)
          | (simp only [List.length_cons, hl, hl']; done)
          | (exfalso; revert hx; decide)
          | (exfalso; rw [hx] at hb; revert hb; decide)
          | (exfalso; rw [← hx] at hb'; revert hb'; decide)
      omega

example : (Buffer.reader [3, 1, 2]).WF := (rd_reader [3, 1, 2] (by decide)).1
example : ¬ HugeDeclared (Buffer.reader [3, 1, 2]) [3, 1, 2] := by
  rintro ⟨e, t, n, h1, h2, h3⟩
  rcases h2 with ⟨b, hb, rfl, hn⟩ | ⟨s, hl, rfl, hn⟩ | ⟨s, hl, rfl, hn⟩ | ⟨s, hl, rfl, hn⟩
  · simp only [Buffer.reader, List.length_cons, List.length_nil] at h3; omega
  all_goals
    simp only [List.cons_append, List.cons.injEq] at h1
    revert h1; intro h1; exact absurd h1.1 (by decide)

end Toku.Props
