import Verif.Proof.BufferInv
import Verif.Spec.Buffer
/-
Helper lemmas for the buffer properties: byte image of each written field.
-/
namespace Toku.Buffer
open Toku Toku.Spec

/-- bytes appended by one write -/
def encField : Field → Bytes
  | .u8 v => [v]
  | .u16 v => le16 v
  | .u32 v => le32 v
  | .u64 v => le64 v
  | .varInt v => encVarInt v
  | .bytes v => v
  | .varBytes v => encVarBytes v
  | .varString v => encVarBytes v

theorem writeField_data (b : Buffer) (f : Field) :
    (writeField b f).data = b.data ++ encField f := by
  cases f <;> simp [writeField, encField]

theorem writeAll_data (fs : List Field) : ∀ b : Buffer,
    (writeAll b fs).data = b.data ++ (fs.map encField).flatten := by
  induction fs with
  | nil => intro b; simp [writeAll]
  | cons f fs ih =>
    intro b
    have := ih (writeField b f)
    simp only [writeAll, List.foldl_cons] at this ⊢
    rw [this, writeField_data]; simp

theorem and_ffff (v : UInt32) : v &&& 0xffff = UInt32.ofNat (v.toNat % 65536) := by
  apply UInt32.toNat_inj.mp
  rw [UInt32.toNat_and, show (0xffff : UInt32).toNat = 2^16 - 1 from rfl,
    Nat.and_two_pow_sub_one_eq_mod, UInt32.toNat_ofNat_of_lt']
  show _ % _ < 2^32
  omega

theorem readKind_enc (f : Field) {b : Buffer} {t : Bytes} (h : Rd b (encField f ++ t)) :
    ∃ b', readKind b f.kind = .ok (f.expected, b') ∧ Rd b' t := by
  cases f with
  | u8 v => obtain ⟨b', e, r, _⟩ := readU8_ok h; exact ⟨b', by simp [readKind, Field.kind, e, Field.expected], r⟩
  | u16 v =>
    obtain ⟨b', e, r, _⟩ := readU16_le h
    refine ⟨b', ?_, r⟩
    rw [and_ffff] at e
    simp [readKind, Field.kind, e, Field.expected]
  | u32 v => obtain ⟨b', e, r, _⟩ := readU32_le h; exact ⟨b', by simp [readKind, Field.kind, e, Field.expected], r⟩
  | u64 v => obtain ⟨b', e, r, _⟩ := readU64_le h; exact ⟨b', by simp [readKind, Field.kind, e, Field.expected], r⟩
  | varInt v => obtain ⟨b', e, r, _⟩ := readVarInt_enc h; exact ⟨b', by simp [readKind, Field.kind, e, Field.expected], r⟩
  | bytes v => obtain ⟨b', e, r, _⟩ := readBytes_ok (x := v) h; exact ⟨b', by simp [readKind, Field.kind, e, Field.expected], r⟩
  | varBytes v => obtain ⟨b', e, r, _⟩ := readVarBytes_enc h; exact ⟨b', by simp [readKind, Field.kind, e, Field.expected], r⟩
  | varString v =>
    obtain ⟨b', e, r, _⟩ := readVarBytes_enc h
    exact ⟨b', by simp [readKind, Field.kind, readVarString, e, Field.expected], r⟩

theorem encVarInt_isVarInt (v : UInt64) : IsVarInt (encVarInt v) v.toNat := by
  have hv := v.toNat_lt
  unfold encVarInt
  by_cases h1 : v < 0xfd
  · rw [if_pos h1]
    have h1' : v.toNat < 253 := UInt64.lt_iff_toNat_lt.mp h1
    left
    refine ⟨v.toUInt8, ?_, rfl, ?_⟩ <;> rw [UInt64.toNat_toUInt8] <;> omega
  · rw [if_neg h1]
    by_cases h2 : v ≤ 0xffff
    · rw [if_pos h2]
      have h2' : v.toNat ≤ 65535 := UInt64.le_iff_toNat_le.mp h2
      right; left
      refine ⟨_, rfl, rfl, ?_⟩
      rw [leNat_le16, UInt64.toNat_toUInt32]; omega
    · rw [if_neg h2]
      by_cases h3 : v ≤ 0xffffffff
      · rw [if_pos h3]
        have h3' := h3
        rw [UInt64.le_iff_toNat_le, show (0xffffffff : UInt64).toNat = 4294967295 from rfl] at h3'
        right; right; left
        refine ⟨_, rfl, rfl, ?_⟩
        rw [leNat_le32, UInt64.toNat_toUInt32]; omega
      · rw [if_neg h3]
        right; right; right
        exact ⟨_, rfl, rfl, (leNat_le64 v).symm⟩

theorem leNat_lt (t : Bytes) : leNat t < 256 ^ t.length := by
  induction t with
  | nil => simp [leNat]
  | cons b t ih =>
    have := b.toNat_lt
    simp only [leNat, List.length_cons, Nat.pow_succ]
    omega

theorem leNat_inj {s t : Bytes} (hl : s.length = t.length) (h : leNat s = leNat t) : s = t := by
  induction s generalizing t with
  | nil => cases t <;> simp_all
  | cons a s ih =>
    cases t with
    | nil => simp at hl
    | cons b t =>
      simp only [leNat] at h
      have ha := a.toNat_lt
      have hb := b.toNat_lt
      have h1 : a.toNat = b.toNat := by omega
      have h2 : leNat s = leNat t := by omega
      rw [UInt8.toNat_inj.mp h1, ih (by simpa using hl) h2]


theorem readAll_enc {rest : Bytes} : ∀ (fs : List Field) {b : Buffer},
    Rd b ((fs.map encField).flatten ++ rest) →
      ∃ b', readAll b (fs.map Field.kind) = .ok (fs.map Field.expected, b') ∧ Rd b' rest := by
  intro fs
  induction fs with
  | nil => intro b h; exact ⟨b, by simp [readAll], by simpa using h⟩
  | cons f fs ih =>
    intro b h
    rw [List.map_cons, List.flatten_cons, List.append_assoc] at h
    obtain ⟨b1, e1, r1⟩ := readKind_enc f h
    obtain ⟨b2, e2, r2⟩ := ih r1
    refine ⟨b2, ?_, r2⟩
    simp only [List.map_cons, readAll, e1, Res.ok_bind, e2, Res.pure_eq]

theorem ext' {a b : Buffer} (h1 : a.seek = b.seek) (h2 : a.length = b.length) (h3 : a.data = b.data) :
    a = b := by
  cases a; cases b; simp_all

theorem writeVarInt_meta (b : Buffer) (v : UInt64) : (b.writeVarInt v).seek = b.seek ∧
    (b.writeVarInt v).length = b.length + (encVarInt v).length := by
  unfold writeVarInt encVarInt
  by_cases h1 : v < 0xfd
  · rw [if_pos h1, if_pos h1]; exact ⟨rfl, rfl⟩
  · rw [if_neg h1, if_neg h1]
    by_cases h2 : v ≤ 0xffff
    · rw [if_pos h2, if_pos h2]; exact ⟨rfl, rfl⟩
    · rw [if_neg h2, if_neg h2]
      by_cases h3 : v ≤ 0xffffffff
      · rw [if_pos h3, if_pos h3]; exact ⟨rfl, rfl⟩
      · rw [if_neg h3, if_neg h3]; exact ⟨rfl, rfl⟩

theorem writeField_meta (b : Buffer) (f : Field) : (writeField b f).seek = b.seek ∧
    (writeField b f).length = b.length + (encField f).length := by
  cases f with
  | varInt v => exact writeVarInt_meta b v
  | varBytes v =>
    have := writeVarInt_meta b (UInt64.ofNat v.length)
    simp only [writeField, writeVarBytes, writeBytes, encField, encVarBytes, List.length_append]
    omega
  | varString v =>
    have := writeVarInt_meta b (UInt64.ofNat v.length)
    simp only [writeField, writeVarString, writeVarBytes, writeBytes, encField, encVarBytes, List.length_append]
    omega
  | _ => exact ⟨rfl, rfl⟩

theorem writeField_reader (d : Bytes) (f : Field) :
    writeField (reader d) f = reader (d ++ encField f) := by
  have := writeField_meta (reader d) f
  apply ext'
  · exact this.1
  · rw [this.2]; simp [reader]
  · rw [writeField_data]; rfl

theorem writeAll_reader (fs : List Field) : ∀ d : Bytes,
    writeAll (reader d) fs = reader (writeAll (reader d) fs).data := by
  induction fs with
  | nil => intro d; rfl
  | cons f fs ih =>
    intro d
    simp only [writeAll, List.foldl_cons, writeField_reader]
    exact ih _

end Toku.Buffer
