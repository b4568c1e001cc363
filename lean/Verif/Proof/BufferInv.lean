import Verif.Proof.Buffer
import Verif.Spec.Bytes
/-
What the buffer readers do on arbitrary well-formed buffers: complete case analyses.
-/
namespace Toku.Buffer
open Toku.Spec

theorem leNat_le16 (v : UInt32) : leNat (le16 v) = v.toNat % 2^16 := by
  have := v.toNat_lt
  simp only [le16, leNat, UInt32.toNat_toUInt8, UInt32.toNat_shiftRight, Nat.shiftRight_eq_div_pow]
  simp only [show (8:UInt32).toNat % 32 = 8 from rfl]
  omega

theorem leNat_le32 (v : UInt32) : leNat (le32 v) = v.toNat := by
  rw [← join32_le32 v, le32_join, join32_toNat]
  simp only [leNat]
  omega

theorem leNat_le64 (v : UInt64) : leNat (le64 v) = v.toNat := by
  rw [← join64_le64 v, le64_join, join64_toNat]
  simp only [leNat]
  omega

theorem readU8_cases {b : Buffer} {r : Bytes} (h : Rd b r) :
    (r = [] ∧ b.readU8 = .err .bufferShort) ∨
    ∃ v t b', r = v :: t ∧ b.readU8 = .ok (v, b') ∧ Rd b' t ∧ b'.data = b.data := by
  cases r with
  | nil =>
    left
    refine ⟨rfl, ?_⟩
    have hs := h.seek_lt
    have : b.check ((1 : Nat) : Int) = _ := h.check_err (by simp) (by simp at hs; omega)
    unfold readU8
    rw [show (1 : Int) = ((1 : Nat) : Int) from rfl, this, Res.err_bind]
  | cons v t =>
    right
    obtain ⟨b', e, r', d⟩ := readU8_ok h
    exact ⟨v, t, b', rfl, e, r', d⟩

theorem readU16_cases {b : Buffer} {r : Bytes} (h : Rd b r) :
    (r.length < 2 ∧ b.readU16 = .err .bufferShort) ∨
    ∃ v t b', r = le16 v ++ t ∧ v.toNat < 2^16 ∧ b.readU16 = .ok (v, b') ∧ Rd b' t ∧ b'.data = b.data := by
  by_cases hl : r.length < 2
  · left
    refine ⟨hl, ?_⟩
    have hs := h.seek_lt
    have : b.check ((2 : Nat) : Int) = _ := h.check_err hl (by omega)
    unfold readU16
    rw [show (2 : Int) = ((2 : Nat) : Int) from rfl, this, Res.err_bind]
  · right
    match r, hl, h with
    | v0 :: v1 :: t, _, h =>
      obtain ⟨b', e, r', d⟩ := readU16_ok h
      refine ⟨_, t, b', ?_, ?_, e, r', d⟩
      · rw [le16_join]; rfl
      · rw [join16_toNat]
        have := v0.toNat_lt
        have := v1.toNat_lt
        omega
    | [_], hl, _ => simp at hl
    | [], hl, _ => simp at hl

theorem readU32_cases {b : Buffer} {r : Bytes} (h : Rd b r) :
    (r.length < 4 ∧ b.readU32 = .err .bufferShort) ∨
    ∃ v t b', r = le32 v ++ t ∧ b.readU32 = .ok (v, b') ∧ Rd b' t ∧ b'.data = b.data := by
  by_cases hl : r.length < 4
  · left
    refine ⟨hl, ?_⟩
    have hs := h.seek_lt
    have : b.check ((4 : Nat) : Int) = _ := h.check_err hl (by omega)
    unfold readU32
    rw [show (4 : Int) = ((4 : Nat) : Int) from rfl, this, Res.err_bind]
  · right
    match r, hl, h with
    | v0 :: v1 :: v2 :: v3 :: t, _, h =>
      obtain ⟨b', e, r', d⟩ := readU32_ok' h
      exact ⟨_, t, b', by rw [le32_join]; rfl, e, r', d⟩
    | [_, _, _], hl, _ => simp at hl
    | [_, _], hl, _ => simp at hl
    | [_], hl, _ => simp at hl
    | [], hl, _ => simp at hl

theorem readU64_cases {b : Buffer} {r : Bytes} (h : Rd b r) :
    (r.length < 8 ∧ b.readU64 = .err .bufferShort) ∨
    ∃ v t b', r = le64 v ++ t ∧ b.readU64 = .ok (v, b') ∧ Rd b' t ∧ b'.data = b.data := by
  by_cases hl : r.length < 8
  · left
    refine ⟨hl, ?_⟩
    have hs := h.seek_lt
    have : b.check ((8 : Nat) : Int) = _ := h.check_err hl (by omega)
    unfold readU64
    rw [show (8 : Int) = ((8 : Nat) : Int) from rfl, this, Res.err_bind]
  · right
    match r, hl, h with
    | v0 :: v1 :: v2 :: v3 :: v4 :: v5 :: v6 :: v7 :: t, _, h =>
      obtain ⟨b', e, r', d⟩ := readU64_ok' h
      exact ⟨_, t, b', by rw [le64_join]; rfl, e, r', d⟩
    | [_, _, _, _, _, _, _], hl, _ => simp at hl
    | [_, _, _, _, _, _], hl, _ => simp at hl
    | [_, _, _, _, _], hl, _ => simp at hl
    | [_, _, _, _], hl, _ => simp at hl
    | [_, _, _], hl, _ => simp at hl
    | [_, _], hl, _ => simp at hl
    | [_], hl, _ => simp at hl
    | [], hl, _ => simp at hl

/-- Number of bytes after the marker byte of a CompactSize number. -/
def varIntTail (f : UInt8) : Nat :=
  if f = 0xfd then 2 else if f = 0xfe then 4 else if f = 0xff then 8 else 0

theorem readVarInt_cases {b : Buffer} {r : Bytes} (h : Rd b r) :
    ((r = [] ∨ ∃ f t, r = f :: t ∧ t.length < varIntTail f) ∧ b.readVarInt = .err .bufferShort) ∨
    ∃ e v t b', r = e ++ t ∧ IsVarInt e v.toNat ∧ b.readVarInt = .ok (v, b') ∧ Rd b' t
      ∧ b'.data = b.data := by
  rcases readU8_cases h with ⟨rfl, e1⟩ | ⟨f, t, b1, rfl, e1, r1, d1⟩
  · left
    refine ⟨Or.inl rfl, ?_⟩
    unfold readVarInt
    rw [e1, Res.err_bind]
  · by_cases hfd : f = 0xfd
    · subst hfd
      rcases readU16_cases r1 with ⟨hl, e2⟩ | ⟨v, t', b2, rfl, hv, e2, r2, d2⟩
      · left
        refine ⟨Or.inr ⟨_, _, rfl, hl⟩, ?_⟩
        unfold readVarInt
        rw [e1, Res.ok_bind]
        dsimp only
        rw [if_pos rfl, e2, Res.err_bind]
      · right
        refine ⟨0xfd :: le16 v, v.toUInt64, t', b2, rfl, ?_, readVarInt_fd e1 e2, r2, d2.trans d1⟩
        right; left
        refine ⟨le16 v, rfl, rfl, ?_⟩
        rw [leNat_le16, UInt32.toNat_toUInt64]; omega
    · by_cases hfe : f = 0xfe
      · subst hfe
        rcases readU32_cases r1 with ⟨hl, e2⟩ | ⟨v, t', b2, rfl, e2, r2, d2⟩
        · left
          refine ⟨Or.inr ⟨_, _, rfl, hl⟩, ?_⟩
          unfold readVarInt
          rw [e1, Res.ok_bind]
          dsimp only
          rw [if_neg hfd, if_pos rfl, e2, Res.err_bind]
        · right
          refine ⟨0xfe :: le32 v, v.toUInt64, t', b2, rfl, ?_, readVarInt_fe e1 e2, r2, d2.trans d1⟩
          right; right; left
          refine ⟨le32 v, rfl, rfl, ?_⟩
          rw [leNat_le32, UInt32.toNat_toUInt64]
      · by_cases hff : f = 0xff
        · subst hff
          rcases readU64_cases r1 with ⟨hl, e2⟩ | ⟨v, t', b2, rfl, e2, r2, d2⟩
          · left
            refine ⟨Or.inr ⟨_, _, rfl, hl⟩, ?_⟩
            unfold readVarInt
            rw [e1, Res.ok_bind]
            dsimp only
            rw [if_neg hfd, if_neg hfe, if_pos rfl, e2]
          · right
            refine ⟨0xff :: le64 v, v, t', b2, rfl, ?_, readVarInt_ff e1 e2, r2, d2.trans d1⟩
            right; right; right
            refine ⟨le64 v, rfl, rfl, ?_⟩
            rw [leNat_le64]
        · right
          refine ⟨[f], f.toUInt64, t, b1, rfl, ?_, readVarInt_small e1 hfd hfe hff, r1, d1⟩
          left
          refine ⟨f, ?_, rfl, UInt8.toNat_toUInt64 f⟩
          have h1 : f.toNat ≠ 0xfd := fun hh => hfd (UInt8.toNat_inj.mp hh)
          have h2 : f.toNat ≠ 0xfe := fun hh => hfe (UInt8.toNat_inj.mp hh)
          have h3 : f.toNat ≠ 0xff := fun hh => hff (UInt8.toNat_inj.mp hh)
          have := f.toNat_lt
          omega

theorem readBytes_cases {b : Buffer} {r : Bytes} (h : Rd b r) (l : Nat) (hl : b.seek + l < 2^63) :
    (r.length < l ∧ b.readBytes l = .err .bufferShort) ∨
    ∃ x t b', r = x ++ t ∧ x.length = l ∧ b.readBytes l = .ok (x, b') ∧ Rd b' t ∧ b'.data = b.data := by
  by_cases hr : r.length < l
  · left
    refine ⟨hr, ?_⟩
    unfold readBytes
    rw [if_neg (by omega), h.check_err hr hl, Res.err_bind]
  · right
    have e : r = r.take l ++ r.drop l := (List.take_append_drop l r).symm
    have hlen : (r.take l).length = l := by simp; omega
    rw [e] at h
    obtain ⟨b', e1, r1, d1⟩ := readBytes_ok h
    refine ⟨r.take l, r.drop l, b', e, hlen, ?_, r1, d1⟩
    rw [← e1, hlen]

/-- A length of 2^63 or more (as a Go `int`: negative), or one so large that adding it to the read
position overflows, makes `ReadBytes` panic. -/
theorem readBytes_panic {b : Buffer} {r : Bytes} (h : Rd b r) (v : UInt64)
    (hv : 2^63 ≤ b.seek + v.toNat) : b.readBytes (intOfU64 v) = .panic := by
  have h1 := v.toNat_lt
  have h2 := h.seek_lt
  have h3 := h.length_le
  have h4 := h.1.1
  unfold readBytes intOfU64 check
  by_cases hc : v.toNat < 2^63
  · rw [wrap64_of_range (x := (v.toNat : Int)) (by omega) (by omega)]
    rw [if_neg (by omega)]
    have hw : ¬ (wrap64 ((b.seek : Int) + (v.toNat : Int)) > (b.length : Int)) := by
      unfold wrap64; omega
    rw [if_neg hw, Res.ok_bind, if_neg (by omega), if_pos (by omega)]
  · have hw : wrap64 (v.toNat : Int) = v.toNat - 2^64 := by unfold wrap64; omega
    rw [hw, if_neg (by omega)]
    rw [wrap64_of_range (by omega) (by omega), if_neg (by omega), Res.ok_bind, if_pos (by omega)]

theorem intOfU64_small {v : UInt64} (h : v.toNat < 2^63) : intOfU64 v = v.toNat := by
  unfold intOfU64
  exact wrap64_of_range (by omega) (by omega)

/-- Complete description of `ReadVarBytes`. -/
theorem readVarBytes_cases {b : Buffer} {r : Bytes} (h : Rd b r) :
    ((r = [] ∨ ∃ f t, r = f :: t ∧ t.length < varIntTail f) ∧ b.readVarBytes = .err .bufferShort) ∨
    ∃ e t, ∃ n : Nat, r = e ++ t ∧ IsVarInt e n ∧
      ((2^63 ≤ b.seek + e.length + n ∧ b.readVarBytes = .panic) ∨
       (b.seek + e.length + n < 2^63 ∧ t.length < n ∧ b.readVarBytes = .err .bufferShort) ∨
       ∃ x t' b', t = x ++ t' ∧ x.length = n ∧ b.readVarBytes = .ok (x, b') ∧ Rd b' t'
        ∧ b'.data = b.data) := by
  rcases readVarInt_cases h with ⟨hr, e1⟩ | ⟨e, v, t, b1, rfl, hv, e1, r1, d1⟩
  · left
    refine ⟨hr, ?_⟩
    unfold readVarBytes
    rw [e1, Res.err_bind]
  · right
    have hs : b1.seek = b.seek + e.length := by
      have q1 := h.length_le
      have q2 := r1.length_le
      have q3 := h.1.1
      have q4 := r1.1.1
      rw [d1] at q4
      simp at q1
      omega
    refine ⟨e, t, v.toNat, rfl, hv, ?_⟩
    have step : b.readVarBytes = b1.readBytes (intOfU64 v) := by
      unfold readVarBytes
      rw [e1, Res.ok_bind]
    rw [step]
    by_cases hp : 2^63 ≤ b1.seek + v.toNat
    · left
      exact ⟨by omega, readBytes_panic r1 v hp⟩
    · right
      rw [intOfU64_small (by omega)]
      rcases readBytes_cases r1 v.toNat (by omega) with ⟨hl, e2⟩ | ⟨x, t', b2, ht, hx, e2, r2, d2⟩
      · left
        exact ⟨by omega, hl, e2⟩
      · right
        exact ⟨x, t', b2, ht, hx, e2, r2, d2.trans d1⟩

end Toku.Buffer
