import Verif.Model.Address
import Verif.Props.Base58
import Verif.Props.Witness
import Verif.Spec.Locking
/-
Helper lemmas for addresses: leading characters and lengths of Base58Check texts, shape of witness texts.
-/
namespace Toku.Address
open Toku.Spec

theorem valBE_cons (b h : Nat) (t : List Nat) : valBE b (h :: t) = h * b ^ t.length + valBE b t := by
  have := valBE_append b [h] t
  simpa [valBE] using this

/-- the leading digit of a number between multiples of a power -/
theorem lead_digit {l : List Nat} {h k x : Nat} {t : List Nat} (hl : l = h :: t) (hd : ∀ d ∈ l, d < 58) (h0 : h ≠ 0)
    (hx : valBE 58 l = x) (h1 : 58 ^ k ≤ x) (h2 : x < 58 ^ (k + 1)) : h = x / 58 ^ k := by
  subst hl
  rw [valBE_cons] at hx
  have ht : valBE 58 t < 58 ^ t.length := valBE_lt (by omega) (fun d hh => hd d (by simp [hh]))
  have hh : h < 58 := hd h (by simp)
  have hp : 0 < 58 ^ t.length := Nat.pow_pos (by omega)
  have a1 : 58 ^ t.length ≤ x := by
    calc 58 ^ t.length = 1 * 58 ^ t.length := (Nat.one_mul _).symm
      _ ≤ h * 58 ^ t.length := Nat.mul_le_mul_right _ (by omega)
      _ ≤ x := by omega
  have a2 : x < 58 ^ (t.length + 1) := by
    calc x < h * 58 ^ t.length + 58 ^ t.length := by omega
      _ = (h + 1) * 58 ^ t.length := by ring
      _ ≤ 58 * 58 ^ t.length := Nat.mul_le_mul_right _ (by omega)
      _ = 58 ^ (t.length + 1) := by ring
  have b1 : t.length < k + 1 := (Nat.pow_lt_pow_iff_right (by omega : 1 < 58)).mp (lt_of_le_of_lt a1 h2)
  have b2 : k < t.length + 1 := (Nat.pow_lt_pow_iff_right (by omega : 1 < 58)).mp (lt_of_le_of_lt h1 a2)
  have : t.length = k := by omega
  rw [this] at hx ht hp
  subst hx
  rw [Nat.mul_comm, Nat.mul_add_div hp, Nat.div_eq_of_lt ht, Nat.add_zero]

/-- first character of the text of a byte string with non-zero first byte -/
theorem encode_head {v : UInt8} {rest : Bytes} (hv : v ≠ 0) {k : Nat} (h1 : 58 ^ k ≤ natOfBE (v :: rest))
    (h2 : natOfBE (v :: rest) < 58 ^ (k + 1)) :
    (Base58.encode (v :: rest)).head? = some (Base58.alphabet.getD (natOfBE (v :: rest) / 58 ^ k) 0) := by
  have hlz : lz ((v :: rest).map UInt8.toNat) = 0 := by
    have : v.toNat ≠ 0 := fun h => hv (by rw [← UInt8.toNat_inj]; exact h)
    simp [lz, this]
  rw [Base58.encode_eq, hlz, ← natOfBE_eq, rep, List.replicate_zero, List.nil_append]
  have hval : valBE 58 (Nat.digits 58 (natOfBE (v :: rest))).reverse = natOfBE (v :: rest) := by
    have := valBE_rep 58 0 (natOfBE (v :: rest))
    rwa [rep, List.replicate_zero, List.nil_append] at this
  cases hl : (Nat.digits 58 (natOfBE (v :: rest))).reverse with
  | nil =>
    rw [hl] at hval
    have : (0 : Nat) < 58 ^ k := Nat.pow_pos (by omega)
    have h0 : natOfBE (v :: rest) = 0 := by rw [← hval]; rfl
    omega
  | cons h t =>
    rw [lead_digit hl (fun d hd => Nat.digits_lt_base (by omega) (List.mem_reverse.mp hd))
      (digits_reverse_head hl) hval h1 h2]
    rfl

theorem natOfBE_cons (v : UInt8) (r : Bytes) : natOfBE (v :: r) = v.toNat * 256 ^ r.length + natOfBE r := by
  have := natOfBE_append [v] r
  simpa [natOfBE] using this

/-- bounds on the number encoded by a 20-byte Base58Check text -/
theorem check_bounds [Hashes] {v : UInt8} {p : Bytes} (hp : p.length = 20) :
    v.toNat * 256 ^ 24 ≤ natOfBE (v :: p ++ Base58.checksum (v :: p)) ∧
    natOfBE (v :: p ++ Base58.checksum (v :: p)) < (v.toNat + 1) * 256 ^ 24 := by
  have hck : (Base58.checksum (v :: p)).length = 4 := by simp [Base58.checksum, sha256d_length]
  have hl : (p ++ Base58.checksum (v :: p)).length = 24 := by simp [hck, hp]
  have := natOfBE_lt (p ++ Base58.checksum (v :: p))
  rw [List.cons_append, natOfBE_cons, hl]
  rw [hl] at this
  constructor
  · omega
  · rw [Nat.add_mul]; omega

theorem lz_zero_cons (l : Bytes) : ∃ n, lz (((0 : UInt8) :: l).map UInt8.toNat) = n + 1 := by
  refine ⟨lz (l.map UInt8.toNat), ?_⟩
  simp [lz]

/-- the text of a P2PKH or P2SH address does not start with `b` or `t` -/
theorem check_head [Hashes] {v : UInt8} {p : Bytes} (hp : p.length = 20)
    (hv : v = 0 ∨ v = 5 ∨ v = 0x6f ∨ v = 0xc4) :
    (Base58.checkEncode p v).head? ≠ some 0x62 ∧ (Base58.checkEncode p v).head? ≠ some 0x74 := by
  unfold Base58.checkEncode
  obtain ⟨b1, b2⟩ := check_bounds (v := v) hp
  simp only
  rcases hv with rfl | rfl | rfl | rfl
  · have : (Base58.encode (0 :: p ++ Base58.checksum (0 :: p))).head? = some 0x31 := by
      obtain ⟨n, hn⟩ := lz_zero_cons (p ++ Base58.checksum (0 :: p))
      rw [← List.cons_append] at hn
      rw [Base58.encode_eq, hn, rep, List.replicate_succ]
      rfl
    rw [this]; decide
  · rw [show (5 : UInt8).toNat = 5 from rfl] at b1 b2
    rw [List.cons_append] at *
    rw [encode_head (by decide) (k := 33) (by omega) (by omega)]
    generalize hx : natOfBE (5 :: (p ++ Base58.checksum (5 :: p))) = x at *
    have h : x / 58 ^ 33 = 2 := by omega
    rw [h]; decide
  · rw [show (0x6f : UInt8).toNat = 111 from rfl] at b1 b2
    rw [List.cons_append] at *
    rw [encode_head (by decide) (k := 33) (by omega) (by omega)]
    generalize hx : natOfBE (0x6f :: (p ++ Base58.checksum (0x6f :: p))) = x at *
    have h : x / 58 ^ 33 = 44 ∨ x / 58 ^ 33 = 45 := by omega
    rcases h with h | h <;> rw [h] <;> decide
  · rw [show (0xc4 : UInt8).toNat = 196 from rfl] at b1 b2
    rw [List.cons_append] at *
    rw [encode_head (by decide) (k := 34) (by omega) (by omega)]
    generalize hx : natOfBE (0xc4 :: (p ++ Base58.checksum (0xc4 :: p))) = x at *
    have h : x / 58 ^ 34 = 1 := by omega
    rw [h]; decide

/-- what acceptance of a witness text gives -/
theorem witness_inv {s hrp : Bytes} {v : UInt8} {prog : Bytes} (h : Witness.decode s = .ok (hrp, v, prog)) :
    ∃ q, Bech32.decode s = .ok (hrp, v :: q) ∧ Witness.convertBits q 5 8 false = .ok prog := by
  unfold Witness.decode at h
  cases hd : Bech32.decode s with
  | err e => rw [hd, Res.err_bind] at h; cases h
  | panic => rw [hd, Res.panic_bind] at h; cases h
  | ok r =>
    obtain ⟨hrp0, data⟩ := r
    rw [hd, Res.ok_bind] at h
    cases data with
    | nil => cases h
    | cons v0 q =>
      simp only at h
      cases hc : Witness.convertBits q 5 8 false with
      | err e => rw [hc, Res.err_bind] at h; cases h
      | panic => rw [hc, Res.panic_bind] at h; cases h
      | ok p =>
        rw [hc, Res.ok_bind] at h
        cases h
        exact ⟨q, rfl, hc⟩

theorem witness_length {s hrp : Bytes} {v : UInt8} {prog : Bytes} (h : Witness.decode s = .ok (hrp, v, prog)) :
    8 * prog.length ≤ 5 * (s.length - 8 - hrp.length) ∧ 8 + hrp.length ≤ s.length := by
  obtain ⟨q, h1, h2⟩ := witness_inv h
  obtain ⟨_, _, _, _, _, h32, ht⟩ := Bech32.decode_inv h1
  have h32 : ∀ b ∈ q, b.toNat < 32 := fun b hb => h32 b (by simp [hb])
  obtain ⟨p, _, hb⟩ := (Props.C10_regroup_accepts_iff q prog h32).mp h2
  have := congrArg List.length hb
  simp only [List.length_append, bitStream_length, List.length_replicate] at this
  have hl := congrArg List.length ht
  have hck : (Bech32.checksum hrp (v :: q)).length = 6 := by simp [Bech32.checksum]
  rw [List.length_append, List.length_cons, Bech32.chars_length, List.length_append, List.length_cons, hck,
    Bech32.toLower, List.length_map] at hl
  omega

/-- a Base58Check text of 20 bytes without a leading `1` has at most 35 characters -/
theorem check_length [Hashes] {s : Bytes} {c : UInt8} {p : Bytes} {v : UInt8} (hh : s.head? = some c) (hc : c ≠ 0x31)
    (h : Base58.checkDecode s = .ok (p, v)) (hp : p.length = 20) : s.length ≤ 35 := by
  have hs := Props.C06_check_encode_decode s p v h
  unfold Base58.checkEncode at hs
  simp only at hs
  have hv0 : v ≠ 0 := by
    rintro rfl
    obtain ⟨n, hn⟩ := lz_zero_cons (p ++ Base58.checksum (0 :: p))
    rw [← List.cons_append] at hn
    rw [Base58.encode_eq, hn, rep, List.replicate_succ] at hs
    rw [hs] at hh
    cases hh
    exact hc rfl
  have hlz : lz ((v :: p ++ Base58.checksum (v :: p)).map UInt8.toNat) = 0 := by
    have : v.toNat ≠ 0 := fun h => hv0 (by rw [← UInt8.toNat_inj]; exact h)
    simp [lz, this]
  obtain ⟨_, b2⟩ := check_bounds (v := v) hp
  rw [hs, Base58.encode_eq, hlz, ← natOfBE_eq, rep, List.replicate_zero, List.nil_append, List.length_map,
    List.length_reverse]
  have hvl := v.toNat_lt
  refine (Nat.digits_length_le_iff (by omega) _).mpr ?_
  calc _ < (v.toNat + 1) * 256 ^ 24 := b2
    _ ≤ 256 * 256 ^ 24 := Nat.mul_le_mul_right _ (by omega)
    _ < 58 ^ 35 := by norm_num

theorem idxOf_take {s : Bytes} {n : Nat} (h : s.idxOf? 0x31 = some n) : n < s.length ∧ s = s.take n ++ 0x31 :: s.drop (n + 1) ∧
    (0x31 : UInt8) ∉ s.take n := by
  rw [List.idxOf?_eq_some_iff] at h
  obtain ⟨hn, he, hlt⟩ := h
  refine ⟨hn, ?_, ?_⟩
  · have he' : s[n] = 0x31 := he
    rw [← he', ← List.drop_eq_getElem_cons hn, List.take_append_drop]
  · intro hm
    obtain ⟨i, hi, e⟩ := List.mem_iff_getElem.mp hm
    rw [List.length_take] at hi
    rw [List.getElem_take] at e
    exact hlt i (by omega) e

end Toku.Address
