import Verif.Model.ScriptNum
import Verif.Proof.Big
import Verif.Proof.Base58
import Verif.Proof.BufferFields
/-
Script numbers: the encoder and the decoder in terms of sign and magnitude.
-/
namespace Toku.ScriptNum
open Toku.Spec

/-- Sign and magnitude reading of a byte string: little endian, top bit of the last byte is the sign. -/
def value (v : Bytes) : Int :=
  let m := leNat v
  if m < 128 * 256 ^ (v.length - 1) then (m : Int) else -((m - 128 * 256 ^ (v.length - 1) : Nat) : Int)

theorem nil_or_snoc {α : Type} (l : List α) : l = [] ∨ ∃ i x, l = i ++ [x] := by
  rcases List.eq_nil_or_concat l with h | ⟨i, x, h⟩
  · exact Or.inl h
  · exact Or.inr ⟨i, x, by rw [h, List.concat_eq_append]⟩

theorem leNat_append (a b : Bytes) : leNat (a ++ b) = leNat a + 256 ^ a.length * leNat b := by
  induction a with
  | nil => simp [leNat]
  | cons x a ih => simp only [List.cons_append, leNat, ih, List.length_cons, Nat.pow_succ]; ring

theorem leNat_snoc (i : Bytes) (l : UInt8) : leNat (i ++ [l]) = leNat i + 256 ^ i.length * l.toNat := by
  rw [leNat_append]; simp [leNat]

theorem decodeLoop_toNat : ∀ (v : Bytes) (i : Nat) (acc : BitVec 64), acc.toNat < 256 ^ i → i + v.length ≤ 8 →
    (decodeLoop i v acc).toNat = acc.toNat + 256 ^ i * leNat v := by
  intro v
  induction v with
  | nil => intro i acc _ _; simp [decodeLoop, leNat]
  | cons b v ih =>
    intro i acc ha hi
    simp only [List.length_cons] at hi
    have hi8 : i < 8 := by omega
    have hb := b.toNat_lt
    unfold decodeLoop
    have hm : 8 * i % 256 = 8 * i := Nat.mod_eq_of_lt (by omega)
    have h256 : (256:Nat) ^ i = 2 ^ (8 * i) := by rw [Nat.pow_mul]
    have hsmall : b.toNat * 2 ^ (8 * i) < 2 ^ 64 := by
      calc b.toNat * 2 ^ (8*i) < 2^8 * 2^(8*i) := Nat.mul_lt_mul_of_pos_right (by simpa using hb) (Nat.two_pow_pos _)
        _ = 2 ^ (8 + 8 * i) := by rw [Nat.pow_add]
        _ ≤ 2^64 := Nat.pow_le_pow_right (by omega) (by omega)
    have e : (acc ||| ((b.toBitVec.setWidth 64) <<< (8 * i % 256))).toNat = acc.toNat + b.toNat * 256 ^ i := by
      rw [hm, BitVec.toNat_or, BitVec.toNat_shiftLeft, BitVec.toNat_setWidth, UInt8.toNat_toBitVec,
        Nat.mod_eq_of_lt (by omega : b.toNat < 2^64), Nat.shiftLeft_eq, Nat.mod_eq_of_lt hsmall, h256,
        ← Nat.shiftLeft_eq, Buffer.or_shl _ _ _ (h256 ▸ ha), Nat.shiftLeft_eq]
    rw [ih (i + 1) _ _ (by omega), e]
    · simp only [leNat, Nat.pow_succ]; ring
    · rw [e, Nat.pow_succ]
      have : b.toNat * 256 ^ i ≤ 255 * 256 ^ i := Nat.mul_le_mul_right _ (by omega)
      omega

theorem and80_iff : ∀ b : UInt8, (b &&& 0x80 > 0) ↔ 128 ≤ b.toNat := by
  apply Base58.forall_uint8; decide +kernel

theorem and7f_iff : ∀ b : UInt8, (b &&& 0x7f = 0) ↔ (b.toNat = 0 ∨ b.toNat = 128) := by
  apply Base58.forall_uint8; decide +kernel

theorem and80_zero_iff : ∀ b : UInt8, (b &&& 0x80 = 0) ↔ b.toNat < 128 := by
  apply Base58.forall_uint8; decide +kernel

theorem or80_toNat : ∀ b : UInt8, b.toNat < 128 → (b ||| 0x80).toNat = b.toNat + 128 := by
  apply Base58.forall_uint8; decide +kernel

theorem clear_bit (x : BitVec 64) (k : Nat) (h : x.getLsbD k = true) (hk : k < 64) :
    (x &&& ~~~(BitVec.twoPow 64 k)).toNat + 2 ^ k = x.toNat := by
  have hand : x &&& BitVec.twoPow 64 k = BitVec.twoPow 64 k := by
    rw [BitVec.and_twoPow, h]; simp
  have hz : (x &&& ~~~(BitVec.twoPow 64 k)) &&& (x &&& BitVec.twoPow 64 k) = 0#64 := by
    apply BitVec.eq_of_getLsbD_eq
    intro i hi
    simp only [BitVec.getLsbD_and, BitVec.getLsbD_not, BitVec.getLsbD_zero]
    cases x.getLsbD i <;> cases (BitVec.twoPow 64 k).getLsbD i <;> simp
  have hor : (x &&& ~~~(BitVec.twoPow 64 k)) ||| (x &&& BitVec.twoPow 64 k) = x := by
    apply BitVec.eq_of_getLsbD_eq
    intro i hi
    simp only [BitVec.getLsbD_and, BitVec.getLsbD_not, BitVec.getLsbD_or]
    cases x.getLsbD i <;> cases (BitVec.twoPow 64 k).getLsbD i <;> simp [hi]
  have hsum : (x &&& ~~~(BitVec.twoPow 64 k)) + BitVec.twoPow 64 k = x := by
    rw [hand] at hz hor
    rw [BitVec.add_eq_or_of_and_eq_zero _ _ hz]; exact hor
  have hle : (x &&& ~~~(BitVec.twoPow 64 k)).toNat ≤ x.toNat := by
    rw [BitVec.toNat_and]; exact Nat.and_le_left
  have h1 := congrArg BitVec.toNat hsum
  have hk2 : 2^k < 2^64 := Nat.pow_lt_pow_right (by omega) hk
  rw [BitVec.toNat_add, BitVec.toNat_twoPow, Nat.mod_eq_of_lt hk2] at h1
  have h2 := x.isLt
  have h3 := Nat.two_pow_pos k
  generalize 2^k = c at *
  generalize (x &&& ~~~(BitVec.twoPow 64 k)).toNat = d at *
  omega

/-- The minimality condition on a byte string. -/
def Minimal (v : Bytes) : Prop :=
  v = [] ∨ (∃ i l, v = i ++ [l] ∧ l.toNat ≠ 0 ∧ l.toNat ≠ 128) ∨
    (∃ i s l, v = i ++ [s, l] ∧ 128 ≤ s.toNat ∧ (l.toNat = 0 ∨ l.toNat = 128))

theorem checkMinimal_iff (v : Bytes) : checkMinimal v = .ok () ↔ Minimal v := by
  rcases nil_or_snoc v with rfl | ⟨i, l, rfl⟩
  · simp [checkMinimal, Minimal]
  · have hl : (i ++ [l]).getD ((i ++ [l]).length - 1) 0 = l := by simp
    unfold checkMinimal
    rw [if_neg (by simp), hl]
    by_cases h0 : l &&& 0x7f = 0
    · rw [if_pos h0]
      have h0' := (and7f_iff l).mp h0
      rcases nil_or_snoc i with rfl | ⟨j, s, rfl⟩
      · simp only [List.nil_append, List.length_singleton, true_or, if_true]
        simp only [Minimal]
        constructor
        · intro h; cases h
        · rintro (h | ⟨i, l', h, h1, h2⟩ | ⟨i, s, l', h, h1, h2⟩)
          · simp at h
          · rcases i with _ | ⟨_, _⟩ <;> simp at h; subst h; omega
          · rcases i with _ | ⟨_, _⟩ <;> simp at h
      · have hs : (j ++ [s] ++ [l]).getD ((j ++ [s] ++ [l]).length - 2) 0 = s := by simp
        rw [hs]
        by_cases h8 : s &&& 0x80 = 0
        · rw [if_pos (Or.inr h8)]
          have h8' := (and80_zero_iff s).mp h8
          constructor
          · intro h; cases h
          · rintro (h | ⟨i, l', h, h1, h2⟩ | ⟨i, s', l', h, h1, h2⟩)
            · simp at h
            · have := (List.append_inj' h rfl).2
              simp at this; subst this; omega
            · rw [List.append_assoc] at h
              have := (List.append_inj' h rfl).2
              simp at this; obtain ⟨rfl, rfl⟩ := this; omega
        · rw [if_neg (by simp [h8])]
          refine ⟨fun _ => Or.inr (Or.inr ⟨j, s, l, by simp, ?_, h0'⟩), fun _ => rfl⟩
          have := mt (and80_zero_iff s).mpr h8
          omega
    · rw [if_neg h0]
      have h0' := mt (and7f_iff l).mpr h0
      exact ⟨fun _ => Or.inr (Or.inl ⟨i, l, rfl, by tauto⟩), fun _ => rfl⟩

theorem checkMinimal_err {v : Bytes} (h : ¬ Minimal v) : checkMinimal v = .err notMinimal := by
  have := mt (checkMinimal_iff v).mp h
  unfold checkMinimal at this ⊢
  split
  · rename_i hl; rw [if_pos hl] at this; exact absurd rfl this
  · rename_i hl
    rw [if_neg hl] at this
    split
    · rename_i h2
      rw [if_pos h2] at this
      split
      · rfl
      · rename_i h3; rw [if_neg h3] at this; exact absurd rfl this
    · rename_i h2; rw [if_neg h2] at this; exact absurd rfl this

theorem make_long {v : Bytes} {L : Nat} (h : L < v.length) : make v L = .err tooBig := by
  unfold make; rw [if_pos h]

theorem make_bad {v : Bytes} {L : Nat} (h : v.length ≤ L) (hm : ¬ Minimal v) : make v L = .err notMinimal := by
  unfold make; rw [if_neg (by omega), checkMinimal_err hm]; rfl

theorem make_ok {v : Bytes} {L : Nat} (h : v.length ≤ L) (h8 : v.length ≤ 8) (hm : Minimal v) :
    make v L = .ok (value v) := by
  unfold make
  rw [if_neg (by omega), (checkMinimal_iff v).mpr hm, Res.ok_bind]
  rcases nil_or_snoc v with rfl | ⟨i, l, rfl⟩
  · simp [value, leNat]
  rw [if_neg (by simp)]
  have hl : (i ++ [l]).getD ((i ++ [l]).length - 1) 0 = l := by simp
  rw [hl]
  have hlen : (i ++ [l]).length = i.length + 1 := by simp
  rw [hlen] at h8
  set k := i.length with hk
  have hdec := decodeLoop_toNat (i ++ [l]) 0 0#64 (by simp) (by rw [hlen]; omega)
  simp only [BitVec.toNat_ofNat, Nat.zero_mod, pow_zero, one_mul, Nat.zero_add] at hdec
  have hval : leNat (i ++ [l]) = leNat i + 256 ^ k * l.toNat := by rw [leNat_append]; simp [leNat, hk]
  have hlt := Buffer.leNat_lt i
  rw [← hk] at hlt
  have hb := l.toNat_lt
  have hp : (0:Nat) < 256 ^ k := Nat.pow_pos (by omega)
  have h256 : (256:Nat) ^ k = 2 ^ (8 * k) := by rw [Nat.pow_mul]
  have hmax : 128 * 256 ^ k ≤ 2 ^ 63 := by
    rw [h256, show (128:Nat) = 2 ^ 7 from rfl, ← Nat.pow_add]
    exact Nat.pow_le_pow_right (by omega) (by omega)
  unfold value
  simp only [hlen, Nat.add_sub_cancel]
  by_cases h80 : l &&& 0x80 > 0
  · rw [if_pos h80]
    have hge := (and80_iff l).mp h80
    have hnot : ¬ leNat (i ++ [l]) < 128 * 256 ^ k := by
      rw [hval]
      have : 256 ^ k * 128 ≤ 256 ^ k * l.toNat := Nat.mul_le_mul_left _ hge
      omega
    rw [if_neg hnot]
    have hm256 : 8 * k % 256 = 8 * k := Nat.mod_eq_of_lt (by omega)
    have hmask : (0x80#64) <<< (8 * k % 256) = BitVec.twoPow 64 (8 * k + 7) := by
      rw [hm256]
      apply BitVec.eq_of_toNat_eq
      rw [BitVec.toNat_shiftLeft, BitVec.toNat_twoPow, Nat.shiftLeft_eq]
      simp only [BitVec.toNat_ofNat, Nat.pow_add]
      congr 1
      norm_num; ring
    rw [hmask]
    have hbit : (decodeLoop 0 (i ++ [l]) 0#64).getLsbD (8 * k + 7) = true := by
      unfold BitVec.getLsbD
      rw [hdec, hval, Nat.testBit_eq_decide_div_mod_eq, h256]
      have e1 : leNat i + 2 ^ (8 * k) * l.toNat = 2 ^ (8*k) * l.toNat + leNat i := by ring
      have e2 : (2 ^ (8*k) * l.toNat + leNat i) / 2 ^ (8 * k) = l.toNat := by
        rw [Nat.mul_add_div (Nat.two_pow_pos _), Nat.div_eq_of_lt (h256 ▸ hlt), Nat.add_zero]
      rw [Nat.pow_add, ← Nat.div_div_eq_div_mul, e1, e2]
      simp; omega
    have hclr := clear_bit _ _ hbit (by omega)
    set mk := decodeLoop 0 (i ++ [l]) 0#64 &&& ~~~(BitVec.twoPow 64 (8 * k + 7)) with hmk
    have h2p : 2 ^ (8 * k + 7) = 128 * 256 ^ k := by rw [h256, Nat.pow_add]; ring
    rw [hdec, h2p] at hclr
    have hmkv : mk.toNat = leNat (i ++ [l]) - 128 * 256 ^ k := by omega
    have hmklt : mk.toNat < 2 ^ 63 := by
      rw [hmkv, hval]
      have : 256 ^ k * l.toNat ≤ 256 ^ k * 255 := Nat.mul_le_mul_left _ (by omega)
      omega
    congr 1
    rw [BitVec.toInt_neg, BitVec.toInt_eq_toNat_of_lt (by omega)]
    rw [← hmkv]
    rw [Int.bmod_eq_of_le] <;> omega
  · rw [if_neg h80]
    have hlt128 : l.toNat < 128 := by
      have := mt (and80_iff l).mpr h80; omega
    have hless : leNat (i ++ [l]) < 128 * 256 ^ k := by
      rw [hval]
      have : 256 ^ k * l.toNat ≤ 256 ^ k * 127 := Nat.mul_le_mul_left _ (by omega)
      omega
    rw [if_pos hless, BitVec.toInt_eq_toNat_of_lt (by rw [hdec]; omega), hdec]

theorem leNat_eq_ofDigits (l : Bytes) : leNat l = Nat.ofDigits 256 (l.map UInt8.toNat) := by
  induction l with
  | nil => rfl
  | cons a l ih => simp [leNat, Nat.ofDigits_cons, ih]

/-- bytes of a magnitude whose top byte is not zero -/
theorem digits_leNat (i : Bytes) (l : UInt8) (hl : l.toNat ≠ 0) :
    (digitsLE 256 (leNat (i ++ [l])) (leNat (i ++ [l]))).map UInt8.ofNat = i ++ [l] := by
  rw [digitsLE_self (by omega), leNat_eq_ofDigits, Nat.digits_ofDigits 256 (by omega)]
  · exact map_ofNat_toNat _
  · exact toNat_map_lt _
  · intro h; simp [hl]

/-- the encoder on sign and magnitude -/
theorem bytes_pos {n : Int} (h : 0 < n) {i : Bytes} {l : UInt8} (hl : l.toNat ≠ 0)
    (hn : n = leNat (i ++ [l])) :
    bytes n = .ok (if 128 ≤ l.toNat then i ++ [l, 0] else i ++ [l]) := by
  unfold bytes
  rw [if_neg (by omega)]
  simp only [show ¬ n < 0 by omega, decide_false, Bool.false_eq_true, if_false, gt_iff_lt, h, if_true]
  rw [show n.toNat = leNat (i ++ [l]) by omega, digits_leNat i l hl]
  simp only [List.getLast?_concat]
  by_cases h8 : 128 ≤ l.toNat
  · rw [if_pos ((and80_iff l).mpr h8), if_pos h8]; simp
  · rw [if_neg (mt (and80_iff l).mp h8), if_neg h8]

theorem bytes_neg {n : Int} (h : n < 0) (hr : -2^63 < n) {i : Bytes} {l : UInt8} (hl : l.toNat ≠ 0)
    (hn : -n = leNat (i ++ [l])) :
    bytes n = .ok (if 128 ≤ l.toNat then i ++ [l, 0x80] else i ++ [l ||| 0x80]) := by
  unfold bytes
  rw [if_neg (by omega)]
  have hw : wrap64 (-n) = -n := wrap64_of_range (by omega) (by omega)
  simp only [h, decide_true, if_true, hw, gt_iff_lt, show 0 < -n by omega]
  rw [show (-n).toNat = leNat (i ++ [l]) by omega, digits_leNat i l hl]
  simp only [List.getLast?_concat]
  by_cases h8 : 128 ≤ l.toNat
  · rw [if_pos ((and80_iff l).mpr h8), if_pos h8]; simp
  · rw [if_neg (mt (and80_iff l).mp h8), if_neg h8]; simp

theorem bytes_zero : bytes 0 = .ok [] := by simp [bytes]

theorem bytes_min : bytes (-2^63) = .panic := by
  unfold bytes wrap64
  norm_num

theorem value_append (i : Bytes) (l : UInt8) : value (i ++ [l]) =
    if l.toNat < 128 then ((leNat i + 256 ^ i.length * l.toNat : Nat) : Int)
    else -((leNat i + 256 ^ i.length * (l.toNat - 128) : Nat) : Int) := by
  have hlt := Buffer.leNat_lt i
  unfold value
  simp only [List.length_append, List.length_singleton, Nat.add_sub_cancel]
  rw [leNat_snoc]
  set P := 256 ^ i.length with hP
  by_cases h : l.toNat < 128
  · have : P * l.toNat ≤ P * 127 := Nat.mul_le_mul_left _ (by omega)
    rw [if_pos (by omega), if_pos h]
  · have : P * 128 ≤ P * l.toNat := Nat.mul_le_mul_left _ (by omega)
    rw [if_neg (by omega), if_neg h, Nat.mul_sub]
    congr 2; omega

theorem value_nil : value [] = 0 := by simp [value, leNat]

theorem value_bound {v : Bytes} (h8 : v.length ≤ 8) : -2^63 < value v ∧ value v < 2^63 := by
  rcases nil_or_snoc v with rfl | ⟨i, l, rfl⟩
  · simp [value_nil]
  · have hlt := Buffer.leNat_lt i
    have hb := l.toNat_lt
    rw [value_append]
    simp only [List.length_append, List.length_singleton] at h8
    have hmax : 128 * 256 ^ i.length ≤ 2 ^ 63 := by
      rw [show (256:Nat) = 2^8 from rfl, ← Nat.pow_mul, show (128:Nat) = 2 ^ 7 from rfl, ← Nat.pow_add]
      exact Nat.pow_le_pow_right (by omega) (by omega)
    set P := 256 ^ i.length with hP
    by_cases h : l.toNat < 128
    · have : P * l.toNat ≤ P * 127 := Nat.mul_le_mul_left _ (by omega)
      rw [if_pos h]
      omega
    · have : P * (l.toNat - 128) ≤ P * 127 := Nat.mul_le_mul_left _ (by omega)
      rw [if_neg h]
      omega

theorem bytes_value {v : Bytes} (h8 : v.length ≤ 8) (hm : Minimal v) : bytes (value v) = .ok v := by
  have hbd := value_bound h8
  rcases hm with rfl | ⟨i, l, rfl, h0, h128⟩ | ⟨i, s, l, rfl, hs, hl⟩
  · rw [value_nil]; exact bytes_zero
  · have hp : 0 < 256 ^ i.length := Nat.pow_pos (by omega)
    have hb := l.toNat_lt
    rw [value_append] at hbd ⊢
    by_cases h : l.toNat < 128
    · rw [if_pos h] at hbd ⊢
      have : 0 < 256 ^ i.length * l.toNat := Nat.mul_pos hp (by omega)
      rw [bytes_pos (i := i) (l := l) (by omega) h0 (by rw [leNat_append]; simp [leNat])]
      rw [if_neg (by omega)]
    · rw [if_neg h] at hbd ⊢
      have hm : 0 < 256 ^ i.length * (l.toNat - 128) := Nat.mul_pos hp (by omega)
      have e7 : (l &&& 0x7f).toNat = l.toNat - 128 := by
        have : ∀ l : UInt8, ¬ l.toNat < 128 → (l &&& 0x7f).toNat = l.toNat - 128 := by
          apply Base58.forall_uint8; decide +kernel
        exact this l h
      have e8 : (l &&& 0x7f) ||| 0x80 = l := by
        have : ∀ l : UInt8, ¬ l.toNat < 128 → (l &&& 0x7f) ||| 0x80 = l := by
          apply Base58.forall_uint8; decide +kernel
        exact this l h
      rw [bytes_neg (i := i) (l := l &&& 0x7f) (by omega) (by omega) (by omega)
        (by rw [leNat_append]; simp [leNat, e7])]
      rw [if_neg (by omega), e8]
  · have hp : 0 < 256 ^ i.length := Nat.pow_pos (by omega)
    have hm : 0 < 256 ^ i.length * s.toNat := Nat.mul_pos hp (by omega)
    have e : leNat (i ++ [s]) = leNat i + 256 ^ i.length * s.toNat := by rw [leNat_append]; simp [leNat]
    have es : i ++ [s, l] = (i ++ [s]) ++ [l] := by simp
    rw [es, value_append] at hbd ⊢
    rcases hl with hl | hl
    · have : l = 0 := UInt8.toNat_inj.mp hl
      subst this
      rw [if_pos (by simp)] at hbd ⊢
      simp only [UInt8.toNat_zero, Nat.mul_zero, Nat.add_zero] at hbd ⊢
      rw [bytes_pos (i := i) (l := s) (by omega) (by omega) rfl, if_pos hs]
      simp
    · have : l = 0x80 := UInt8.toNat_inj.mp hl
      subst this
      rw [if_neg (by simp)] at hbd ⊢
      simp only [show (0x80 : UInt8).toNat = 128 from rfl, Nat.sub_self, Nat.mul_zero, Nat.add_zero] at hbd ⊢
      rw [bytes_neg (i := i) (l := s) (by omega) (by omega) (by omega) (by simp), if_pos hs]
      simp

/-- a positive magnitude below 2^63 as bytes -/
theorem magnitude_bytes {m : Nat} (h : 0 < m) (hm : m < 2^63) :
    ∃ i l, m = leNat (i ++ [l]) ∧ l.toNat ≠ 0 ∧ i.length ≤ 7 ∧ (128 ≤ l.toNat → i.length ≤ 6) := by
  have hne : Nat.digits 256 m ≠ [] := Nat.digits_ne_nil_iff_ne_zero.mpr (by omega)
  obtain ⟨i0, l0, hil⟩ : ∃ i l, Nat.digits 256 m = i ++ [l] := by
    rcases nil_or_snoc (Nat.digits 256 m) with h | ⟨i, l, h⟩
    · exact absurd h hne
    · exact ⟨i, l, h⟩
  have hd : ∀ d ∈ i0 ++ [l0], d < 256 := by
    intro d hd; rw [← hil] at hd; exact Nat.digits_lt_base (by omega) hd
  have hl0 : l0 ≠ 0 := by
    have := Nat.getLast_digit_ne_zero 256 (m := m) (by omega)
    simpa [hil] using this
  have hval : Nat.ofDigits 256 (i0 ++ [l0]) = m := by rw [← hil, Nat.ofDigits_digits]
  have hle : m = leNat (i0.map UInt8.ofNat ++ [UInt8.ofNat l0]) := by
    rw [leNat_eq_ofDigits, ← hval]
    congr 1
    have := map_toNat_ofNat hd
    simpa using this.symm
  have hl256 : l0 < 256 := hd l0 (by simp)
  have hln : (UInt8.ofNat l0).toNat = l0 := by simp; omega
  have hge : 256 ^ i0.length * l0 ≤ m := by
    conv_rhs => rw [hle, leNat_snoc]
    simp only [hln, List.length_map]; omega
  refine ⟨_, _, hle, by omega, ?_, ?_⟩
  · rw [List.length_map]
    by_contra hc
    have : 256 ^ 8 ≤ 256 ^ i0.length := Nat.pow_le_pow_right (by omega) (by omega)
    have : 256 ^ i0.length * 1 ≤ 256 ^ i0.length * l0 := Nat.mul_le_mul_left _ (by omega)
    omega
  · rw [List.length_map, hln]
    intro h8
    by_contra hc
    have : 256 ^ 7 ≤ 256 ^ i0.length := Nat.pow_le_pow_right (by omega) (by omega)
    have h3 : 256 ^ 7 * 128 ≤ 256 ^ i0.length * l0 := Nat.mul_le_mul this h8
    omega

/-- the encoder in full -/
theorem bytes_spec {n : Int} (h1 : -2^63 < n) (h2 : n < 2^63) :
    ∃ v, bytes n = .ok v ∧ Minimal v ∧ v.length ≤ 8 ∧ value v = n := by
  rcases lt_trichotomy n 0 with h | h | h
  · obtain ⟨i, l, hm, hl, h7, h6⟩ := magnitude_bytes (m := (-n).toNat) (by omega) (by omega)
    rw [bytes_neg (i := i) (l := l) h h1 hl (by omega)]
    refine ⟨_, rfl, ?_⟩
    by_cases h8 : 128 ≤ l.toNat
    · rw [if_pos h8]
      refine ⟨Or.inr (Or.inr ⟨i, l, 0x80, rfl, h8, Or.inr rfl⟩), by simpa using h6 h8, ?_⟩
      rw [show i ++ [l, 0x80] = (i ++ [l]) ++ [0x80] by simp, value_append, if_neg (by simp), ← hm]
      simp; omega
    · rw [if_neg h8]
      have e := or80_toNat l (by omega)
      refine ⟨Or.inr (Or.inl ⟨i, _, rfl, by omega, by omega⟩), by simp; omega, ?_⟩
      rw [value_append, if_neg (by omega), e, Nat.add_sub_cancel]
      rw [leNat_append] at hm
      simp only [leNat, Nat.mul_zero, Nat.add_zero] at hm
      omega
  · subst h; exact ⟨[], bytes_zero, Or.inl rfl, by simp, value_nil⟩
  · obtain ⟨i, l, hm, hl, h7, h6⟩ := magnitude_bytes (m := n.toNat) (by omega) (by omega)
    rw [bytes_pos (i := i) (l := l) h hl (by omega)]
    refine ⟨_, rfl, ?_⟩
    by_cases h8 : 128 ≤ l.toNat
    · rw [if_pos h8]
      refine ⟨Or.inr (Or.inr ⟨i, l, 0, rfl, h8, Or.inl rfl⟩), by simpa using h6 h8, ?_⟩
      rw [show i ++ [l, 0] = (i ++ [l]) ++ [0] by simp, value_append, if_pos (by simp), ]
      rw [← hm]
      simp; omega
    · rw [if_neg h8]
      refine ⟨Or.inr (Or.inl ⟨i, _, rfl, by omega, by omega⟩), by simp; omega, ?_⟩
      rw [value_append, if_pos (by omega)]
      rw [leNat_append] at hm
      simp only [leNat, Nat.mul_zero, Nat.add_zero] at hm
      omega

/-- length of a minimal encoding against the size of the number -/
theorem length_le_iff {v : Bytes} (hm : Minimal v) (L : Nat) (hL : 1 ≤ L) :
    v.length ≤ L ↔ -(128 * 256 ^ (L - 1) : Int) < value v ∧ value v < 128 * 256 ^ (L - 1) := by
  rcases nil_or_snoc v with rfl | ⟨i, l, rfl⟩
  · simp [value_nil]
  have hlt := Buffer.leNat_lt i
  have hb := l.toNat_lt
  have hcast : (128 * 256 ^ (L - 1) : Int) = ((128 * 256 ^ (L - 1) : Nat) : Int) := by push_cast; rfl
  rw [hcast, value_append]
  simp only [List.length_append, List.length_singleton]
  constructor
  · intro h
    have hpow : 256 ^ i.length ≤ 256 ^ (L - 1) := Nat.pow_le_pow_right (by omega) (by omega)
    set P := 256 ^ i.length with hP
    set Q := 256 ^ (L - 1) with hQ
    by_cases h8 : l.toNat < 128
    · have : P * l.toNat ≤ P * 127 := Nat.mul_le_mul_left _ (by omega)
      rw [if_pos h8]; omega
    · have : P * (l.toNat - 128) ≤ P * 127 := Nat.mul_le_mul_left _ (by omega)
      rw [if_neg h8]; omega
  · intro h
    by_contra hc
    have hc' : L ≤ i.length := by omega
    rcases hm with hm | ⟨i', l', he, h0, h128⟩ | ⟨i', s, l', he, hs, hl⟩
    · simp at hm
    · obtain ⟨rfl, hh⟩ := List.append_inj' he rfl
      simp at hh; subst hh
      have hpow : 256 ^ (L - 1) * 256 ≤ 256 ^ i.length := by
        rw [← Nat.pow_succ]; exact Nat.pow_le_pow_right (by omega) (by omega)
      set P := 256 ^ i.length with hP
      set Q := 256 ^ (L - 1) with hQ
      by_cases h8 : l.toNat < 128
      · rw [if_pos h8] at h
        have : P * 1 ≤ P * l.toNat := Nat.mul_le_mul_left _ (by omega)
        have : 0 < Q := Nat.pow_pos (by omega)
        omega
      · rw [if_neg h8] at h
        have : P * 1 ≤ P * (l.toNat - 128) := Nat.mul_le_mul_left _ (by omega)
        have : 0 < Q := Nat.pow_pos (by omega)
        omega
    · rw [show i' ++ [s, l'] = (i' ++ [s]) ++ [l'] by simp] at he
      obtain ⟨rfl, hh⟩ := List.append_inj' he rfl
      simp at hh; subst hh
      have e : leNat (i' ++ [s]) = leNat i' + 256 ^ i'.length * s.toNat := by rw [leNat_append]; simp [leNat]
      simp only [List.length_append, List.length_singleton] at hc' h
      have hpow : 256 ^ (L - 1) ≤ 256 ^ i'.length := Nat.pow_le_pow_right (by omega) (by omega)
      have : 256 ^ i'.length * 128 ≤ 256 ^ i'.length * s.toNat := Nat.mul_le_mul_left _ hs
      rcases hl with hl | hl
      · rw [if_pos (by omega), hl, Nat.mul_zero, e] at h
        omega
      · rw [if_neg (by omega), hl, Nat.sub_self, Nat.mul_zero, e] at h
        omega

end Toku.ScriptNum
