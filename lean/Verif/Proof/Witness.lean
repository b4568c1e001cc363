import Verif.Model.Witness
import Verif.Proof.Bech32Text
import Verif.Proof.Big
/-
Lemmas for convertBits: the loop maintains "value read so far = value emitted * 2^bits + low bits".
-/
namespace Toku.Witness
open Toku

/-- the value of a list of `w`-bit groups -/
def valW (w : Nat) (l : Bytes) : Nat := valBE (2^w) (l.map UInt8.toNat)

theorem valW_append (w : Nat) (l m : Bytes) : valW w (l ++ m) = valW w l * (2^w) ^ m.length + valW w m := by
  simp [valW, valBE_append]

theorem valW_singleton (w : Nat) (b : UInt8) : valW w [b] = b.toNat := by simp [valW, valBE]

theorem valW_inj {w : Nat} (hw : 1 ≤ w) {l m : Bytes} (hl : l.length = m.length) (h1 : ∀ b ∈ l, b.toNat < 2^w)
    (h2 : ∀ b ∈ m, b.toNat < 2^w) (h : valW w l = valW w m) : l = m := by
  have hb : 1 < 2^w := Nat.one_lt_two_pow (by omega)
  have h1' : ∀ d ∈ l.map UInt8.toNat, d < 2^w := by
    intro d hd; obtain ⟨b, hb, rfl⟩ := List.mem_map.mp hd; exact h1 b hb
  have h2' : ∀ d ∈ m.map UInt8.toNat, d < 2^w := by
    intro d hd; obtain ⟨b, hb, rfl⟩ := List.mem_map.mp hd; exact h2 b hb
  have e1 := rep_lz hb h1'
  have e2 := rep_lz hb h2'
  have hv : valBE (2^w) (l.map UInt8.toNat) = valBE (2^w) (m.map UInt8.toNat) := h
  have l1 := congrArg List.length e1
  have l2 := congrArg List.length e2
  rw [rep, List.length_append, List.length_replicate, List.length_map] at l1 l2
  rw [hv] at l1
  have hz : lz (l.map UInt8.toNat) = lz (m.map UInt8.toNat) := by omega
  have : l.map UInt8.toNat = m.map UInt8.toNat := by rw [← e1, ← e2, hz, hv]
  rw [← map_ofNat_toNat l, this, map_ofNat_toNat]

/-- the byte emitted from an accumulator -/
theorem emit_byte (acc : BitVec 64) (bits tw : Nat) (h : bits + tw ≤ 64) (h8 : tw ≤ 8) :
    (UInt8.ofBitVec (((acc.sshiftRight bits) &&& BitVec.ofNat 64 (2 ^ tw - 1)).setWidth 8)).toNat
      = acc.toNat / 2^bits % 2^tw := by
  rw [UInt8.toNat_ofBitVec]
  have key : ((acc.sshiftRight bits) &&& BitVec.ofNat 64 (2 ^ tw - 1)) =
      BitVec.ofNat 64 (acc.toNat / 2^bits % 2^tw) := by
    apply BitVec.eq_of_getLsbD_eq
    intro i hi
    have hmask : (BitVec.ofNat 64 (2 ^ tw - 1)).getLsbD i = decide (i < tw) := by
      rw [BitVec.getLsbD_ofNat, Nat.testBit_two_pow_sub_one]; simp [hi]
    rw [BitVec.getLsbD_and, hmask, BitVec.getLsbD_ofNat, Nat.testBit_mod_two_pow, Nat.testBit_div_two_pow,
      BitVec.getLsbD_sshiftRight]
    by_cases hit : i < tw
    · have hlt : bits + i < 64 := by omega
      have : ¬ (64 ≤ i) := by omega
      simp [hit, hlt, hi, this, BitVec.testBit_toNat, Nat.add_comm]
    · simp [hit]
  rw [key]
  simp only [BitVec.toNat_setWidth, BitVec.toNat_ofNat]
  have h1 : acc.toNat / 2^bits % 2^tw < 2^tw := Nat.mod_lt _ (Nat.two_pow_pos _)
  have h2 : 2^tw ≤ 2^8 := Nat.pow_le_pow_right (by omega) h8
  rw [Nat.mod_eq_of_lt (by omega), Nat.mod_eq_of_lt (by omega)]

/-- loop invariant: `V` the value of the groups read, `n` bits in total -/
structure Inv (tw : Nat) (V total : Nat) (acc : BitVec 64) (bits : Nat) (ret : Bytes) : Prop where
  acc_eq : acc.toNat = V % 2^64
  val : valW tw ret = V / 2^bits
  lt : ∀ b ∈ ret, b.toNat < 2^tw
  len : ret.length * tw + bits = total

theorem emit_inv {tw : Nat} (hto : 1 ≤ tw) (h8 : tw ≤ 8) {V total : Nat} {acc : BitVec 64} :
    ∀ (fuel bits : Nat) (ret : Bytes), bits ≤ fuel → bits ≤ 40 → Inv tw V total acc bits ret →
      Inv tw V total acc (emit tw acc fuel bits ret).1 (emit tw acc fuel bits ret).2 ∧
      (emit tw acc fuel bits ret).1 < tw := by
  intro fuel
  induction fuel with
  | zero =>
    intro bits ret hf _ hi
    have : bits = 0 := by omega
    subst this
    exact ⟨hi, by simp [emit]; omega⟩
  | succ f ih =>
    intro bits ret hf h40 hi
    unfold emit
    by_cases hb : bits ≥ tw
    · rw [if_pos hb]
      simp only
      apply ih _ _ (by omega) (by omega)
      have eb := emit_byte acc (bits - tw) tw (by omega) h8
      constructor
      · exact hi.acc_eq
      · rw [valW_append, valW_singleton, eb, hi.val, hi.acc_eq]
        simp only [List.length_singleton, Nat.pow_one]
        have e1 : V % 2^64 / 2^(bits - tw) % 2^tw = V / 2^(bits - tw) % 2^tw := by
          rw [show (2:Nat)^64 = 2^(bits - tw) * 2^(64 - (bits - tw)) by rw [← Nat.pow_add]; congr 1; omega,
            Nat.mod_mul_right_div_self, Nat.mod_mod_of_dvd]
          exact pow_dvd_pow 2 (by omega)
        rw [e1]
        have e2 : V / 2^bits = V / 2^(bits - tw) / 2^tw := by
          rw [Nat.div_div_eq_div_mul, ← Nat.pow_add]; congr 2; omega
        rw [e2, Nat.mul_comm, Nat.div_add_mod]
      · intro b hb'
        rcases List.mem_append.mp hb' with hb' | hb'
        · exact hi.lt b hb'
        · rw [List.mem_singleton] at hb'
          subst hb'
          rw [eb]; exact Nat.mod_lt _ (Nat.two_pow_pos _)
      · have := hi.len
        simp only [List.length_append, List.length_singleton]
        rw [Nat.add_mul]
        omega
    · rw [if_neg hb]
      exact ⟨hi, by simpa using Nat.lt_of_not_le hb⟩

theorem acc_step {fw tw : Nat} (acc : BitVec 64) (v : UInt8) (V : Nat) (hf : 1 ≤ fw) (hf8 : fw ≤ 8)
    (_ht : 1 ≤ tw) (hft : fw + tw = 13) (hv : v.toNat < 2^fw) (h : acc.toNat = V % 2^64) :
    ((acc <<< fw) ||| (v.toBitVec.setWidth 64 &&& BitVec.ofNat 64 (2 ^ (fw + tw - 1) - 1))).toNat
      = (V * 2^fw + v.toNat) % 2^64 := by
  have h8 := v.toNat_lt
  have e1 : (v.toBitVec.setWidth 64 &&& BitVec.ofNat 64 (2 ^ (fw + tw - 1) - 1)).toNat = v.toNat := by
    rw [hft, BitVec.toNat_and, BitVec.toNat_setWidth, BitVec.toNat_ofNat]
    rw [show (2 ^ (13 - 1) - 1) % 2^64 = 2^12 - 1 by norm_num, Nat.and_two_pow_sub_one_eq_mod]
    show v.toNat % 2^64 % 2^12 = v.toNat
    omega
  rw [BitVec.toNat_or, e1, BitVec.toNat_shiftLeft, h, Nat.shiftLeft_eq]
  have e2 : V % 2^64 * 2^fw % 2^64 = V * 2^fw % 2^64 := Nat.mod_mul_mod V _ _
  rw [e2]
  have e3 : V * 2^fw % 2^64 = 2^fw * (V % 2^(64 - fw)) := by
    rw [show (2:Nat)^64 = 2^fw * 2^(64 - fw) by rw [← Nat.pow_add]; congr 1; omega, Nat.mul_comm V,
      Nat.mul_mod_mul_left]
  rw [e3, ← Nat.two_pow_add_eq_or_of_lt hv]
  have e4 : (V * 2^fw + v.toNat) % 2^64 = 2^fw * (V % 2^(64 - fw)) + v.toNat := by
    rw [show (2:Nat)^64 = 2^fw * 2^(64 - fw) by rw [← Nat.pow_add]; congr 1; omega, Nat.mod_mul,
      Nat.mul_comm V, Nat.mul_add_mod, Nat.mod_eq_of_lt hv, Nat.mul_add_div (Nat.two_pow_pos _),
      Nat.div_eq_of_lt hv]
    simp [Nat.add_comm]
  rw [e4]

theorem convertLoop_inv {fw tw : Nat} (hf : 1 ≤ fw) (hf8 : fw ≤ 8) (ht : 1 ≤ tw) (ht8 : tw ≤ 8)
    (hft : fw + tw = 13) :
    ∀ (data pre : Bytes) (acc : BitVec 64) (bits : Nat) (ret : Bytes), (∀ b ∈ data, b.toNat < 2^fw) →
      Inv tw (valW fw pre) (pre.length * fw) acc bits ret → bits < tw →
      ∃ acc' bits' ret', convertLoop fw tw data acc bits ret = (acc', bits', ret') ∧
        Inv tw (valW fw (pre ++ data)) ((pre ++ data).length * fw) acc' bits' ret' ∧ bits' < tw := by
  intro data
  induction data with
  | nil => intro pre acc bits ret _ hi hb; exact ⟨acc, bits, ret, rfl, by simpa using hi, hb⟩
  | cons v rest ih =>
    intro pre acc bits ret hd hi hb
    unfold convertLoop
    simp only
    set acc1 := (acc <<< fw) ||| (v.toBitVec.setWidth 64 &&& BitVec.ofNat 64 (2 ^ (fw + tw - 1) - 1))
    have hv := hd v (by simp)
    have hV : valW fw (pre ++ [v]) = valW fw pre * 2^fw + v.toNat := by
      rw [valW_append, valW_singleton]; simp
    have hi1 : Inv tw (valW fw (pre ++ [v])) ((pre ++ [v]).length * fw) acc1 (bits + fw) ret := by
      constructor
      · rw [hV]; exact acc_step acc v _ hf hf8 ht hft hv hi.acc_eq
      · rw [hV, hi.val, Nat.add_comm bits, Nat.pow_add, ← Nat.div_div_eq_div_mul]
        congr 1
        rw [Nat.mul_comm, Nat.mul_add_div (Nat.two_pow_pos _), Nat.div_eq_of_lt hv, Nat.add_zero]
      · exact hi.lt
      · have := hi.len
        simp only [List.length_append, List.length_singleton]
        rw [Nat.add_mul]; omega
    obtain ⟨hi2, hb2⟩ := emit_inv ht ht8 (bits + fw) (bits + fw) ret (Nat.le_refl _) (by omega) hi1
    cases he : emit tw acc1 (bits + fw) (bits + fw) ret with
    | mk b2 r2 =>
      rw [he] at hi2 hb2
      obtain ⟨a', b', r', e, hi3, hb3⟩ := ih (pre ++ [v]) acc1 b2 r2 (fun x hx => hd x (by simp [hx])) hi2 hb2
      exact ⟨a', b', r', e, by simpa using hi3, hb3⟩

/-- the leftover bits test / padding group -/
theorem pad_value (acc : BitVec 64) (V bits tw : Nat) (hb : bits < tw) (h8 : tw ≤ 8) (h : acc.toNat = V % 2^64) :
    ((acc <<< (tw - bits)) &&& BitVec.ofNat 64 (2 ^ tw - 1)).toNat = V % 2^bits * 2^(tw - bits) := by
  rw [BitVec.toNat_and, BitVec.toNat_shiftLeft, h, Nat.shiftLeft_eq, BitVec.toNat_ofNat]
  have h2 : 2^tw ≤ 2^8 := Nat.pow_le_pow_right (by omega) h8
  have h3 := Nat.two_pow_pos tw
  rw [Nat.mod_eq_of_lt (show 2^tw - 1 < 2^64 by omega), Nat.and_two_pow_sub_one_eq_mod, Nat.mod_mul_mod,
    Nat.mod_mod_of_dvd _ (pow_dvd_pow 2 (by omega : tw ≤ 64))]
  rw [show (2:Nat)^tw = 2^bits * 2^(tw - bits) by rw [← Nat.pow_add]; congr 1; omega, Nat.mul_mod_mul_right]

/-- description of the padded 8-tw-5 (or any w-tw-v) regrouping -/
theorem convert_pad {fw tw : Nat} (hf : 1 ≤ fw) (hf8 : fw ≤ 8) (ht : 1 ≤ tw) (ht8 : tw ≤ 8)
    (hft : fw + tw = 13) (data : Bytes) (hd : ∀ b ∈ data, b.toNat < 2^fw) :
    ∃ ret p, convertBits data fw tw true = .ok ret ∧ p < tw ∧ ret.length * tw = data.length * fw + p ∧
      valW tw ret = valW fw data * 2^p ∧ (∀ b ∈ ret, b.toNat < 2^tw) := by
  have h0 : Inv tw (valW fw []) (([] : Bytes).length * fw) 0#64 0 [] := by
    constructor <;> simp [valW, valBE]
  obtain ⟨acc, bits, ret, e, hi, hb⟩ := convertLoop_inv hf hf8 ht ht8 hft data [] 0#64 0 [] hd h0 (by omega)
  rw [List.nil_append] at hi
  unfold convertBits
  rw [e]
  simp only [if_true]
  by_cases hb0 : bits > 0
  · rw [if_pos hb0]
    refine ⟨_, tw - bits, rfl, by omega, ?_, ?_, ?_⟩
    · have := hi.len
      simp only [List.length_append, List.length_singleton]
      rw [Nat.add_mul]; omega
    · have hp := pad_value acc _ bits tw hb ht8 hi.acc_eq
      have hlt : valW fw data % 2^bits * 2^(tw - bits) < 2^tw := by
        have h1 : valW fw data % 2^bits < 2^bits := Nat.mod_lt _ (Nat.two_pow_pos _)
        calc _ < 2^bits * 2^(tw - bits) := Nat.mul_lt_mul_of_pos_right h1 (Nat.two_pow_pos _)
          _ = 2^tw := by rw [← Nat.pow_add]; congr 1; omega
      have h2 : 2^tw ≤ 2^8 := Nat.pow_le_pow_right (by omega) ht8
      rw [valW_append, valW_singleton, UInt8.toNat_ofBitVec, BitVec.toNat_setWidth, hp, hi.val,
        Nat.mod_eq_of_lt (by omega), List.length_singleton, Nat.pow_one]
      conv_rhs => rw [← Nat.div_add_mod (valW fw data) (2^bits)]
      rw [Nat.add_mul]
      congr 1
      rw [Nat.mul_comm (2^bits), Nat.mul_assoc, ← Nat.pow_add]
      congr 2; omega
    · intro b hb'
      rcases List.mem_append.mp hb' with hb' | hb'
      · exact hi.lt b hb'
      · rw [List.mem_singleton] at hb'
        subst hb'
        rw [UInt8.toNat_ofBitVec, BitVec.toNat_setWidth]
        refine Nat.lt_of_le_of_lt (Nat.mod_le _ _) ?_
        rw [BitVec.toNat_and, BitVec.toNat_ofNat]
        have h2 : 2^tw ≤ 2^8 := Nat.pow_le_pow_right (by omega) ht8
        have h3 := Nat.two_pow_pos tw
        rw [Nat.mod_eq_of_lt (show 2^tw - 1 < 2^64 by omega), Nat.and_two_pow_sub_one_eq_mod]
        exact Nat.mod_lt _ h3
  · rw [if_neg hb0]
    have : bits = 0 := by omega
    subst this
    refine ⟨ret, 0, rfl, by omega, by have := hi.len; omega, ?_, hi.lt⟩
    rw [hi.val]; simp

/-- description of the strict regrouping -/
theorem convert_strict {fw tw : Nat} (hf : 1 ≤ fw) (hf8 : fw ≤ 8) (ht : 1 ≤ tw) (ht8 : tw ≤ 8)
    (hft : fw + tw = 13) (data : Bytes) (hd : ∀ b ∈ data, b.toNat < 2^fw) :
    ∃ ret bits, bits < tw ∧ ret.length * tw + bits = data.length * fw ∧
      valW tw ret = valW fw data / 2^bits ∧ (∀ b ∈ ret, b.toNat < 2^tw) ∧
      convertBits data fw tw false =
        (if bits ≥ fw then .err .convertPadding
         else if valW fw data % 2^bits ≠ 0 then .err .convertNonZero else .ok ret) := by
  have h0 : Inv tw (valW fw []) (([] : Bytes).length * fw) 0#64 0 [] := by
    constructor <;> simp [valW, valBE]
  obtain ⟨acc, bits, ret, e, hi, hb⟩ := convertLoop_inv hf hf8 ht ht8 hft data [] 0#64 0 [] hd h0 (by omega)
  rw [List.nil_append] at hi
  refine ⟨ret, bits, hb, by have := hi.len; omega, hi.val, hi.lt, ?_⟩
  unfold convertBits
  rw [e]
  simp only [Bool.false_eq_true, if_false]
  by_cases hbf : bits ≥ fw
  · rw [if_pos hbf, if_pos hbf]
  · rw [if_neg hbf, if_neg hbf]
    have hp := pad_value acc _ bits tw hb ht8 hi.acc_eq
    have : ((acc <<< (tw - bits)) &&& BitVec.ofNat 64 (2 ^ tw - 1) ≠ 0#64) ↔ valW fw data % 2^bits ≠ 0 := by
      rw [ne_eq, ← BitVec.toNat_inj, hp]
      have := Nat.two_pow_pos (tw - bits)
      simp
    simp only [this]

theorem bytes_lt (l : Bytes) : ∀ b ∈ l, b.toNat < 2^8 := fun b _ => b.toNat_lt

theorem convert_roundtrip (data : Bytes) :
    ∃ q, convertBits data 8 5 true = .ok q ∧ (∀ b ∈ q, b.toNat < 32) ∧ convertBits q 5 8 false = .ok data := by
  obtain ⟨q, p, e, hp, hl, hv, hlt⟩ := convert_pad (fw := 8) (tw := 5) (by omega) (by omega) (by omega)
    (by omega) rfl data (bytes_lt data)
  refine ⟨q, e, hlt, ?_⟩
  obtain ⟨r, bits, hb, hl2, hv2, hlt2, e2⟩ := convert_strict (fw := 5) (tw := 8) (by omega) (by omega)
    (by omega) (by omega) rfl q hlt
  have hbits : bits = p := by omega
  subst hbits
  rw [e2, if_neg (by omega), if_neg (by rw [hv]; simp)]
  congr 1
  apply valW_inj (w := 8) (by omega) (by omega) hlt2 (bytes_lt data)
  rw [hv2, hv, Nat.mul_div_cancel _ (Nat.two_pow_pos _)]

theorem convert_canonical {q data : Bytes} (hq : ∀ b ∈ q, b.toNat < 32) (h : convertBits q 5 8 false = .ok data) :
    convertBits data 8 5 true = .ok q := by
  obtain ⟨r, bits, hb, hl2, hv2, hlt2, e2⟩ := convert_strict (fw := 5) (tw := 8) (by omega) (by omega)
    (by omega) (by omega) rfl q hq
  rw [e2] at h
  by_cases h1 : bits ≥ 5
  · rw [if_pos h1] at h; cases h
  rw [if_neg h1] at h
  by_cases h2 : valW 5 q % 2^bits ≠ 0
  · rw [if_pos h2] at h; cases h
  rw [if_neg h2] at h
  cases h
  obtain ⟨q', p, e, hp, hl, hv, hlt⟩ := convert_pad (fw := 8) (tw := 5) (by omega) (by omega) (by omega)
    (by omega) rfl data (bytes_lt data)
  rw [e]
  congr 1
  have hbp : p = bits := by omega
  subst hbp
  apply valW_inj (w := 5) (by omega) (by omega) hlt hq
  rw [hv, hv2]
  have : valW 5 q % 2^p = 0 := by omega
  rw [Nat.div_mul_cancel (Nat.dvd_of_mod_eq_zero this)]

end Toku.Witness
