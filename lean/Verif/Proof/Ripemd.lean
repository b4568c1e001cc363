import Verif.Model.Ripemd
import Verif.Spec.Ripemd
import Verif.Proof.BufferInv
import Mathlib.Data.List.GetD
import Mathlib.Tactic.NormNum.Basic
import Mathlib.Tactic.NormNum.Pow
import Mathlib.Tactic.NormNum.DivMod
/-
Helper lemmas about RIPEMD-160: the compression function, and the state after writing chunks.
-/
namespace Toku.Ripemd
open Toku.Spec (leNat)

def toH (v : Ctx) : Spec.Ripemd.H := (v.a, v.b, v.c, v.d, v.e)

theorem toH_inj {v w : Ctx} (h : toH v = toH w) : v = w := by
  cases v; cases w; simp [toH] at h; simp [h]

theorem rotl_eq (x : UInt32) (k : Nat) (h0 : 0 < k) (h : k < 32) : rotl x k = Spec.Ripemd.rol k x := by
  apply UInt32.toNat_inj.mp
  unfold rotl Spec.Ripemd.rol
  rw [UInt32.toNat_or, UInt32.toNat_shiftLeft, UInt32.toNat_shiftRight, UInt32.toNat_ofNat', UInt32.toNat_ofNat', UInt32.toNat_ofNat']
  have hx := x.toNat_lt
  generalize x.toNat = n at *
  rw [Nat.mod_eq_of_lt (show k < 2^32 by omega), Nat.mod_eq_of_lt (show k < 32 from h),
    Nat.mod_eq_of_lt (show 32 - k < 2^32 by omega), Nat.mod_eq_of_lt (show 32 - k < 32 by omega),
    Nat.shiftLeft_eq, Nat.shiftRight_eq_div_pow]
  have e32 : (2:Nat)^32 = 2^k * 2^(32-k) := by rw [← Nat.pow_add]; congr 1; omega
  have e : n * 2^k % 2^32 = 2^k * (n % 2^(32-k)) := by
    rw [e32, Nat.mul_comm n, Nat.mul_mod_mul_left]
  have hlt : n / 2^(32-k) < 2^k := by
    rw [Nat.div_lt_iff_lt_mul (Nat.two_pow_pos _), ← e32]; exact hx
  rw [e, ← Nat.two_pow_add_eq_or_of_lt hlt]
  symm
  apply Nat.mod_eq_of_lt
  have h1 : n % 2^(32-k) < 2^(32-k) := Nat.mod_lt _ (Nat.two_pow_pos _)
  rw [e32]
  calc 2^k * (n % 2^(32-k)) + n / 2^(32-k) < 2^k * (n % 2^(32-k)) + 2^k := by omega
    _ = 2^k * (n % 2^(32-k) + 1) := by rw [Nat.mul_add, Nat.mul_one]
    _ ≤ _ := Nat.mul_le_mul_left _ h1

theorem kLeft1 : Spec.Ripemd.kLeft 1 = 0x5a827999 := by
  have : Nat.sqrt (2 * 2^60) = 1518500249 := by symm; rw [Nat.eq_sqrt]; decide
  rw [Spec.Ripemd.kLeft, this]; rfl
theorem kLeft2 : Spec.Ripemd.kLeft 2 = 0x6ed9eba1 := by
  have : Nat.sqrt (3 * 2^60) = 1859775393 := by symm; rw [Nat.eq_sqrt]; decide
  rw [Spec.Ripemd.kLeft, this]; rfl
theorem kLeft3 : Spec.Ripemd.kLeft 3 = 0x8f1bbcdc := by
  have : Nat.sqrt (5 * 2^60) = 2400959708 := by symm; rw [Nat.eq_sqrt]; decide
  rw [Spec.Ripemd.kLeft, this]; rfl
theorem kLeft4 : Spec.Ripemd.kLeft 4 = 0xa953fd4e := by
  have : Nat.sqrt (7 * 2^60) = 2840853838 := by symm; rw [Nat.eq_sqrt]; decide
  change UInt32.ofNat (Nat.sqrt (7 * 2^60)) = _
  rw [this]; rfl
theorem kRight0 : Spec.Ripemd.kRight 0 = 0x50a28be6 := by decide +kernel
theorem kRight1 : Spec.Ripemd.kRight 1 = 0x5c4dd124 := by decide +kernel
theorem kRight2 : Spec.Ripemd.kRight 2 = 0x6d703ef3 := by decide +kernel
theorem kRight3 : Spec.Ripemd.kRight 3 = 0x7a6d76e9 := by decide +kernel

theorem alphaLeft_eq (j : Nat) (hj : j < 80) (v : Ctx) (w : UInt32) :
    alphaLeft j v w = v.a + Spec.Ripemd.f (j / 16) v.b v.c v.d + w + Spec.Ripemd.kLeft (j / 16) := by
  unfold alphaLeft
  by_cases h1 : j < 16
  · rw [if_pos h1, show j / 16 = 0 by omega]; simp [Spec.Ripemd.f, Spec.Ripemd.kLeft]
  · by_cases h2 : j < 32
    · rw [if_neg h1, if_pos h2, show j / 16 = 1 by omega, kLeft1]; rfl
    · by_cases h3 : j < 48
      · rw [if_neg h1, if_neg h2, if_pos h3, show j / 16 = 2 by omega, kLeft2]; rfl
      · by_cases h4 : j < 64
        · rw [if_neg h1, if_neg h2, if_neg h3, if_pos h4, show j / 16 = 3 by omega, kLeft3]; rfl
        · rw [if_neg h1, if_neg h2, if_neg h3, if_neg h4, show j / 16 = 4 by omega, kLeft4]; rfl

theorem alphaRight_eq (j : Nat) (hj : j < 80) (v : Ctx) (w : UInt32) :
    alphaRight j v w = v.a + Spec.Ripemd.f (4 - j / 16) v.b v.c v.d + w + Spec.Ripemd.kRight (j / 16) := by
  unfold alphaRight
  by_cases h1 : j < 16
  · rw [if_pos h1, show j / 16 = 0 by omega, kRight0]; rfl
  · by_cases h2 : j < 32
    · rw [if_neg h1, if_pos h2, show j / 16 = 1 by omega, kRight1]; rfl
    · by_cases h3 : j < 48
      · rw [if_neg h1, if_neg h2, if_pos h3, show j / 16 = 2 by omega, kRight2]; rfl
      · by_cases h4 : j < 64
        · rw [if_neg h1, if_neg h2, if_neg h3, if_pos h4, show j / 16 = 3 by omega, kRight3]; rfl
        · rw [if_neg h1, if_neg h2, if_neg h3, if_neg h4, show j / 16 = 4 by omega]
          simp [Spec.Ripemd.f, Spec.Ripemd.kRight]

theorem tables : ∀ j < 80, tabN.getD j 0 = Spec.Ripemd.wordLeft j ∧
    tabNN.getD j 0 = Spec.Ripemd.wordRight j ∧
    tabR.getD j 0 = Spec.Ripemd.shift (j / 16) (Spec.Ripemd.wordLeft j) ∧
    tabRR.getD j 0 = Spec.Ripemd.shift (j / 16) (Spec.Ripemd.wordRight j) ∧
    0 < tabR.getD j 0 ∧ tabR.getD j 0 < 32 ∧ 0 < tabRR.getD j 0 ∧ tabRR.getD j 0 < 32 ∧
    Spec.Ripemd.wordLeft j < 16 ∧ Spec.Ripemd.wordRight j < 16 := by decide +kernel

theorem leNat_take4 (q : Bytes) : leNat (q.take 4) =
    (q.getD 0 0).toNat + 256 * ((q.getD 1 0).toNat + 256 * ((q.getD 2 0).toNat + 256 * (q.getD 3 0).toNat)) := by
  match q with
  | [] => rfl
  | [a] => simp [leNat]
  | [a, b] => simp [leNat]
  | [a, b, c] => simp [leNat]
  | a :: b :: c :: d :: t => simp [leNat]

theorem word_eq (p : Bytes) (i : Nat) (hi : i < 16) : (words p).getD i 0 = Spec.Ripemd.word p i := by
  unfold words Spec.Ripemd.word
  rw [List.getD_eq_getElem?_getD, List.getElem?_map, List.getElem?_range hi, Option.map_some, Option.getD_some]
  apply UInt32.toNat_inj.mp
  rw [Buffer.join32_toNat, leNat_take4, UInt32.toNat_ofNat']
  simp only [List.getD_eq_getElem?_getD, List.getElem?_drop, Nat.add_zero]
  have h0 := (p[4 * i]?.getD 0).toNat_lt
  have h1 := (p[4 * i + 1]?.getD 0).toNat_lt
  have h2 := (p[4 * i + 2]?.getD 0).toNat_lt
  have h3 := (p[4 * i + 3]?.getD 0).toNat_lt
  omega

theorem shiftVars_eq (v : Ctx) (fn : Nat) (k w al : UInt32) (s : Nat) (h0 : 0 < s) (h1 : s < 32)
    (ha : al = v.a + Spec.Ripemd.f fn v.b v.c v.d + w + k) :
    toH (shiftVars v al s) = Spec.Ripemd.stepLine fn k w s (toH v) := by
  unfold shiftVars toH Spec.Ripemd.stepLine
  simp only [rotl_eq _ s h0 h1, rotl_eq _ 10 (by decide) (by decide), ha]

theorem foldl_step (p : Bytes) (l : List Nat) : ∀ (v : Ctx × Ctx), (∀ j ∈ l, j < 80) →
    toH (l.foldl (step (words p)) v).1 = l.foldl (fun v j => Spec.Ripemd.stepLine (j / 16) (Spec.Ripemd.kLeft (j / 16))
      (Spec.Ripemd.word p (Spec.Ripemd.wordLeft j)) (Spec.Ripemd.shift (j / 16) (Spec.Ripemd.wordLeft j)) v) (toH v.1) ∧
    toH (l.foldl (step (words p)) v).2 = l.foldl (fun v j => Spec.Ripemd.stepLine (4 - j / 16) (Spec.Ripemd.kRight (j / 16))
      (Spec.Ripemd.word p (Spec.Ripemd.wordRight j)) (Spec.Ripemd.shift (j / 16) (Spec.Ripemd.wordRight j)) v) (toH v.2) := by
  induction l with
  | nil => intro v _; exact ⟨rfl, rfl⟩
  | cons j l ih =>
    intro v h
    have hj := h j (by simp)
    obtain ⟨t1, t2, t3, t4, t5, t6, t7, t8, t9, t10⟩ := tables j hj
    have := ih (step (words p) v j) (fun i hi => h i (by simp [hi]))
    rw [List.foldl_cons, List.foldl_cons, List.foldl_cons]
    refine ⟨this.1.trans ?_, this.2.trans ?_⟩
    · congr 1
      unfold step
      dsimp only
      rw [← t3]
      refine shiftVars_eq _ _ _ _ _ _ t5 t6 ?_
      rw [alphaLeft_eq j hj, t1, word_eq _ _ t9]
    · congr 1
      unfold step
      dsimp only
      rw [← t4]
      refine shiftVars_eq _ _ _ _ _ _ t7 t8 ?_
      rw [alphaRight_eq j hj, t2, word_eq _ _ t10]

theorem compress_eq (s : Ctx) (p : Bytes) : toH (compress s p) = Spec.Ripemd.compress (toH s) p := by
  have h := foldl_step p (List.range 80) (s, s) (by simp)
  unfold compress combine Spec.Ripemd.compress
  rw [show Spec.Ripemd.lineLeft p (toH s) = _ from h.1.symm, show Spec.Ripemd.lineRight p (toH s) = _ from h.2.symm]
  simp only [toH, Prod.mk.injEq, and_true]
  ac_rfl

/-- Context after absorbing the first `n` blocks. -/
def absorb : Nat → Ctx → Bytes → Ctx
  | 0, s, _ => s
  | n + 1, s, m => absorb n (compress s (m.take 64)) (m.drop 64)

theorem absorb_eq (n : Nat) : ∀ (s : Ctx) (m : Bytes), toH (absorb n s m) = Spec.Ripemd.absorb n (toH s) m := by
  induction n with
  | zero => intro s m; rfl
  | succ n ih => intro s m; rw [absorb, Spec.Ripemd.absorb, ih, compress_eq]

theorem absorb_append_right (n : Nat) : ∀ (s : Ctx) (m t : Bytes), 64 * n ≤ m.length →
    absorb n s (m ++ t) = absorb n s m := by
  induction n with
  | zero => intros; rfl
  | succ n ih =>
    intro s m t h
    rw [absorb, absorb, List.take_append_of_le_length (by omega), List.drop_append_of_le_length (by omega),
      ih _ _ _ (by rw [List.length_drop]; omega)]

theorem absorb_add (a : Nat) : ∀ (b : Nat) (s : Ctx) (m : Bytes),
    absorb (a + b) s m = absorb b (absorb a s m) (m.drop (64 * a)) := by
  induction a with
  | zero => intro b s m; rw [Nat.zero_add]; simp [absorb]
  | succ a ih =>
    intro b s m
    rw [show a + 1 + b = (a + b) + 1 by omega, absorb, ih, absorb, List.drop_drop]
    congr 2; omega

theorem blockLoop_eq (k : Nat) : ∀ (s : Ctx) (p : Bytes), p.length / 64 ≤ k →
    blockLoop k s p = (absorb (p.length / 64) s p, 64 * (p.length / 64)) := by
  induction k with
  | zero => intro s p h; rw [show p.length / 64 = 0 by omega]; rfl
  | succ k ih =>
    intro s p h
    unfold blockLoop
    by_cases hp : p.length ≥ 64
    · rw [if_pos hp]
      dsimp only
      have hd : (p.drop 64).length / 64 = p.length / 64 - 1 := by rw [List.length_drop]; omega
      rw [ih _ _ (by omega), hd]
      obtain ⟨q, hq⟩ : ∃ q, p.length / 64 = q + 1 := ⟨p.length / 64 - 1, by omega⟩
      rw [hq, absorb]
      simp only [Nat.add_sub_cancel]
      rfl
    · rw [if_neg hp, show p.length / 64 = 0 by omega]; rfl

theorem blockFn_eq (s : Ctx) (p : Bytes) : blockFn s p = (absorb (p.length / 64) s p, 64 * (p.length / 64)) :=
  blockLoop_eq _ _ _ (by omega)

/-- The digest holds the message `m`: its full blocks are absorbed, the rest is in the buffer. -/
def Holds (d : Digest) (m : Bytes) : Prop :=
  d.s = absorb (m.length / 64) initial m ∧ d.nx = m.length % 64 ∧ d.x.length = 64 ∧
    d.x.take d.nx = m.drop (64 * (m.length / 64)) ∧ d.tc = UInt64.ofNat m.length

theorem holds_new : Holds new [] := ⟨rfl, rfl, rfl, rfl, rfl⟩

theorem holds_reset {d : Digest} {m : Bytes} (h : Holds d m) : Holds (reset d) [] :=
  ⟨rfl, rfl, h.2.2.1, rfl, rfl⟩

/-- Absorbing the blocks of `m` and then those of the rest followed by `p`. -/
theorem absorb_rest (m p : Bytes) : absorb ((m ++ p).length / 64) initial (m ++ p) =
    absorb ((m.length % 64 + p.length) / 64) (absorb (m.length / 64) initial m)
      (m.drop (64 * (m.length / 64)) ++ p) := by
  have e : (m ++ p).length / 64 = m.length / 64 + (m.length % 64 + p.length) / 64 := by
    rw [List.length_append]; omega
  rw [e, absorb_add, absorb_append_right _ _ _ _ (by omega), List.drop_append_of_le_length (by omega)]

theorem holds_write {d : Digest} {m : Bytes} (h : Holds d m) (p : Bytes) : Holds (write d p) (m ++ p) := by
  obtain ⟨hs, hn, hx, ht, hc⟩ := h
  have htc : d.tc + UInt64.ofNat p.length = UInt64.ofNat (m ++ p).length := by
    rw [hc, List.length_append, UInt64.ofNat_add]
  have hr : (m.drop (64 * (m.length / 64))).length = m.length % 64 := by rw [List.length_drop]; omega
  -- the part after filling
  have tail : ∀ (x : Bytes) (m' p' : Bytes), x.length = 64 → m'.length % 64 = 0 → m' ++ p' = m ++ p →
      Holds (let (s, n) := blockFn (absorb (m'.length / 64) initial m') p'
        let d : Digest := ⟨s, x, 0, d.tc + UInt64.ofNat p.length⟩
        let q := p'.drop n
        if q.length > 0 then { d with x := putAt d.x 0 (q.take 64), nx := min 64 q.length } else d) (m ++ p) := by
    intro x m' p' hx' hm' he
    rw [blockFn_eq]
    dsimp only
    have hab : absorb (p'.length / 64) (absorb (m'.length / 64) initial m') p' =
        absorb ((m ++ p).length / 64) initial (m ++ p) := by
      rw [← he, absorb_rest, hm', Nat.zero_add, List.drop_eq_nil_of_le (by omega), List.nil_append]
    have hl : (m ++ p).length = m'.length + p'.length := by rw [← he, List.length_append]
    have hrest : (m ++ p).drop (64 * ((m ++ p).length / 64)) = p'.drop (64 * (p'.length / 64)) := by
      rw [hl, ← he, List.drop_append]
      rw [List.drop_eq_nil_of_le (by omega), List.nil_append]
      congr 1; omega
    rw [hab]
    have hq : (p'.drop (64 * (p'.length / 64))).length = (m ++ p).length % 64 := by
      rw [List.length_drop, hl]; omega
    by_cases hpos : (p'.drop (64 * (p'.length / 64))).length > 0
    · rw [if_pos hpos]
      generalize hQ : p'.drop (64 * (p'.length / 64)) = q at *
      have hq64 : q.length ≤ 64 := by omega
      rw [List.take_of_length_le hq64, Nat.min_eq_right hq64]
      refine ⟨rfl, hq, ?_, ?_, htc⟩
      · simp only [putAt, List.take_zero, List.nil_append, List.length_append, List.length_drop, hx']
        omega
      · rw [hrest]
        simp [putAt]
    · rw [if_neg hpos]
      have h0 : (p'.drop (64 * (p'.length / 64))).length = 0 := by omega
      refine ⟨rfl, by rw [← hq, h0], hx', ?_, htc⟩
      rw [hrest, List.length_eq_zero_iff.mp h0]; rfl
  unfold write
  dsimp only
  unfold fill
  dsimp only
  by_cases h0 : d.nx > 0
  · rw [if_pos h0]
    dsimp only
    by_cases hfull : 64 - d.nx ≤ p.length
    · have hmin : min p.length (64 - d.nx) = 64 - d.nx := by omega
      rw [hmin]
      have e64 : d.nx + (64 - d.nx) = 64 := by omega
      rw [if_pos e64]
      dsimp only
      have hlt : (p.take (64 - d.nx)).length = 64 - d.nx := by rw [List.length_take]; omega
      have hput : putAt d.x d.nx (p.take (64 - d.nx)) = m.drop (64 * (m.length / 64)) ++ p.take (64 - d.nx) := by
        unfold putAt
        rw [ht, hlt, e64, List.drop_eq_nil_of_le (Nat.le_of_eq hx), List.append_nil]
      have hpl : (putAt d.x d.nx (p.take (64 - d.nx))).length = 64 := by
        rw [hput, List.length_append, hr, hlt]; omega
      have key : (blockFn d.s (putAt d.x d.nx (p.take (64 - d.nx)))).1 =
          absorb ((m ++ p.take (64 - d.nx)).length / 64) initial (m ++ p.take (64 - d.nx)) := by
        have e1 : (m.length % 64 + (p.take (64 - d.nx)).length) / 64 = 64 / 64 := by rw [hlt, ← hn, e64]
        rw [blockFn_eq, hpl, absorb_rest, e1, hput, hs]
      rw [key]
      exact tail _ (m ++ p.take (64 - d.nx)) (p.drop (64 - d.nx)) hpl
        (by rw [List.length_append, hlt]; omega) (by rw [List.append_assoc, List.take_append_drop])
    · have hmin : min p.length (64 - d.nx) = p.length := by omega
      rw [hmin, if_neg (show ¬ d.nx + p.length = 64 by omega)]
      dsimp only
      rw [List.drop_eq_nil_of_le (Nat.le_refl _), List.take_of_length_le (Nat.le_refl _), blockFn_eq]
      dsimp only
      rw [List.drop_nil, if_neg (by simp)]
      have e1 : (m ++ p).length / 64 = m.length / 64 := by rw [List.length_append]; omega
      refine ⟨?_, ?_, ?_, ?_, htc⟩
      · rw [e1, absorb_append_right _ _ _ _ (by omega)]; exact hs
      · rw [List.length_append]; dsimp only; omega
      · simp only [putAt, List.length_append, List.length_take, List.length_drop]; omega
      · rw [e1, List.drop_append_of_le_length (by omega)]
        dsimp only
        unfold putAt
        rw [ht, List.take_append_of_le_length (by rw [List.length_append, hr]; omega), List.take_of_length_le (by rw [List.length_append, hr]; omega)]
  · rw [if_neg h0]
    have hn0 : d.nx = 0 := by omega
    have := tail d.x m p hx (by omega) rfl
    rw [← hs] at this
    cases d
    cases hn0
    exact this

end Toku.Ripemd

namespace Toku.Ripemd

theorem padding_eq (n : Nat) : padding (UInt64.ofNat n) = [0x80] ++ List.replicate ((119 - n % 64) % 64) 0 := by
  have hm : (UInt64.ofNat n % 64).toNat = n % 64 := by
    rw [UInt64.toNat_mod, UInt64.toNat_ofNat']
    change n % 2^64 % 64 = n % 64
    omega
  have hlt : (UInt64.ofNat n % 64 < 56) ↔ n % 64 < 56 := by
    rw [UInt64.lt_iff_toNat_lt, hm]; rfl
  unfold padding
  dsimp only
  by_cases h : n % 64 < 56
  · rw [if_pos (hlt.mpr h), hm, show 56 - n % 64 = (55 - n % 64) + 1 by omega, List.take_succ_cons,
      List.take_replicate, Nat.min_eq_left (by omega), show (119 - n % 64) % 64 = 55 - n % 64 by omega]
    rfl
  · rw [if_neg (fun hh => h (hlt.mp hh)), hm, show 64 + 56 - n % 64 = (119 - n % 64) + 1 by omega, List.take_succ_cons,
      List.take_replicate, Nat.min_eq_left (by omega), show (119 - n % 64) % 64 = 119 - n % 64 by omega]
    rfl

theorem le64_bits (n : Nat) : Buffer.le64 (UInt64.ofNat n <<< 3) =
    (List.range 8).map fun i => UInt8.ofNat (8 * n / 256^i) := by
  have e : (UInt64.ofNat n <<< 3).toNat = (8 * n) % 2^64 := by
    rw [UInt64.toNat_shiftLeft, UInt64.toNat_ofNat']
    change (n % 2^64) <<< (3 % 64) % 2^64 = _
    rw [Nat.shiftLeft_eq, show (2:Nat)^(3 % 64) = 8 from rfl]
    omega
  have key : ∀ (v : UInt64) (k : UInt64) (i : Nat), v.toNat = (8 * n) % 2^64 → k.toNat = 8 * i → i < 8 →
      (v >>> k).toUInt8 = UInt8.ofNat (8 * n / 256^i) := by
    intro v k i hv hk hi
    apply UInt8.toNat_inj.mp
    rw [UInt64.toNat_toUInt8, UInt64.toNat_shiftRight, hv, hk, UInt8.toNat_ofNat', Nat.mod_eq_of_lt (show 8 * i < 64 by omega),
      Nat.shiftRight_eq_div_pow, Nat.pow_mul]
    generalize 8 * n = N
    have : ∀ j, j < 8 → N % 2^64 / (2^8)^j % 2^8 = N / 256^j % 2^8 := by
      intro j hj
      have h1 : j = 0 ∨ j = 1 ∨ j = 2 ∨ j = 3 ∨ j = 4 ∨ j = 5 ∨ j = 6 ∨ j = 7 := by omega
      rcases h1 with rfl | rfl | rfl | rfl | rfl | rfl | rfl | rfl <;> norm_num only <;> omega
    exact this i hi
  generalize UInt64.ofNat n <<< 3 = v at *
  have h0 := key v 0 0 e rfl (by omega)
  have h1 := key v 8 1 e rfl (by omega)
  have h2 := key v 16 2 e rfl (by omega)
  have h3 := key v 24 3 e rfl (by omega)
  have h4 := key v 32 4 e rfl (by omega)
  have h5 := key v 40 5 e rfl (by omega)
  have h6 := key v 48 6 e rfl (by omega)
  have h7 := key v 56 7 e rfl (by omega)
  rw [show v >>> 0 = v by simp] at h0
  simp only [Buffer.le64, h0, h1, h2, h3, h4, h5, h6, h7]
  rfl

theorem finish_holds {d : Digest} {m : Bytes} (h : Holds d m) : Holds (finish d) (Spec.Ripemd.pad m) := by
  have e : Spec.Ripemd.pad m = m ++ padding d.tc ++ Buffer.le64 (d.tc <<< 3) := by
    rw [h.2.2.2.2, padding_eq, le64_bits, Spec.Ripemd.pad, ← List.append_assoc]
  rw [e]
  exact holds_write (holds_write h (padding d.tc)) (Buffer.le64 (d.tc <<< 3))

theorem pad_length (m : Bytes) : (Spec.Ripemd.pad m).length % 64 = 0 := by
  simp only [Spec.Ripemd.pad, List.length_append, List.length_replicate, List.length_map, List.length_range,
    List.length_cons, List.length_nil]
  omega

theorem le32_bytes (v : UInt32) : Buffer.le32 v = (List.range 4).map fun i => UInt8.ofNat (v.toNat / 256^i) := by
  have key : ∀ (k : UInt32) (i : Nat), k.toNat = 8 * i → i < 4 → (v >>> k).toUInt8 = UInt8.ofNat (v.toNat / 256^i) := by
    intro k i hk hi
    apply UInt8.toNat_inj.mp
    rw [UInt32.toNat_toUInt8, UInt32.toNat_shiftRight, hk, UInt8.toNat_ofNat', Nat.mod_eq_of_lt (show 8 * i < 32 by omega),
      Nat.shiftRight_eq_div_pow, Nat.pow_mul]
  have h0 := key 0 0 rfl (by omega)
  have h1 := key 8 1 rfl (by omega)
  have h2 := key 16 2 rfl (by omega)
  have h3 := key 24 3 rfl (by omega)
  rw [show v >>> 0 = v by simp] at h0
  simp only [Buffer.le32, h0, h1, h2, h3]
  rfl

theorem output_eq (s : Ctx) : output s =
    [s.a, s.b, s.c, s.d, s.e].flatMap fun h => (List.range 4).map fun i => UInt8.ofNat (h.toNat / 256^i) := by
  unfold output
  simp only [le32_bytes, List.flatMap_cons, List.flatMap_nil, List.append_nil, List.append_assoc]

theorem sum_holds {d : Digest} {m : Bytes} (h : Holds d m) :
    sum d = .ok (Spec.Ripemd.ripemd160 m) ∧ output (finish d).s = Spec.Ripemd.ripemd160 m := by
  have hf := finish_holds h
  have hn : (finish d).nx = 0 := by rw [hf.2.1, pad_length]
  have ho : output (finish d).s = Spec.Ripemd.ripemd160 m := by
    rw [output_eq]
    unfold Spec.Ripemd.ripemd160
    rw [show ((0x67452301, 0xefcdab89, 0x98badcfe, 0x10325476, 0xc3d2e1f0) : Spec.Ripemd.H) = toH initial from rfl,
      ← absorb_eq, ← hf.1]
    rfl
  refine ⟨?_, ho⟩
  unfold sum
  dsimp only
  rw [if_neg (by simp [hn]), ho]

theorem spec_length (m : Bytes) : (Spec.Ripemd.ripemd160 m).length = 20 := by
  unfold Spec.Ripemd.ripemd160
  generalize Spec.Ripemd.absorb _ _ _ = h
  obtain ⟨a, b, c, d, e⟩ := h
  simp

theorem holds_fold (chunks : List Bytes) : ∀ {d : Digest} {m : Bytes}, Holds d m →
    Holds (chunks.foldl write d) (m ++ chunks.flatten) := by
  induction chunks with
  | nil => intro d m h; simpa using h
  | cons c cs ih =>
    intro d m h
    rw [List.foldl_cons, List.flatten_cons, ← List.append_assoc]
    exact ih (holds_write h c)

end Toku.Ripemd

namespace Toku

theorem hash160_eq [Hashes] (x : Bytes) : hash160 x = Spec.Ripemd.ripemd160 (Hashes.sha256 x) := by
  have := (Ripemd.sum_holds (Ripemd.holds_write Ripemd.holds_new (Hashes.sha256 x))).2
  rwa [List.nil_append] at this

theorem hash160_length [Hashes] (x : Bytes) : (hash160 x).length = 20 := by
  rw [hash160_eq]; exact Ripemd.spec_length _

end Toku
