import Verif.Model.Keys
import Verif.Spec.Keys
import Verif.Proof.Secp
import Mathlib.FieldTheory.Finite.Basic
/-
Square roots modulo P, and the byte forms of keys.
-/
namespace Toku.Keys
open Toku.Spec Toku.Curve

theorem powMod_eq : Num.powMod = Primes.powMod := by
  funext m f
  induction f with
  | zero => rfl
  | succ f ih =>
    funext a e
    unfold Num.powMod Primes.powMod
    rw [ih]

theorem P_lt : P < 256 ^ 32 := by decide +kernel
theorem N_lt : N < 256 ^ 32 := by decide +kernel
theorem P_odd : (P : ℤ) % 2 = 1 := by decide +kernel
theorem P_pos : 0 < P := by decide +kernel

/-- The square root: found if there is one, and then one of the two roots. -/
theorem modSqrt_spec (a : ℕ) :
    (∀ r, Num.modSqrt a P = some r → r < P ∧ ((r : ZMod P)) ^ 2 = a) ∧
    (∀ y : ZMod P, y ^ 2 = a → ∃ r, Num.modSqrt a P = some r) := by
  have hp : Num.powMod P 256 (a % P) ((P + 1) / 4) = (a % P) ^ ((P + 1) / 4) % P := by
    rw [powMod_eq, Primes.powMod_eq _ _ _ _ (by decide +kernel)]
  have hc : ((Num.powMod P 256 (a % P) ((P + 1) / 4) : ℕ) : ZMod P) = (a : ZMod P) ^ ((P + 1) / 4) := by
    rw [hp, ZMod.natCast_mod, Nat.cast_pow, ZMod.natCast_mod]
  have hlt : Num.powMod P 256 (a % P) ((P + 1) / 4) < P := by rw [hp]; exact Nat.mod_lt _ P_pos
  unfold Num.modSqrt
  dsimp only
  revert hc hlt
  generalize Num.powMod P 256 (a % P) ((P + 1) / 4) = r
  intro hc hlt
  have hiff : r * r % P = a % P ↔ ((r : ZMod P)) ^ 2 = a := by
    rw [← ZMod.natCast_eq_natCast_iff', Nat.cast_mul, pow_two]
  constructor
  · intro r' h
    split at h
    · rename_i h2
      cases h
      exact ⟨hlt, hiff.mp h2⟩
    · cases h
  · intro y hy
    refine ⟨r, if_pos (hiff.mpr ?_)⟩
    rw [hc, ← hy, ← pow_mul, ← pow_mul]
    have e : 2 * ((P + 1) / 4) * 2 = P + 1 := by decide +kernel
    rw [← mul_assoc, e, pow_succ, ZMod.pow_card, pow_two]

/-! ### bytes -/

theorem intBytes_nat (n : ℕ) : intBytes n = natToBE n := rfl

theorem intBytes_len {x : ℤ} (h : 0 ≤ x ∧ x < P) : (intBytes x).length ≤ 32 := by
  obtain ⟨n, rfl⟩ := Int.eq_ofNat_of_zero_le h.1
  apply natToBE_length_le
  have := P_lt
  have : n < P := by exact_mod_cast h.2
  exact lt_trans this P_lt

theorem is32_pad {x : ℤ} (h0 : 0 ≤ x) (h : (intBytes x).length ≤ 32) :
    Is32 (List.replicate (32 - (intBytes x).length) 0 ++ intBytes x) x := by
  constructor
  · rw [List.length_append, List.length_replicate]; omega
  · change ((natOfBE _ : ℕ) : ℤ) = x
    obtain ⟨n, rfl⟩ := Int.eq_ofNat_of_zero_le h0
    rw [natOfBE_replicate]
    change ((natOfBE (natToBE n) : ℕ) : ℤ) = n
    rw [natOfBE_natToBE]

theorem is32_unique {a b : Bytes} {x : ℤ} (ha : Is32 a x) (hb : Is32 b x) : a = b := by
  apply natOfBE_inj (ha.1.trans hb.1.symm)
  have := ha.2.trans hb.2.symm
  exact_mod_cast this

theorem pad32_ok {x : ℤ} (h : 0 ≤ x ∧ x < P) : ∃ b, pad32 x = .ok b ∧ Is32 b x := by
  refine ⟨_, ?_, is32_pad h.1 (intBytes_len h)⟩
  unfold pad32
  dsimp only
  rw [if_neg (by have := intBytes_len h; omega)]

theorem secMarshal_ok {x : ℤ} (h : 0 ≤ x ∧ x < P) (y : ℤ) :
    ∃ b, secMarshal x y = .ok ((if y % 2 = 1 then 3 else 2) :: b) ∧ Is32 b x := by
  have hl := intBytes_len h
  refine ⟨_, ?_, is32_pad h.1 hl⟩
  unfold secMarshal isOdd
  dsimp only
  rw [if_neg (by omega)]
  have : 33 - (intBytes x).length = (32 - (intBytes x).length) + 1 := by omega
  rw [this, List.take_succ_cons, List.take_replicate, Nat.min_eq_left (by omega), List.cons_append]
  simp only [beq_iff_eq]

theorem mask2 (f : UInt8) : f &&& 0xfe = 2 ↔ f = 2 ∨ f = 3 := by
  revert f; apply Base58.forall_uint8; decide +kernel
theorem mask4 (f : UInt8) : f &&& 0xfe = 4 ↔ f = 4 ∨ f = 5 := by
  revert f; apply Base58.forall_uint8; decide +kernel
theorem mask6 (f : UInt8) : f &&& 0xfe = 6 ↔ f = 6 ∨ f = 7 := by
  revert f; apply Base58.forall_uint8; decide +kernel

theorem isOdd_iff (y : ℤ) : isOdd y = true ↔ y % 2 = 1 := by unfold isOdd; rw [beq_iff_eq]

/-- Two square roots of the same number: equal or opposite. -/
theorem roots {a b : ℤ} (ha : 0 ≤ a ∧ a < P) (hb : 0 ≤ b ∧ b < P) (h : (a : ZMod P) ^ 2 = (b : ZMod P) ^ 2) :
    a = b ∨ (a ≠ 0 ∧ a = P - b) := by
  rcases sq_eq_sq_iff_eq_or_eq_neg.mp h with e | e
  · exact Or.inl ((cast_inj (p := P) ha hb).mp e)
  · by_cases h0 : a = 0
    · left
      rw [h0] at e ⊢
      have : (b : ZMod P) = 0 := by
        have e : (0 : ZMod P) = -(b : ZMod P) := by simpa using e
        linear_combination e
      exact ((cast_zero_iff (p := P) hb).mp this).symm
    · right
      refine ⟨h0, ?_⟩
      have hb0 : b ≠ 0 := by
        rintro rfl
        apply h0
        rw [← cast_zero_iff (p := P) ha, e]
        simp
      refine (cast_inj (p := P) ha ⟨by omega, by omega⟩).mp ?_
      rw [e]
      push_cast
      simp

/-- The y coordinate chosen for a compressed key is the one with the requested parity. -/
theorem choose_root {x : ℕ} {y : ℤ} (hy : 0 ≤ y ∧ y < P) (h : (y : ZMod P) ^ 2 = (x : ZMod P) ^ 3 + 7) (odd : Bool)
    (ho : isOdd y = odd) :
    (let r : ℤ := ((Num.modSqrt (x ^ 3 + B) P).getD 0 : ℕ)
     if isOdd r ≠ odd then (P : ℤ) - r else r) = y := by
  have hy2 : (y : ZMod P) ^ 2 = ((x ^ 3 + B : ℕ) : ZMod P) := by
    rw [h]; push_cast [B]; rfl
  obtain ⟨h1, h2⟩ := modSqrt_spec (x ^ 3 + B)
  obtain ⟨r, hr⟩ := h2 _ hy2
  obtain ⟨hlt, hsq⟩ := h1 r hr
  rw [hr]
  dsimp only [Option.getD]
  have hrr : (0 : ℤ) ≤ (r : ℤ) ∧ (r : ℤ) < P := ⟨Int.natCast_nonneg _, by exact_mod_cast hlt⟩
  have e : (y : ZMod P) ^ 2 = ((r : ℤ) : ZMod P) ^ 2 := by
    rw [hy2, Int.cast_natCast, hsq]
  have hP := P_odd
  rcases roots hy hrr e with q | ⟨h0, q⟩
  · rw [← q, if_neg (by rw [ho]; simp)]
  · rw [if_pos, q]
    intro hc
    rw [← ho] at hc
    have := (Bool.eq_iff_iff.mp hc)
    rw [isOdd_iff, isOdd_iff] at this
    omega

/-- What an accepted compressed form says about the coordinates. -/
theorem root_on {x : ℕ} {odd : Bool} {y : ℤ}
    (hy : (let r : ℤ := ((Num.modSqrt (x ^ 3 + B) P).getD 0 : ℕ)
      if isOdd r ≠ odd then (P : ℤ) - r else r) = y) (hlt : y < P) : 0 ≤ y ∧ isOdd y = odd := by
  have hP := P_odd
  have hr : ∃ r : ℕ, (Num.modSqrt (x ^ 3 + B) P).getD 0 = r ∧ r < P := by
    cases h : Num.modSqrt (x ^ 3 + B) P with
    | none => exact ⟨0, rfl, P_pos⟩
    | some r => exact ⟨r, rfl, ((modSqrt_spec (x ^ 3 + B)).1 r h).1⟩
  obtain ⟨r, hr, hrlt⟩ := hr
  rw [hr] at hy
  dsimp only at hy
  split at hy
  · rename_i hne
    have h1 : (r : ℤ) < P := by exact_mod_cast hrlt
    refine ⟨by omega, ?_⟩
    subst hy
    have : isOdd (P - (r : ℤ)) = !isOdd (r : ℤ) := by
      rw [Bool.eq_iff_iff, Bool.not_eq_true', ← Bool.not_eq_true, isOdd_iff, isOdd_iff]
      omega
    rw [this]
    revert hne
    cases isOdd (r : ℤ) <;> cases odd <;> simp
  · rename_i hne
    rw [not_not] at hne
    subst hy
    exact ⟨Int.natCast_nonneg _, hne⟩

/-! ### parsing -/

theorem check_ok {q : Pt} (hq : q ≠ 0) :
    (if (coords q).1 ≥ P then Res.err errPubRange
      else if (coords q).2 ≥ P then .err errPubRange
      else if isOnCurve (coords q).1 (coords q).2 then .ok (⟨(coords q).1, (coords q).2⟩ : PubKey)
      else .err errPubCurve) = .ok ⟨(coords q).1, (coords q).2⟩ := by
  obtain ⟨⟨_, h1⟩, ⟨_, h2⟩, h3⟩ := coords_on hq
  rw [if_neg (by omega), if_neg (by omega), if_pos h3]

theorem parse_compressed {q : Pt} (hq : q ≠ 0) {bs : Bytes} (h : Compressed q bs) :
    pubFromBytes bs = .ok ⟨(coords q).1, (coords q).2⟩ := by
  obtain ⟨xb, ⟨hl, hx⟩, rfl⟩ := h
  obtain ⟨h1, h2, h3⟩ := coords_on hq
  have hx : ((natOfBE xb : ℕ) : ℤ) = (coords q).1 := hx
  have hc : pubCoords ((if (coords q).2 % 2 = 1 then 3 else 2) :: xb) = .ok ((coords q).1, (coords q).2) := by
    unfold pubCoords secUnmarshal
    dsimp only
    rw [if_neg (by rw [List.length_cons, hl]; decide), if_pos (by rw [List.length_cons, hl])]
    have hm : ((if (coords q).2 % 2 = 1 then (3 : UInt8) else 2) &&& 0xfe) = 2 := by split <;> decide
    rw [if_neg (by rw [hm]; simp)]
    have hb : ((if (coords q).2 % 2 = 1 then (3 : UInt8) else 2) &&& 1 == 1) = isOdd (coords q).2 := by
      rw [Bool.eq_iff_iff, isOdd_iff]
      split
      · rename_i h; simp only [h]; decide
      · rename_i h; simp only [h]; decide
    rw [hb]
    have hon := (isOnCurve_iff _ _).mp h3
    rw [← hx, Int.cast_natCast] at hon
    have := choose_root h2 hon (isOdd (coords q).2) rfl
    dsimp only at this
    rw [this, hx]
    rfl
  unfold pubFromBytes
  rw [hc]
  exact check_ok hq

theorem parse_long {q : Pt} (hq : q ≠ 0) {f : UInt8} {xb yb : Bytes} (hx : Is32 xb (coords q).1) (hy : Is32 yb (coords q).2)
    (hf : f &&& 0xfe = 4 ∨ (f &&& 0xfe = 6 ∧ (f &&& 1 == 1) = isOdd (coords q).2)) :
    pubFromBytes (f :: (xb ++ yb)) = .ok ⟨(coords q).1, (coords q).2⟩ := by
  have hc : pubCoords (f :: (xb ++ yb)) = .ok ((coords q).1, (coords q).2) := by
    unfold pubCoords
    dsimp only
    have e1 : (xb ++ yb).take 32 = xb := by rw [← hx.1, List.take_left]
    have e2 : (xb ++ yb).drop 32 = yb := by rw [← hx.1, List.drop_left]
    have hx2 : ((natOfBE xb : ℕ) : ℤ) = (coords q).1 := hx.2
    have hy2 : ((natOfBE yb : ℕ) : ℤ) = (coords q).2 := hy.2
    rw [if_pos (by rw [List.length_cons, List.length_append, hx.1, hy.1]), e1, e2, hx2, hy2]
    rcases hf with h | ⟨h, h'⟩
    · rw [h, if_neg (by decide), if_neg (by rintro ⟨a, _⟩; revert a; decide)]
    · rw [h, if_neg (by decide), if_neg (by rintro ⟨_, a⟩; exact a h')]
  unfold pubFromBytes
  rw [hc]
  exact check_ok hq

/-- What is accepted. -/
theorem parse_inv {bs : Bytes} {k : PubKey} (h : pubFromBytes bs = .ok k) :
    ∃ q : Pt, q ≠ 0 ∧ k = ⟨(coords q).1, (coords q).2⟩ ∧
      (Compressed q bs ∨ Uncompressed q bs ∨ Hybrid q bs ∨ ∃ r, bs = 5 :: r ∧ Uncompressed q (4 :: r)) := by
  unfold pubFromBytes at h
  obtain ⟨⟨x, y⟩, hc, h⟩ := Res.bind_eq_ok.mp h
  dsimp only at h
  split at h
  · cases h
  split at h
  · cases h
  split at h
  swap
  · cases h
  rename_i h1 h2 h3
  cases h
  suffices hs : 0 ≤ x ∧ 0 ≤ y ∧ ∀ q : Pt, coords q = (x, y) →
      (Compressed q bs ∨ Uncompressed q bs ∨ Hybrid q bs ∨ ∃ r, bs = 5 :: r ∧ Uncompressed q (4 :: r)) by
    obtain ⟨hx, hy, hs⟩ := hs
    obtain ⟨q, hq, e⟩ := exists_coords ⟨hx, by omega⟩ ⟨hy, by omega⟩ h3
    refine ⟨q, hq, by rw [e], hs q e⟩
  unfold pubCoords at hc
  cases bs with
  | nil => cases hc
  | cons f rest =>
    dsimp only at hc
    split at hc
    · rename_i hl
      rw [List.length_cons] at hl
      split at hc
      · cases hc
      rename_i hf
      split at hc
      · cases hc
      rename_i hp
      cases hc
      refine ⟨Int.natCast_nonneg _, Int.natCast_nonneg _, ?_⟩
      intro q e
      have e1 : Is32 (rest.take 32) (coords q).1 := ⟨by rw [List.length_take]; omega, by rw [e]; rfl⟩
      have e2 : Is32 (rest.drop 32) (coords q).2 := ⟨by rw [List.length_drop]; omega, by rw [e]; rfl⟩
      have e3 := (List.take_append_drop 32 rest).symm
      by_cases h4 : f &&& 0xfe = 4
      · rcases (mask4 f).mp h4 with rfl | rfl
        · exact Or.inr (Or.inl ⟨_, _, e1, e2, congrArg _ e3⟩)
        · exact Or.inr (Or.inr (Or.inr ⟨rest, rfl, _, _, e1, e2, congrArg _ e3⟩))
      · have h6 : f &&& 0xfe = 6 := by
          by_contra h6; exact hf ⟨h4, h6⟩
        refine Or.inr (Or.inr (Or.inl ⟨_, _, e1, e2, ?_⟩))
        rw [← e3]
        congr 1
        have hp : (f &&& 1 == 1) = isOdd ((natOfBE (rest.drop 32) : ℕ) : ℤ) := by
          by_contra hn; exact hp ⟨h6, hn⟩
        have hy : (coords q).2 = ((natOfBE (rest.drop 32) : ℕ) : ℤ) := by rw [e]
        rw [← hy] at hp
        rcases (mask6 f).mp h6 with rfl | rfl
        · rw [if_neg]
          rw [← isOdd_iff, ← hp]; decide
        · rw [if_pos]
          rw [← isOdd_iff, ← hp]; decide
    · split at hc
      · rename_i _ hl
        rw [List.length_cons] at hl
        unfold secUnmarshal at hc
        dsimp only at hc
        split at hc
        · cases hc
        rename_i hf
        rw [not_not] at hf
        have hc := Res.ok.inj hc
        obtain ⟨ex, ey⟩ := Prod.mk.inj hc
        obtain ⟨hy0, hyo⟩ := root_on (x := natOfBE rest) (odd := (f &&& 1 == 1)) ey (by omega)
        refine ⟨by rw [← ex]; exact Int.natCast_nonneg _, hy0, ?_⟩
        intro q e
        refine Or.inl ⟨rest, ⟨by omega, by rw [e]; exact ex⟩, ?_⟩
        refine congrArg (fun c : UInt8 => c :: rest) ?_
        rw [e]
        change f = if y % 2 = 1 then 3 else 2
        rcases (mask2 f).mp hf with rfl | rfl
        · rw [if_neg]
          rw [← isOdd_iff, hyo]; decide
        · rw [if_pos]
          rw [← isOdd_iff, hyo]; decide
      · cases hc

end Toku.Keys
