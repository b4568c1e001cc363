import Verif.Proof.Keys
/-
Properties C59 to C61: key serialisation, parsing and addition.
-/
namespace Toku.Props
open Toku Toku.Spec Toku.Curve Toku.Keys

/-- The key holding a point. -/
def keyOf (q : Pt) : PubKey := ⟨(coords q).1, (coords q).2⟩

/-- **C59.** The three serialisations are the standard ones. -/
theorem C59_serialize (q : Pt) (hq : q ≠ 0) :
    (∃ bs, serializeCompressed (keyOf q) = .ok bs ∧ Compressed q bs) ∧
    (∃ bs, serializeUncompressed (keyOf q) = .ok bs ∧ Uncompressed q bs) ∧
    (∃ bs, serializeHybrid (keyOf q) = .ok bs ∧ Hybrid q bs) := by
  obtain ⟨h1, h2, _⟩ := coords_on hq
  obtain ⟨xb, ex, hx⟩ := pad32_ok h1
  obtain ⟨yb, ey, hy⟩ := pad32_ok h2
  obtain ⟨mb, em, hm⟩ := secMarshal_ok h1 (coords q).2
  refine ⟨⟨_, em, mb, hm, rfl⟩, ⟨4 :: (xb ++ yb), ?_, xb, yb, hx, hy, rfl⟩,
    ⟨(if (coords q).2 % 2 = 1 then 7 else 6) :: (xb ++ yb), ?_, xb, yb, hx, hy, rfl⟩⟩
  · unfold serializeUncompressed
    simp only [keyOf, ex, ey, Res.ok_bind, Res.pure_eq]
  · unfold serializeHybrid isOdd
    simp only [keyOf, ex, ey, Res.ok_bind, Res.pure_eq, beq_iff_eq]

/-- **C59.** Parsing any of the three standard serialisations of a point returns the point. -/
theorem C59_parse (q : Pt) (hq : q ≠ 0) (bs : Bytes) (h : Compressed q bs ∨ Uncompressed q bs ∨ Hybrid q bs) :
    pubFromBytes bs = .ok (keyOf q) := by
  rcases h with h | ⟨xb, yb, hx, hy, rfl⟩ | ⟨xb, yb, hx, hy, rfl⟩
  · exact parse_compressed hq h
  · exact parse_long hq hx hy (Or.inl (by decide))
  · refine parse_long hq hx hy (Or.inr ⟨by split <;> decide, ?_⟩)
    rw [Bool.eq_iff_iff, isOdd_iff]
    split
    · rename_i h; simp only [h]; decide
    · rename_i h; simp only [h]; decide

/-- **C59**, as a round trip: parse what was serialised. -/
theorem C59_round_trip (q : Pt) (hq : q ≠ 0) :
    (serializeCompressed (keyOf q) >>= pubFromBytes) = .ok (keyOf q) ∧
    (serializeUncompressed (keyOf q) >>= pubFromBytes) = .ok (keyOf q) ∧
    (serializeHybrid (keyOf q) >>= pubFromBytes) = .ok (keyOf q) := by
  obtain ⟨⟨a, ea, ha⟩, ⟨b, eb, hb⟩, ⟨c, ec, hc⟩⟩ := C59_serialize q hq
  rw [ea, eb, ec]
  exact ⟨C59_parse q hq a (Or.inl ha), C59_parse q hq b (Or.inr (Or.inl hb)), C59_parse q hq c (Or.inr (Or.inr hc))⟩

/-- **C60 (partial).** Full statement: without the last alternative. Proved: an accepted byte string gives coordinates
in range satisfying the curve equation, and is a standard serialisation of that point, or the uncompressed one with
prefix 5 in place of 4. -/
theorem C60_accepted_partial (bs : Bytes) (k : PubKey) (h : pubFromBytes bs = .ok k) :
    (0 ≤ k.x ∧ k.x < P) ∧ (0 ≤ k.y ∧ k.y < P) ∧ (k.y ^ 2 - k.x ^ 3 - 7) % P = 0 ∧
    ∃ q : Pt, q ≠ 0 ∧ k = keyOf q ∧
      (Compressed q bs ∨ Uncompressed q bs ∨ Hybrid q bs ∨ ∃ r, bs = 5 :: r ∧ Uncompressed q (4 :: r)) := by
  obtain ⟨q, hq, rfl, hs⟩ := parse_inv h
  obtain ⟨h1, h2, h3⟩ := coords_on hq
  refine ⟨h1, h2, ?_, q, hq, rfl, hs⟩
  rw [mod_zero_iff]
  have := (isOnCurve_iff _ _).mp h3
  push_cast
  linear_combination this

/-- Parsing never panics. -/
theorem C60_no_panic (bs : Bytes) : pubFromBytes bs ≠ .panic := by
  unfold pubFromBytes
  intro h
  have hc : pubCoords bs ≠ .panic := by
    unfold pubCoords
    cases bs with
    | nil => intro h; cases h
    | cons f rest =>
      dsimp only
      split
      · split
        · intro h; cases h
        split <;> (intro h; cases h)
      split
      · unfold secUnmarshal
        dsimp only
        split <;> (intro h; cases h)
      · intro h; cases h
  cases e : pubCoords bs with
  | panic => exact hc e
  | err => rw [e] at h; cases h
  | ok xy =>
    rw [e] at h
    change (if xy.1 ≥ P then Res.err errPubRange else if xy.2 ≥ P then .err errPubRange
      else if isOnCurve xy.1 xy.2 then .ok (⟨xy.1, xy.2⟩ : PubKey) else .err errPubCurve) = .panic at h
    split at h
    · cases h
    split at h
    · cases h
    split at h <;> cases h

/-- The prefix 5 followed by the coordinates of the generator. -/
def prefix5 : Bytes := 5 :: (natToBE Gx.natAbs ++ natToBE Gy.natAbs)

/-- **C60**, negation: a string that is no standard serialisation of any point is accepted. -/
theorem C60_negation : pubFromBytes prefix5 = .ok (keyOf G) ∧
    ¬ ∃ q, Compressed q prefix5 ∨ Uncompressed q prefix5 ∨ Hybrid q prefix5 := by
  constructor
  · have e : keyOf G = ⟨Gx, Gy⟩ := by unfold keyOf; rw [coords_G]
    rw [e]
    decide +kernel
  · rintro ⟨q, ⟨_, _, h⟩ | ⟨_, _, _, _, h⟩ | ⟨_, _, _, _, h⟩⟩
    all_goals
      have h := congrArg List.head? h
      revert h
      unfold prefix5
      simp only [List.head?_cons, Option.some.injEq]
      first
        | decide
        | (split <;> decide)

/-! ### C61 -/

/-- The private key holding a number: made from any bytes that spell it. -/
theorem C61_prvFromBytes (bs : Bytes) : prvFromBytes bs = .ok ⟨keyOf (natOfBE bs • G), natOfBE bs⟩ := by
  unfold prvFromBytes
  rw [baseMult_coords]
  rfl

/-- Adding public keys adds the points. -/
theorem C61_pubAdd (q1 q2 : Pt) : pubAdd (keyOf q1) (keyOf q2) = .ok (keyOf (q1 + q2)) := by
  unfold pubAdd keyOf
  dsimp only
  rw [add_coords]
  rfl

/-- **C61.** The sum of two private keys is taken modulo N, and its public key is the sum of the public keys. -/
theorem C61_add (a b : Bytes) (ka kb : PrvKey) (ha : prvFromBytes a = .ok ka) (hb : prvFromBytes b = .ok kb) :
    ∃ kc, prvAdd ka b = .ok kc ∧ kc.d = (ka.d + kb.d) % N ∧ pubAdd ka.pub kb.pub = .ok kc.pub := by
  rw [C61_prvFromBytes] at ha hb
  cases ha
  cases hb
  refine ⟨⟨keyOf (((natOfBE a + natOfBE b) % N) • G), (natOfBE a + natOfBE b) % N⟩, ?_, rfl, ?_⟩
  · unfold prvAdd
    rw [C61_prvFromBytes, natOfBE_natToBE]
  · dsimp only
    rw [C61_pubAdd, ← add_smul]
    have : ((natOfBE a + natOfBE b) % N) • G = (natOfBE a + natOfBE b) • G := by
      conv_rhs => rw [← Nat.div_add_mod (natOfBE a + natOfBE b) N, add_smul, mul_comm, mul_smul, N_smul_G]
      simp
    rw [this]

/-- **C61.** A private key below 2^256 is serialised to 32 bytes and read back. -/
theorem C61_serialize (bs : Bytes) (k : PrvKey) (h : prvFromBytes bs = .ok k) (hk : k.d < 2 ^ 256) :
    (prvSerialize k).length = 32 ∧ natOfBE (prvSerialize k) = k.d ∧ prvFromBytes (prvSerialize k) = .ok k := by
  have hl : (natToBE k.d).length ≤ 32 := natToBE_length_le (lt_of_lt_of_le hk (by decide +kernel))
  have hn : natOfBE (prvSerialize k) = k.d := by
    unfold prvSerialize
    dsimp only
    rw [natOfBE_replicate, natOfBE_natToBE]
  refine ⟨?_, hn, ?_⟩
  · unfold prvSerialize
    rw [List.length_append, List.length_replicate]
    omega
  · rw [C61_prvFromBytes, hn]
    rw [C61_prvFromBytes] at h
    cases h
    rfl

/-- The generator as a public key: 33 bytes beginning with 2, read back; keys 2 and N-1 add up to 1. -/
example : (serializeCompressed ⟨Gx, Gy⟩ >>= pubFromBytes) = .ok ⟨Gx, Gy⟩ ∧
    (prvFromBytes [2] >>= fun k => prvAdd k (natToBE (N - 1))) = .ok ⟨⟨Gx, Gy⟩, 1⟩ := by decide +kernel

end Toku.Props
