import Verif.Props.SchnorrUnchecked
import Verif.Props.SchnorrZero
/-
Properties C71 and C133 whatever the challenge is, 0 included.
-/
namespace Toku.Props
open Toku Toku.Spec Toku.Curve Toku.Mpc Toku.Schnorr

section

variable [Hashes]

/-- The bytes reported are refused or accepted as the numbers are. -/
theorem verify_pair {q : Pt} (hq : q ≠ 0) (hash rb sb : Bytes) (hr : rb.length = 32) {r s : ℕ} (nr : natOfBE rb = r) (ns : natOfBE sb = s)
    (he : Challenge q hash r 0) :
    schnorrVerify (keyOf q) hash (rb ++ sb) = .ok () ∧ ZeroAccepted r s ∨
    schnorrVerify (keyOf q) hash (rb ++ sb) = .err Schnorr.errVerify ∧ ¬ ZeroAccepted r s := by
  unfold schnorrVerify deserialize
  rw [if_neg (by rw [List.length_append, hr]; omega), Res.ok_bind]
  dsimp only
  rw [List.take_left' hr, List.drop_left' hr, nr, ns]
  rcases C67_verify_zero q hq hash r s he with ⟨h, z⟩ | ⟨h, z⟩
  · rw [h]; exact Or.inl ⟨rfl, z⟩
  · rw [h]; exact Or.inr ⟨rfl, z⟩

/-- **C133** with challenge 0: the bytes are those of the x coordinate and the sum, and accepted under the condition of `C67_verify_zero`. -/
theorem C133_exact_zero (party : SchnorrParty) (X : Pt) (hX : X ≠ 0) (q : Pt) (hq : q ≠ 0) (hash : Bytes)
    (he : Challenge q hash (coords X).1 0) (sigs : List Bytes) :
    ∃ sig, party.phase5 (scalarOf X) sigs = .ok sig ∧
      (schnorrVerify (keyOf q) hash sig = .ok () ∧ ZeroAccepted (coords X).1.toNat ((sigs.map beNat).sum % N) ∨
       schnorrVerify (keyOf q) hash sig = .err Schnorr.errVerify ∧ ¬ ZeroAccepted (coords X).1.toNat ((sigs.map beNat).sum % N)) := by
  have hP : P < 256 ^ 32 := by decide +kernel
  have hN : N < 256 ^ 32 := by decide +kernel
  have hlt := (coords_on hX).1.2
  obtain ⟨rn, hrn⟩ := Int.eq_ofNat_of_zero_le (coords_on hX).1.1
  obtain ⟨rb, er, hrb, nr⟩ := intToByte_ok (n := rn) (by omega)
  have hsum : (sigs.map beNat).sum % N < N := Nat.mod_lt _ (by decide +kernel)
  obtain ⟨sb, es, hsb, ns⟩ := intToByte_ok (n := (sigs.map beNat).sum % N) (by omega)
  refine ⟨rb ++ sb, ?_, ?_⟩
  · unfold SchnorrParty.phase5
    dsimp only
    rw [foldl_sum, Nat.zero_add, show (scalarOf X).x = (coords X).1 from rfl, hrn, er, Res.ok_bind, es]
    rfl
  · rw [hrn] at he ⊢
    exact verify_pair hq hash rb sb hrb.1 nr ns he

omit [Hashes] in
/-- With challenge 0 the numbers accepted for one r belong to at most two points. -/
theorem zero_two {r s1 s2 s3 : ℕ} (h1 : ZeroAccepted r s1) (h2 : ZeroAccepted r s2) (h3 : ZeroAccepted r s3) :
    s1 • G = s2 • G ∨ s1 • G = s3 • G ∨ s2 • G = s3 • G := by
  have pair : ∀ {s s'}, ZeroAccepted r s → ZeroAccepted r s' → ((coords (s • G)).1 : ZMod P) = (coords (s' • G)).1 → s • G = s' • G := by
    intro s s' h h' e
    obtain ⟨_, _, n, _, k⟩ := h
    obtain ⟨_, _, n', _, k'⟩ := h'
    have ex := (cast_inj (p := P) (coords_on n).1 (coords_on n').1).mp e
    rcases same_x n n' ex with h | h
    · exact h
    · exfalso
      rw [h, coords_neg' n'] at k
      refine residue_not_both k' ((residue_congr ?_).mp k)
      push_cast
      simp
  have sq : ∀ {s s'}, ZeroAccepted r s → ZeroAccepted r s' →
      ((coords (s • G)).1 : ZMod P) = (coords (s' • G)).1 ∨ ((coords (s • G)).1 : ZMod P) = -(coords (s' • G)).1 := by
    intro s s' h h'
    have a := h.2.2.2.1
    have a' := h'.2.2.2.1
    have hr : (r : ZMod P) ≠ 0 := by
      intro h0
      rw [h0, zero_mul] at a
      exact absurd a.symm (by
        intro h7
        have : ((7 : ℤ) : ZMod P) = 0 := by exact_mod_cast h7
        rw [← mod_zero_iff] at this
        exact absurd this (by decide +kernel))
    rw [← sq_eq_sq_iff_eq_or_eq_neg]
    exact mul_left_cancel₀ hr (a.trans a'.symm)
  rcases sq h1 h2 with a | a
  · exact Or.inl (pair h1 h2 a)
  rcases sq h1 h3 with b | b
  · exact Or.inr (Or.inl (pair h1 h3 b))
  · refine Or.inr (Or.inr (pair h2 h3 ?_))
    exact neg_injective (a.symm.trans b)

/-- **C133**, negation for every challenge: whatever the party's own number, one of the three answers "no bytes", "the byte 1" and "the byte 2"
makes it report a signature that is refused. -/
theorem C133_negation_any (party : SchnorrParty) (X : Pt) (hX : X ≠ 0) (q : Pt) (hq : q ≠ 0) (hash own : Bytes) :
    ∃ answer sig, answer ∈ ([[], [1], [2]] : List Bytes) ∧ party.phase5 (scalarOf X) [own, answer] = .ok sig ∧
      schnorrVerify (keyOf q) hash sig = .err Schnorr.errVerify := by
  by_cases he : Challenge q hash (coords X).1 0
  swap
  · have hP : P < 256 ^ 32 := by decide +kernel
    have hlt := (coords_on hX).1.2
    obtain ⟨rn, hrn⟩ := Int.eq_ofNat_of_zero_le (coords_on hX).1.1
    obtain ⟨rb, _, hrb, _⟩ := intToByte_ok (n := rn) (by omega)
    obtain ⟨e, _, hch, _⟩ := getE_ok hq hash hrb
    rw [← hrn] at hch
    obtain ⟨answer, sig, ha, h, hv⟩ := C133_negation party X hX q hq hash e hch (by rintro rfl; exact he hch) own
    exact ⟨answer, sig, by rcases ha with rfl | rfl <;> simp, h, hv⟩
  obtain ⟨g1, p1, ⟨_, z1⟩ | ⟨v1, _⟩⟩ := C133_exact_zero party X hX q hq hash he [own, []]
  swap
  · exact ⟨[], g1, by simp, p1, v1⟩
  obtain ⟨g2, p2, ⟨_, z2⟩ | ⟨v2, _⟩⟩ := C133_exact_zero party X hX q hq hash he [own, [1]]
  swap
  · exact ⟨[1], g2, by simp, p2, v2⟩
  obtain ⟨g3, p3, ⟨_, z3⟩ | ⟨v3, _⟩⟩ := C133_exact_zero party X hX q hq hash he [own, [2]]
  swap
  · exact ⟨[2], g3, by simp, p3, v3⟩
  exfalso
  have hm : ∀ n : ℕ, (n % N) • G = n • G := by
    intro n
    rw [← natCast_zsmul, ← natCast_zsmul]
    refine zsmul_congr ?_
    push_cast
    simp
  have e1 : ([own, []].map beNat).sum = beNat own := by simp [beNat]
  have e2 : ([own, [1]].map beNat).sum = beNat own + 1 := by simp [beNat]
  have e3 : ([own, [2]].map beNat).sum = beNat own + 2 := by simp [beNat]
  have h2G : (2 : ℕ) • G ≠ 0 := Ecdsa.smul_ne (by norm_num) (by decide +kernel)
  have := zero_two z1 z2 z3
  rw [hm, hm, hm, e1, e2, e3, add_smul, add_smul, one_nsmul] at this
  rcases this with h | h | h
  · exact G_ne (left_eq_add.mp h)
  · exact h2G (left_eq_add.mp h)
  · have := add_left_cancel h
    rw [two_nsmul] at this
    exact G_ne (left_eq_add.mp this)

/-- **C71 (partial)** with challenge 0, the case left open by `C71_accepted_iff_partial`: the exchange ends in the same way, and the signature is
accepted exactly under the condition of `C67_verify_zero`. -/
theorem C71_zero_partial (d1 d2 k1 k2 : ℕ) (hk1 : 1 ≤ k1 ∧ k1 < N) (hk2 : 1 ≤ k2 ∧ k2 < N) (hash : Bytes)
    (hQ : (d1 + d2) • G ≠ 0) (hR : (k1 + k2) • G ≠ 0) (he : Challenge ((d1 + d2) • G) hash (coords ((k1 + k2) • G)).1 0) :
    ∃ (e1 e2 s : ℕ) (sig : Bytes), Challenge ((d1 + d2) • G) hash (coords (k1 • G)).1 e1 ∧
      Challenge ((d1 + d2) • G) hash (coords (k2 • G)).1 e2 ∧
      (s : ZMod N) = getK (coords ((k1 + k2) • G)).2 k1 + getK (coords ((k1 + k2) • G)).2 k2 + e1 * d1 + e2 * d2 ∧ s < N ∧
      schnorrExchange (newSchnorrParty (prvOf d1)) (newSchnorrParty (prvOf d2)) (.ok (prepared d1 k1 hash, scalarOf (k1 • G)))
        (.ok (prepared d2 k2 hash, scalarOf (k2 • G))) =
        .ok ⟨keyOf ((d1 + d2) • G), keyOf ((d1 + d2) • G), scalarOf ((k1 + k2) • G), scalarOf ((k1 + k2) • G), sig, sig⟩ ∧
      (schnorrVerify (keyOf ((d1 + d2) • G)) hash sig = .ok () ∧ ZeroAccepted (coords ((k1 + k2) • G)).1.toNat s ∨
       schnorrVerify (keyOf ((d1 + d2) • G)) hash sig = .err Schnorr.errVerify ∧ ¬ ZeroAccepted (coords ((k1 + k2) • G)).1.toNat s) := by
  obtain ⟨e1, e2, s, rb, sb, c1, c2, hs, hse, hrb, hsb, hrun⟩ := schnorrExchange_eq hk1 hk2 hash hQ hR
  refine ⟨e1, e2, s, rb ++ sb, c1, c2, hse, hs, hrun, ?_⟩
  obtain ⟨rn, hrn⟩ := Int.eq_ofNat_of_zero_le (coords_on hR).1.1
  have n1 : natOfBE rb = rn := by have : ((natOfBE rb : ℕ) : ℤ) = _ := hrb.2; rw [hrn] at this; exact_mod_cast this
  have n2 : natOfBE sb = s := by have : ((natOfBE sb : ℕ) : ℤ) = s := hsb.2; exact_mod_cast this
  rw [hrn] at he ⊢
  exact verify_pair hQ hash rb sb hrb.1 n1 n2 he

end

/-- A challenge of 0: the hash function that is 0 on inputs of 97 bytes, a message of 32 bytes. -/
example : @Challenge zeroChallenge G (List.replicate 32 0) (coords G).1 0 := by
  let _ := zeroChallenge
  have hz : ∀ x : Bytes, x.length = 97 → Hashes.sha256 x = List.replicate 31 0 ++ [0] := fun x hx =>
    congrArg (fun b : UInt8 => List.replicate 31 0 ++ [b]) (if_pos hx)
  have z0 : beNat (List.replicate 31 0 ++ [0]) % N = 0 := by decide +kernel
  obtain ⟨rn, hrn⟩ := Int.eq_ofNat_of_zero_le (coords_on G_ne).1.1
  have hlt := (coords_on G_ne).1.2
  have hP : P < 256 ^ 32 := by decide +kernel
  obtain ⟨rb, er, hrb, _⟩ := intToByte_ok (n := rn) (by omega)
  obtain ⟨e, _, hch, _⟩ := getE_ok G_ne (List.replicate 32 0) hrb
  have he : e = 0 := by
    obtain ⟨rb, qb, l1, ⟨xb, l2, rfl⟩, rfl⟩ := hch
    rw [hz _ (by simp [l1.1, l2.1])]
    exact z0
  rw [hrn, ← he]
  exact hch

end Toku.Props
