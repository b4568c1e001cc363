import Verif.Props.MpcLeak
import Verif.Proof.Order
/-
Property C90, continued: two answers of a Schnorr party for one message and one shared key.
-/
namespace Toku.Props
open Toku Toku.Spec Toku.Curve Toku.Mpc Toku.Schnorr

section

variable [Hashes]

omit [Hashes] in
theorem getK_neg {X : Pt} (hX : X ≠ 0) (k : ℕ) : getK (coords X).2 k + getK (coords (-X)).2 k = N := by
  have hy : (((coords X).2 : ℤ) : ZMod P) ≠ 0 := by
    obtain ⟨_, h2, _⟩ := coords_on hX
    intro h
    rw [ZMod.intCast_zmod_eq_zero_iff_dvd] at h
    exact y_ne hX (Int.eq_zero_of_dvd_of_nonneg_of_lt h2.1 h2.2 h)
  have hc : Residue (coords (-X)).2 ↔ Residue (-(coords X).2) := by
    rw [coords_neg' hX]
    exact residue_congr (by push_cast; simp)
  unfold getK
  by_cases h : Residue (coords X).2
  · rw [if_pos ((jacobi_iff _).mpr h), if_neg (fun hj => residue_not_both h (hc.mp ((jacobi_iff _).mp hj)))]
    ring
  · rw [if_neg (fun hj => h ((jacobi_iff _).mp hj)), if_pos ((jacobi_iff _).mpr (hc.mpr (residue_neg hy h)))]
    ring

/-- **C90, Schnorr, one shared key.** A counterpart that has seen the point `R1` of a party takes any point `X` and sends `X - R1` in one
exchange and `-X - R1` in another, for the same message and the same shared key. Phase 3 then gives `X` and `-X`, and the two answers of
phase 4 add up to `2 e d`: from them and the challenge, which it can compute, it has the private key, unless the challenge is 0. If the y
coordinate of `X` is a residue the first call of phase 4 leaves the party as it was, so that the second may be made in the same session. -/
theorem C90_schnorr_sign (d : ℕ) (hd : d < 2 ^ 256) (hash : Bytes) (party : SchnorrParty) (r : Scalar)
    (h : (newSchnorrParty (prvOf d)).phase2 hash = .ok (party, r)) (q : Pt) (hq : q ≠ 0) (X : Pt) (hX : X ≠ 0) :
    ∃ R1 e s s' p p', r = scalarOf R1 ∧ Challenge q hash r.x e ∧
      party.phase3 (scalarOf (X - R1)) = .ok (scalarOf X) ∧ party.phase3 (scalarOf (-X - R1)) = .ok (scalarOf (-X)) ∧
      party.phase4 (keyOf q) (scalarOf X) = .ok (p, s) ∧ party.phase4 (keyOf q) (scalarOf (-X)) = .ok (p', s') ∧
      (Residue (coords X).2 → p = party) ∧
      ((beNat s + beNat s' : ZMod N) = 2 * e * d) ∧ (e ≠ 0 → ((beNat s + beNat s') / (2 * e) : ZMod N) = d) := by
  obtain ⟨db, _, h2 | ⟨k, hk, _, h2⟩⟩ := schnorrPhase2 hd hash
  · rw [h2.1] at h; cases h
  rw [h2] at h
  injection h with h
  obtain ⟨rfl, rfl⟩ := Prod.mk.inj h
  obtain ⟨e, s, c, i, p⟩ := schnorrPhase4 (d := d) hk hash hq (scalarOf X)
  obtain ⟨e', s', c', i', p'⟩ := schnorrPhase4 (d := d) hk hash hq (scalarOf (-X))
  have phase3 : ∀ Y : Pt, (prepared d k hash).phase3 (scalarOf (Y - k • G)) = .ok (scalarOf Y) := by
    intro Y
    unfold SchnorrParty.phase3 prepared Scalar.add scalarOf
    dsimp only
    rw [add_coords, add_sub_cancel]
    generalize coords Y = c
    obtain ⟨x, y⟩ := c
    rfl
  have he : e' = e := challenge_unique c' c
  have hlt : e < N := by
    obtain ⟨_, _, _, _, rfl⟩ := c
    exact Nat.mod_lt _ (by decide +kernel)
  rw [he] at i'
  have b : ((beNat s : ℕ) : ZMod N) = (getK (coords X).2 k : ℤ) + e * d := by
    rw [← Int.cast_natCast, i.2, Ecdsa.mod_N]; push_cast; rfl
  have b' : ((beNat s' : ℕ) : ZMod N) = (getK (coords (-X)).2 k : ℤ) + e * d := by
    rw [← Int.cast_natCast, i'.2, Ecdsa.mod_N]; push_cast; rfl
  have sum : (beNat s + beNat s' : ZMod N) = 2 * e * d := by
    have hs := congrArg (fun z : ℤ => (z : ZMod N)) (getK_neg hX k)
    simp only [Int.cast_add, Int.cast_natCast, CharP.cast_eq_zero] at hs
    rw [b, b']
    linear_combination hs
  refine ⟨k • G, e, s, s', _, _, rfl, c, phase3 X, phase3 (-X), p, p', fun hr => ?_, sum, fun h0 => ?_⟩
  · unfold prepared
    rw [show (scalarOf X).y = (coords X).2 from rfl]
    unfold getK
    rw [if_pos ((jacobi_iff _).mpr hr)]
    rfl
  · rw [sum]
    have e1 : (e : ZMod N) ≠ 0 := by
      rw [Ne, ZMod.natCast_eq_zero_iff]
      exact fun hdvd => h0 (Nat.eq_zero_of_dvd_of_lt hdvd hlt)
    have e2 : (2 : ZMod N) ≠ 0 := by
      have : ((2 : ℕ) : ZMod N) ≠ 0 := by
        rw [Ne, ZMod.natCast_eq_zero_iff]
        decide +kernel
      exact_mod_cast this
    field_simp

end

/-- The hypotheses can be met: private key 12345, hash 0x07, shared key and shared point G, and a hash function with value 1 (so that nonce
and challenge are 1). The key comes out. -/
example : ∃ party r R1 s s' p p', @SchnorrParty.phase2 oneHash (newSchnorrParty (prvOf 12345)) [7] = .ok (party, r) ∧ r = scalarOf R1 ∧
    party.phase3 (scalarOf (G - R1)) = .ok (scalarOf G) ∧
    party.phase3 (scalarOf (-G - R1)) = .ok (scalarOf (-G)) ∧
    @SchnorrParty.phase4 oneHash party (keyOf G) (scalarOf G) = .ok (p, s) ∧
    @SchnorrParty.phase4 oneHash party (keyOf G) (scalarOf (-G)) = .ok (p', s') ∧
    ((beNat s + beNat s') / 2 : ZMod N) = 12345 := by
  let _ := oneHash
  have one : beNat (List.replicate 31 0 ++ [1]) % N = 1 := by decide +kernel
  obtain ⟨db, _, h | ⟨k, _, _, h⟩⟩ := schnorrPhase2 (d := 12345) (by norm_num) [7]
  · exact absurd (one.symm.trans h.2) one_ne_zero
  · obtain ⟨R1, e, s, s', p, p', h1, c, a1, a2, a3, a4, _, _, hk⟩ := C90_schnorr_sign 12345 (by norm_num) [7] _ _ h G G_ne G G_ne
    have he : e = 1 := by
      obtain ⟨_, _, _, _, rfl⟩ := c
      exact one
    subst he
    exact ⟨_, _, R1, s, s', p, p', h, h1, a1, a2, a3, a4, by simpa using hk one_ne_zero⟩

end Toku.Props
