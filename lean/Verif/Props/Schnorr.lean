import Verif.Proof.Schnorr
import Verif.Props.Keys
/-
Properties C66 and C67: Schnorr signatures.
-/
namespace Toku.Props
open Toku Toku.Spec Toku.Curve Toku.Keys Toku.Schnorr

section
variable [Hashes]

/-- **C66.** Signing returns a signature by the specification, or fails because the nonce `hash(d || m) mod N` is 0. -/
theorem C66_sign (d : ℕ) (hd : 1 ≤ d ∧ d < N) (m : Bytes) :
    (sign d m = .err errK0 ∧ ∃ db, Is32 db d ∧ beNat (Hashes.sha256 (db ++ m)) % N = 0) ∨
    ∃ r s, sign d m = .ok (r, s) ∧ SchnorrSignature (d • G) m r s := by
  have hN : N < 256 ^ 32 := N_lt
  have hP : P < 256 ^ 32 := P_lt
  obtain ⟨db, ed, h32, hdb⟩ := intToByte_ok (n := d) (by omega)
  have hq : d • G ≠ 0 := Ecdsa.smul_ne hd.1 hd.2
  unfold sign
  rw [ed, Res.ok_bind]
  unfold getK0
  dsimp only
  split
  · rename_i hz
    exact Or.inl ⟨rfl, db, h32, hz⟩
  · rename_i hz
    right
    have hk2 : natOfBE (Hashes.sha256 (db ++ m)) % N < N := Nat.mod_lt _ (by decide +kernel)
    generalize natOfBE (Hashes.sha256 (db ++ m)) % N = k0 at hz hk2
    have hk1 : 1 ≤ k0 := by omega
    have hR : k0 • G ≠ 0 := Ecdsa.smul_ne hk1 hk2
    have hrx := (coords_on hR).1
    rw [Res.ok_bind, baseMult_coords, natOfBE_natToBE]
    obtain ⟨rn, hrn⟩ := Int.eq_ofNat_of_zero_le hrx.1
    obtain ⟨rb, er, hrb, _⟩ := intToByte_ok (n := rn) (by omega)
    obtain ⟨e, ee, hch, _⟩ := getE_ok hq m hrb
    have heq := sign_equation (d := d) (e := e) hk1 hk2
    refine ⟨(coords (k0 • G)).1, (getK (coords (k0 • G)).2 k0 + e * d) % N, ?_, hrx, mod_range (p := N) _, e, by rw [hrn]; exact hch, heq⟩
    rw [hrn]
    generalize hc : coords (k0 • G) = c at hrn
    obtain ⟨cx, cy⟩ := c
    dsimp only at hrn
    simp only [Res.ok_bind]
    rw [hrn, er, Res.ok_bind, baseMult_coords, hdb]
    revert ee
    generalize coords (d • G) = dc
    obtain ⟨dx, dy⟩ := dc
    intro ee
    simp only [Res.ok_bind]
    rw [ee, Res.ok_bind]
    rfl

/-- **C66 (partial).** Full statement: without the last hypothesis. Proved: the signature is accepted if the challenge is
not 0 modulo N. With SHA-256 no input with challenge 0 is known; see `C66_negation` for what happens then. -/
theorem C66_sign_verifies_partial (d : ℕ) (hd : 1 ≤ d ∧ d < N) (m : Bytes) (r s : ℤ) (h : sign d m = .ok (r, s))
    (he : ¬ Challenge (d • G) m r 0) : verify (keyOf (d • G)) m r s = .ok true := by
  rcases C66_sign d hd m with ⟨h', _⟩ | ⟨r', s', h', hr, hs, e, hc, heq⟩
  · rw [h] at h'; cases h'
  rw [h] at h'
  cases h'
  obtain ⟨rn, rfl⟩ := Int.eq_ofNat_of_zero_le hr.1
  obtain ⟨sn, rfl⟩ := Int.eq_ofNat_of_zero_le hs.1
  have he0 : e ≠ 0 := by rintro rfl; exact he hc
  unfold keyOf
  rw [verify_ok (Ecdsa.smul_ne hd.1 hd.2) m (by omega) (by omega) hc he0]
  congr 1
  exact (decision_iff _ _ _ _).mpr heq

/-- **C67.** Verification returns, and accepts exactly the numbers satisfying the equation with r below P and s up to N,
when the challenge is not 0. -/
theorem C67_verify (q : Pt) (hq : q ≠ 0) (m : Bytes) (r s : ℕ) (he : ¬ Challenge q m r 0) :
    verify (keyOf q) m r s = .ok true ∧ (r < P ∧ s ≤ N ∧ ∃ e, Challenge q m r e ∧ SchnorrEquation q e r s) ∨
    verify (keyOf q) m r s = .ok false ∧ ¬ (r < P ∧ s ≤ N ∧ ∃ e, Challenge q m r e ∧ SchnorrEquation q e r s) := by
  by_cases hrs : r ≤ P ∧ s ≤ N
  swap
  · right
    refine ⟨?_, fun h => hrs ⟨by omega, h.2.1⟩⟩
    unfold verify
    rw [if_pos (by omega)]
  have hP : P < 256 ^ 32 := P_lt
  obtain ⟨rb, er, hrb, _⟩ := intToByte_ok (n := r) (by omega)
  obtain ⟨e, _, hch, _⟩ := getE_ok hq m hrb
  have he0 : e ≠ 0 := by rintro rfl; exact he hch
  have hv := verify_ok hq m hrs.1 hrs.2 hch he0
  unfold keyOf
  rw [hv]
  cases hd : decision q e r s with
  | true =>
    have hd := (decision_iff _ _ _ _).mp hd
    refine Or.inl ⟨rfl, ?_, hrs.2, e, hch, hd⟩
    obtain ⟨g, _, hne, _, hx⟩ := hd
    have := (coords_on hne).1.2
    omega
  | false =>
    right
    refine ⟨rfl, ?_⟩
    rintro ⟨_, _, e', hch', heq⟩
    rw [← challenge_unique hch hch', ← decision_iff, hd] at heq
    cases heq

/-- **C67 (partial).** Full statement: with `s < N`. Proved: accepted numbers satisfy the equation, r is below P and s is
at most N (again when the challenge is not 0). -/
theorem C67_accepted_partial (q : Pt) (hq : q ≠ 0) (m : Bytes) (r s : ℕ) (he : ¬ Challenge q m r 0)
    (h : verify (keyOf q) m r s = .ok true) :
    r < P ∧ s ≤ N ∧ ∃ e, Challenge q m r e ∧ SchnorrEquation q e r s := by
  rcases C67_verify q hq m r s he with h' | h'
  · exact h'.2
  · rw [h] at h'; cases h'.1

/-- **C67.** The only pair of accepted numbers for the same r and congruent s is 0 and N. -/
theorem C67_malleable (q : Pt) (hq : q ≠ 0) (m : Bytes) (r s1 s2 : ℕ) (he : ¬ Challenge q m r 0)
    (h1 : verify (keyOf q) m r s1 = .ok true) (h2 : verify (keyOf q) m r s2 = .ok true) (h : s1 % N = s2 % N) (hne : s1 < s2) :
    s1 = 0 ∧ s2 = N := by
  have b1 := (C67_accepted_partial q hq m r s1 he h1).2.1
  have b2 := (C67_accepted_partial q hq m r s2 he h2).2.1
  have e1 : s1 % N = s1 := Nat.mod_eq_of_lt (by omega)
  rcases Nat.lt_or_ge s2 N with h3 | h3
  · rw [e1, Nat.mod_eq_of_lt h3] at h; omega
  · have : s2 = N := by omega
    rw [this, Nat.mod_self, e1] at h
    omega

/-! ### as bytes -/

/-- **C66.** A signature as bytes: 64 bytes that spell the numbers, read back. -/
theorem C66_bytes (r s : ℤ) (hr : 0 ≤ r ∧ r < P) (hs : 0 ≤ s ∧ s < N) :
    ∃ rb sb, Schnorr.serialize r s = .ok (rb ++ sb) ∧ Is32 rb r ∧ Is32 sb s ∧ Schnorr.deserialize (rb ++ sb) = .ok (r, s) := by
  have hN : N < 256 ^ 32 := N_lt
  have hP : P < 256 ^ 32 := P_lt
  obtain ⟨rn, rfl⟩ := Int.eq_ofNat_of_zero_le hr.1
  obtain ⟨sn, rfl⟩ := Int.eq_ofNat_of_zero_le hs.1
  obtain ⟨rb, er, hrb, nr⟩ := intToByte_ok (n := rn) (by omega)
  obtain ⟨sb, es, hsb, ns⟩ := intToByte_ok (n := sn) (by omega)
  refine ⟨rb, sb, ?_, hrb, hsb, ?_⟩
  · unfold Schnorr.serialize
    rw [er, Res.ok_bind, es, Res.ok_bind]
    rfl
  · unfold Schnorr.deserialize
    rw [if_neg (by rw [List.length_append, hrb.1]; omega), List.take_left' hrb.1, List.drop_left' hrb.1, nr, ns]

/-- **C66 (partial)**, as bytes; the challenge is that of the signature's first half. -/
theorem C66_schnorr_partial (key m sig : Bytes) (prv : PrvKey) (hp : prvFromBytes key = .ok prv) (hd : 1 ≤ prv.d ∧ prv.d < N)
    (h : schnorrSign prv m = .ok sig) (he : ¬ Challenge (prv.d • G) m (beNat (sig.take 32)) 0) :
    sig.length = 64 ∧ schnorrVerify prv.pub m sig = .ok () := by
  rw [C61_prvFromBytes] at hp
  cases hp
  dsimp only at *
  unfold schnorrSign at h
  obtain ⟨⟨r, s⟩, h1, h⟩ := Res.bind_eq_ok.mp h
  rcases C66_sign _ hd m with ⟨h', _⟩ | ⟨r', s', h', hr, hs, _⟩
  · dsimp only at h1
    rw [h1] at h'; cases h'
  · dsimp only at h1 h
    rw [h1] at h'
    cases h'
    obtain ⟨rb, sb, e1, hrb, hsb, e2⟩ := C66_bytes r s hr hs
    rw [h] at e1
    cases e1
    rw [List.take_left' hrb.1, hrb.2] at he
    refine ⟨by rw [List.length_append, hrb.1, hsb.1], ?_⟩
    unfold schnorrVerify
    rw [e2, Res.ok_bind]
    dsimp only
    rw [C66_sign_verifies_partial _ hd m r s h1 he]
    rfl

/-- **C67**, negation for bytes: a zero byte between the halves of any signature makes no difference, so accepted
signatures have other accepted forms. -/
theorem C67_negation_bytes (pub : PubKey) (m rb sb : Bytes) (hr : rb.length = 32) :
    schnorrVerify pub m (rb ++ 0 :: sb) = schnorrVerify pub m (rb ++ sb) := by
  have e : natOfBE (0 :: sb) = natOfBE sb := by
    have := natOfBE_replicate 1 sb
    exact this
  unfold schnorrVerify Schnorr.deserialize
  rw [if_neg (by rw [List.length_append, hr]; omega), if_neg (by rw [List.length_append, hr]; omega), List.take_left' hr,
    List.drop_left' hr, List.take_left' hr, List.drop_left' hr, e]

/-- Signatures of fewer than 32 bytes make verification panic. -/
theorem C67_panic (pub : PubKey) (m sig : Bytes) (h : sig.length < 32) : schnorrVerify pub m sig = .panic := by
  unfold schnorrVerify Schnorr.deserialize
  rw [if_pos h]
  rfl

end

/-- A hash function that is 0 on inputs of 97 bytes (challenges for 32-byte messages) and 1 on others. -/
@[instance_reducible] def zeroChallenge : Hashes where
  sha256 x := List.replicate 31 0 ++ [if x.length = 97 then 0 else 1]
  sha256_length x := by simp
  sha512 _ := List.replicate 64 0
  sha512_length x := by simp

/-- **C66**, negation: there is a hash function for which a signature is made that is refused. The opposite of the
point at infinity is taken to be (0, P), which is not recognised as infinity. -/
theorem C66_negation : ∃ (H : Hashes) (d : ℕ) (m : Bytes) (r s : ℤ), (1 ≤ d ∧ d < N) ∧ m.length = 32 ∧
    @sign H d m = .ok (r, s) ∧ @verify H ⟨Gx, Gy⟩ m r s = .ok false ∧ keyOf (d • G) = ⟨Gx, Gy⟩ := by
  refine ⟨zeroChallenge, 1, List.replicate 32 0, Gx, 1, ?_, rfl, ?_, ?_, ?_⟩
  · decide +kernel
  · decide +kernel
  · decide +kernel
  · unfold keyOf
    rw [one_smul, coords_G]

/-- The hash function that is always 1. -/
@[instance_reducible] def oneHash : Hashes where
  sha256 _ := List.replicate 31 0 ++ [1]
  sha256_length x := by simp
  sha512 _ := List.replicate 64 0
  sha512_length x := by simp

/-- **C67**, negation: there is a hash function and a key for which s = N is accepted, as well as s = 0. -/
theorem C67_negation : ∃ (H : Hashes) (pub : PubKey) (m : Bytes) (r : ℤ),
    @verify H pub m r N = .ok true ∧ @verify H pub m r 0 = .ok true := by
  refine ⟨oneHash, ⟨Gx, P - Gy⟩, [], Gx, ?_, ?_⟩ <;> decide +kernel

/-- Signing and verifying with the key 3 (toy hash function). -/
example : (prvFromBytes [3] >>= fun k => @schnorrSign toyHashes k [1, 2] >>= fun sig => @schnorrVerify toyHashes k.pub [1, 2] sig) = .ok () ∧
    (prvFromBytes [3] >>= fun k => @schnorrSign toyHashes k [1, 2] >>= fun sig => @schnorrVerify toyHashes k.pub [1, 3] sig) = .err Schnorr.errVerify := by
  decide +kernel

end Toku.Props
