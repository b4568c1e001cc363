import Verif.Props.Mpc
import Verif.Props.Schnorr
import Verif.Model.Sha
/-
Properties C71 and C89: the two-party Schnorr exchange.
-/
namespace Toku.Props
open Toku Toku.Spec Toku.Curve Toku.Mpc Toku.Schnorr

section
variable [Hashes]

/-- Two parties run phases 1 to 5, exchanging public keys, points and signatures, as in xcrypto/mpc_schnorr_test.go. -/
def schnorrExchange (party1 party2 : SchnorrParty) (phase2a phase2b : Res (SchnorrParty × Scalar)) : Res Outcome := do
  let pub1 ← party1.phase1 party2.prv.pub
  let pub2 ← party2.phase1 party1.prv.pub
  let (party1, r1) ← phase2a
  let (party2, r2) ← phase2b
  let R1 ← party1.phase3 r2
  let R2 ← party2.phase3 r1
  let (party1, s1) ← party1.phase4 pub1 R1
  let (party2, s2) ← party2.phase4 pub2 R2
  let sig1 ← party1.phase5 R1 [s1, s2]
  let sig2 ← party2.phase5 R2 [s1, s2]
  return ⟨pub1, pub2, R1, R2, sig1, sig2⟩

/-- The exchange with the nonces of the code. -/
def schnorrRun (prv1 prv2 : Keys.PrvKey) (hash : Bytes) : Res Outcome :=
  schnorrExchange (newSchnorrParty prv1) (newSchnorrParty prv2) ((newSchnorrParty prv1).phase2 hash)
    ((newSchnorrParty prv2).phase2 hash)

/-- A party after phase 2 with nonce k. -/
noncomputable def prepared (d k : ℕ) (hash : Bytes) : SchnorrParty := ⟨prvOf d, hash, some k, some (scalarOf (k • G))⟩

/-- Phase 2: the nonce is the hash of the key and the message, modulo N. -/
theorem schnorrPhase2 {d : ℕ} (hd : d < 2 ^ 256) (hash : Bytes) :
    ∃ db, Is32 db d ∧
      ((newSchnorrParty (prvOf d)).phase2 hash = .err errK0 ∧ beNat (Hashes.sha256 (db ++ hash)) % N = 0 ∨
       ∃ k, (1 ≤ k ∧ k < N) ∧ k = beNat (Hashes.sha256 (db ++ hash)) % N ∧
        (newSchnorrParty (prvOf d)).phase2 hash = .ok (prepared d k hash, scalarOf (k • G))) := by
  obtain ⟨db, ed, h32, hdb⟩ := intToByte_ok (n := d) (lt_of_lt_of_le hd (by norm_num))
  refine ⟨db, h32, ?_⟩
  unfold SchnorrParty.phase2 newSchnorrParty
  dsimp only
  rw [show ((prvOf d).d : ℤ) = (d : ℤ) from rfl, ed, Res.ok_bind]
  unfold getK0
  dsimp only
  have hk2 : natOfBE (Hashes.sha256 (db ++ hash)) % N < N := Nat.mod_lt _ (by decide +kernel)
  by_cases hz : natOfBE (Hashes.sha256 (db ++ hash)) % N = 0
  · rw [if_pos hz]
    exact Or.inl ⟨rfl, hz⟩
  · rw [if_neg hz, Res.ok_bind, baseMult_coords, natOfBE_natToBE]
    refine Or.inr ⟨_, ⟨by omega, hk2⟩, rfl, ?_⟩
    unfold prepared scalarOf
    generalize coords ((natOfBE (Hashes.sha256 (db ++ hash)) % N) • G) = c
    obtain ⟨x, y⟩ := c
    rfl

omit [Hashes] in
theorem schnorrPhase1 (d1 d2 : ℕ) : (newSchnorrParty (prvOf d1)).phase1 (newSchnorrParty (prvOf d2)).prv.pub = .ok (keyOf ((d1 + d2) • G)) := by
  unfold SchnorrParty.phase1 newSchnorrParty prvOf
  dsimp only
  rw [C61_pubAdd, add_smul]

omit [Hashes] in
theorem schnorrPhase3 (d k1 k2 : ℕ) (hash : Bytes) : (prepared d k1 hash).phase3 (scalarOf (k2 • G)) = .ok (scalarOf ((k1 + k2) • G)) := by
  unfold SchnorrParty.phase3 prepared Scalar.add scalarOf
  dsimp only
  rw [add_coords, add_smul]
  generalize coords (k1 • G + k2 • G) = c
  obtain ⟨x, y⟩ := c
  rfl

omit [Hashes] in
/-- The nonce with the sign chosen for a point. -/
theorem getK_range (y : ℤ) {k : ℕ} (hk : 1 ≤ k ∧ k < N) : 1 ≤ getK y k ∧ getK y k < N := by
  unfold getK; split <;> omega

/-- Phase 4. -/
theorem schnorrPhase4 {d k : ℕ} (hk : 1 ≤ k ∧ k < N) (hash : Bytes) {q : Pt} (hq : q ≠ 0) (R : Scalar) :
    ∃ e sb, Challenge q hash (coords (k • G)).1 e ∧ Is32 sb ((getK R.y k + e * d) % N) ∧
      (prepared d k hash).phase4 (keyOf q) R =
        .ok (⟨prvOf d, hash, some (getK R.y k).toNat, some (scalarOf (k • G))⟩, sb) := by
  have hR : k • G ≠ 0 := Ecdsa.smul_ne hk.1 hk.2
  obtain ⟨rn, hrn⟩ := Int.eq_ofNat_of_zero_le (coords_on hR).1.1
  have hP : P < 256 ^ 32 := by decide +kernel
  have hN : N < 256 ^ 32 := by decide +kernel
  have hlt := (coords_on hR).1.2
  obtain ⟨rb, er, hrb, _⟩ := intToByte_ok (n := rn) (by omega)
  obtain ⟨e, ee, hch, _⟩ := getE_ok hq hash hrb
  have hs := mod_range (p := N) (getK R.y k + e * d)
  obtain ⟨sn, hsn⟩ := Int.eq_ofNat_of_zero_le hs.1
  obtain ⟨sb, es, hsb, _⟩ := intToByte_ok (n := sn) (by omega)
  refine ⟨e, sb, by rw [hrn]; exact hch, by rw [hsn]; exact hsb, ?_⟩
  unfold SchnorrParty.phase4 prepared
  dsimp only
  rw [show (scalarOf (k • G)).x = (coords (k • G)).1 from rfl, hrn, er, Res.ok_bind]
  rw [show (keyOf q).x = (coords q).1 from rfl, show (keyOf q).y = (coords q).2 from rfl, ee, Res.ok_bind]
  rw [show ((prvOf d).d : ℤ) = (d : ℤ) from rfl, hsn, es]
  rfl

/-- The whole exchange. The challenge of each party is made with its own point. -/
theorem schnorrExchange_eq {d1 d2 k1 k2 : ℕ} (hk1 : 1 ≤ k1 ∧ k1 < N) (hk2 : 1 ≤ k2 ∧ k2 < N) (hash : Bytes)
    (hQ : (d1 + d2) • G ≠ 0) (hR : (k1 + k2) • G ≠ 0) :
    ∃ (e1 e2 s : ℕ) (rb sb : Bytes), Challenge ((d1 + d2) • G) hash (coords (k1 • G)).1 e1 ∧
      Challenge ((d1 + d2) • G) hash (coords (k2 • G)).1 e2 ∧ s < N ∧
      (s : ZMod N) = getK (coords ((k1 + k2) • G)).2 k1 + getK (coords ((k1 + k2) • G)).2 k2 + e1 * d1 + e2 * d2 ∧
      Is32 rb (coords ((k1 + k2) • G)).1 ∧ Is32 sb s ∧
      schnorrExchange (newSchnorrParty (prvOf d1)) (newSchnorrParty (prvOf d2)) (.ok (prepared d1 k1 hash, scalarOf (k1 • G)))
        (.ok (prepared d2 k2 hash, scalarOf (k2 • G))) =
        .ok ⟨keyOf ((d1 + d2) • G), keyOf ((d1 + d2) • G), scalarOf ((k1 + k2) • G), scalarOf ((k1 + k2) • G), rb ++ sb, rb ++ sb⟩ := by
  obtain ⟨e1, s1, c1, h1, p1⟩ := schnorrPhase4 (d := d1) hk1 hash hQ (scalarOf ((k1 + k2) • G))
  obtain ⟨e2, s2, c2, h2, p2⟩ := schnorrPhase4 (d := d2) hk2 hash hQ (scalarOf ((k1 + k2) • G))
  have hP : P < 256 ^ 32 := by decide +kernel
  have hN : N < 256 ^ 32 := by decide +kernel
  have hlt := (coords_on hR).1.2
  obtain ⟨rn, hrn⟩ := Int.eq_ofNat_of_zero_le (coords_on hR).1.1
  obtain ⟨rb, er, hrb, _⟩ := intToByte_ok (n := rn) (by omega)
  have hsum : (natOfBE s1 + natOfBE s2) % N < N := Nat.mod_lt _ (by decide +kernel)
  obtain ⟨sb, es, hsb, _⟩ := intToByte_ok (n := (natOfBE s1 + natOfBE s2) % N) (by omega)
  refine ⟨e1, e2, _, rb, sb, c1, c2, hsum, ?_, by rw [hrn]; exact hrb, hsb, ?_⟩
  · have a1 : ((natOfBE s1 : ℕ) : ℤ) = (getK (scalarOf ((k1 + k2) • G)).y k1 + e1 * d1) % N := h1.2
    have a2 : ((natOfBE s2 : ℕ) : ℤ) = (getK (scalarOf ((k1 + k2) • G)).y k2 + e2 * d2) % N := h2.2
    have b1 : ((natOfBE s1 : ℕ) : ZMod N) = getK (coords ((k1 + k2) • G)).2 k1 + e1 * d1 := by
      rw [← Int.cast_natCast, a1, Ecdsa.mod_N]
      push_cast
      rfl
    have b2 : ((natOfBE s2 : ℕ) : ZMod N) = getK (coords ((k1 + k2) • G)).2 k2 + e2 * d2 := by
      rw [← Int.cast_natCast, a2, Ecdsa.mod_N]
      push_cast
      rfl
    rw [ZMod.natCast_mod, Nat.cast_add, b1, b2]
    ring
  · have p5 : ∀ p : SchnorrParty, p.phase5 (scalarOf ((k1 + k2) • G)) [s1, s2] = .ok (rb ++ sb) := by
      intro p
      unfold SchnorrParty.phase5
      dsimp only
      rw [show (scalarOf ((k1 + k2) • G)).x = (coords ((k1 + k2) • G)).1 from rfl, hrn, er, Res.ok_bind]
      rw [show ([s1, s2].foldl (fun a sig => a + natOfBE sig) 0) = natOfBE s1 + natOfBE s2 by
        simp [List.foldl], es]
      rfl
    unfold schnorrExchange
    rw [schnorrPhase1, Res.ok_bind, Nat.add_comm d1 d2, schnorrPhase1, Res.ok_bind, Nat.add_comm d2 d1, Res.ok_bind]
    dsimp only
    rw [Res.ok_bind]
    dsimp only
    rw [schnorrPhase3, Res.ok_bind, Nat.add_comm k1 k2, schnorrPhase3, Res.ok_bind, Nat.add_comm k2 k1, p1, Res.ok_bind]
    dsimp only
    rw [p2, Res.ok_bind]
    dsimp only
    rw [p5, Res.ok_bind, p5]
    rfl

omit [Hashes] in
/-- A number and its opposite are not both squares. -/
theorem residue_not_both {y : ℤ} (h1 : Residue y) (h2 : Residue (-y)) : False := by
  obtain ⟨hne, a, ha⟩ := h1
  obtain ⟨_, b, hb⟩ := h2
  have hm : IsSquare (-1 : ZMod P) := by
    have ha0 : a ≠ 0 := by rintro rfl; rw [mul_zero] at ha; exact hne ha.symm
    refine ⟨b / a, ?_⟩
    push_cast at hb
    rw [div_mul_div_comm, hb, ha, neg_div, div_self hne]
  rw [ZMod.exists_sq_eq_neg_one_iff] at hm
  exact hm (by decide +kernel)

omit [Hashes] in
/-- The points with the same x coordinate. -/
theorem same_x {q1 q2 : Pt} (h1 : q1 ≠ 0) (h2 : q2 ≠ 0) (h : (coords q1).1 = (coords q2).1) : q1 = q2 ∨ q1 = -q2 := by
  obtain ⟨_, r1, o1⟩ := coords_on h1
  obtain ⟨_, r2, o2⟩ := coords_on h2
  rw [isOnCurve_iff] at o1 o2
  rw [h, ← o2] at o1
  have : (((coords q1).2 : ℤ) : ZMod P) = (coords q2).2 ∨ (((coords q1).2 : ℤ) : ZMod P) = -(coords q2).2 := by
    rw [← sq_eq_sq_iff_eq_or_eq_neg]; exact o1
  rcases this with e | e
  · left
    exact coords_inj (Prod.ext h ((cast_inj (p := P) r1 r2).mp e))
  · right
    refine coords_inj (Prod.ext ?_ ?_)
    · rw [coords_neg' h2]; exact h
    · rw [coords_neg' h2]
      have hy := y_ne h2
      refine (cast_inj (p := P) r1 ⟨by dsimp only; omega, by dsimp only; omega⟩).mp ?_
      rw [e]; push_cast; simp

omit [Hashes] in
theorem zsmul_congr {a b : ℤ} (h : (a : ZMod N) = b) : a • G = b • G := by
  rw [← sub_eq_zero, sub_eq_add_neg, ← sub_zsmul]
  have : ((a - b : ℤ) : ZMod N) = 0 := by push_cast; rw [h, sub_self]
  rw [ZMod.intCast_zmod_eq_zero_iff_dvd] at this
  obtain ⟨c, hc⟩ := this
  rw [hc, mul_zsmul', natCast_zsmul, N_smul_G, zsmul_zero]

omit [Hashes] in
theorem zsmul_zero_iff {a : ℤ} : a • G = 0 ↔ (a : ZMod N) = 0 := by
  rw [ZMod.intCast_zmod_eq_zero_iff_dvd, ← order_G, addOrderOf_dvd_iff_zsmul_eq_zero]

omit [Hashes] in
/-- The sum of the nonces, with the signs chosen, is the nonce of a point whose y coordinate is a residue. -/
theorem joint_nonce {k1 k2 : ℕ} (hR : (k1 + k2) • G ≠ 0) :
    (getK (coords ((k1 + k2) • G)).2 k1 + getK (coords ((k1 + k2) • G)).2 k2) • G ≠ 0 ∧
    Residue (coords ((getK (coords ((k1 + k2) • G)).2 k1 + getK (coords ((k1 + k2) • G)).2 k2) • G)).2 ∧
    (coords ((getK (coords ((k1 + k2) • G)).2 k1 + getK (coords ((k1 + k2) • G)).2 k2) • G)).1 = (coords ((k1 + k2) • G)).1 := by
  have hyr := (coords_on hR).2.1
  have hy : (((coords ((k1 + k2) • G)).2 : ℤ) : ZMod P) ≠ 0 := by
    rw [Ne, cast_zero_iff (p := P) hyr]; exact y_ne hR
  by_cases hj : jacobi (coords ((k1 + k2) • G)).2 = 1
  · unfold getK
    rw [if_pos hj, if_pos hj, ← Nat.cast_add, natCast_zsmul]
    exact ⟨hR, (jacobi_iff _).mp hj, rfl⟩
  · unfold getK
    rw [if_neg hj, if_neg hj]
    have hneg : ((N : ℤ) - k1 + (N - k2)) • G = -((k1 + k2) • G) := by
      rw [← natCast_zsmul, ← neg_zsmul]
      refine zsmul_congr ?_
      push_cast
      rw [ZMod.natCast_self]
      ring
    rw [hneg, coords_neg' hR]
    refine ⟨neg_ne_zero.mpr hR, ?_, rfl⟩
    have hr : ¬ Residue (coords ((k1 + k2) • G)).2 := fun h => hj ((jacobi_iff _).mpr h)
    refine (residue_congr ?_).mpr (residue_neg hy hr)
    dsimp only
    push_cast
    simp

omit [Hashes] in
/-- The equation of verification pins the point. -/
theorem equation_iff {R' : Pt} (h0 : R' ≠ 0) (hr : Residue (coords R').2) (S : Pt) :
    (R' + S ≠ 0 ∧ Residue (coords (R' + S)).2 ∧ (coords (R' + S)).1 = (coords R').1) ↔ S = 0 := by
  constructor
  · rintro ⟨h1, h2, h3⟩
    rcases same_x h1 h0 h3 with h | h
    · exact add_eq_left.mp h
    · exfalso
      rw [h, coords_neg' h0] at h2
      refine residue_not_both hr ((residue_congr ?_).mp h2)
      push_cast
      simp
  · rintro rfl
    rw [add_zero]
    exact ⟨h0, hr, rfl⟩

/-- **C71 (partial).** Full statement: the exchange ends with a signature that is accepted for the message under the shared
public key. Proved: it ends with both parties holding the same public key (of the sum of the private keys), the same
point (of the sum of the nonces) and the same signature, but this is accepted exactly if
`e1 d1 + e2 d2 = e (d1 + d2)` modulo N, where e1 and e2 are the challenges made with the own points of the parties and e
that made with the shared point. The code should have used e for both: xcrypto/mpc_schnorr.go:92 takes `party.r` where
`shareR` is meant. -/
theorem C71_accepted_iff_partial (d1 d2 k1 k2 : ℕ) (hk1 : 1 ≤ k1 ∧ k1 < N) (hk2 : 1 ≤ k2 ∧ k2 < N) (hash : Bytes)
    (hQ : (d1 + d2) • G ≠ 0) (hR : (k1 + k2) • G ≠ 0) (e1 e2 e : ℕ) (h1 : Challenge ((d1 + d2) • G) hash (coords (k1 • G)).1 e1)
    (h2 : Challenge ((d1 + d2) • G) hash (coords (k2 • G)).1 e2)
    (he : Challenge ((d1 + d2) • G) hash (coords ((k1 + k2) • G)).1 e) (he0 : e ≠ 0) :
    ∃ sig, schnorrExchange (newSchnorrParty (prvOf d1)) (newSchnorrParty (prvOf d2)) (.ok (prepared d1 k1 hash, scalarOf (k1 • G)))
        (.ok (prepared d2 k2 hash, scalarOf (k2 • G))) =
        .ok ⟨keyOf ((d1 + d2) • G), keyOf ((d1 + d2) • G), scalarOf ((k1 + k2) • G), scalarOf ((k1 + k2) • G), sig, sig⟩ ∧
      (schnorrVerify (keyOf ((d1 + d2) • G)) hash sig = .ok () ∧ (e1 * d1 + e2 * d2) % N = e * (d1 + d2) % N ∨
       schnorrVerify (keyOf ((d1 + d2) • G)) hash sig = .err Schnorr.errVerify ∧ (e1 * d1 + e2 * d2) % N ≠ e * (d1 + d2) % N) := by
  obtain ⟨e1', e2', s, rb, sb, c1, c2, hs, hse, hrb, hsb, hrun⟩ := schnorrExchange_eq hk1 hk2 hash hQ hR
  rw [challenge_unique c1 h1, challenge_unique c2 h2] at hse
  refine ⟨rb ++ sb, hrun, ?_⟩
  have hP : P < 256 ^ 32 := by decide +kernel
  have hlt := (coords_on hR).1
  have l1 : rb.length = 32 := hrb.1
  have n1 : ((natOfBE rb : ℕ) : ℤ) = (coords ((k1 + k2) • G)).1 := hrb.2
  have n2 : natOfBE sb = s := by have : ((natOfBE sb : ℕ) : ℤ) = s := hsb.2; exact_mod_cast this
  have hv : verify (keyOf ((d1 + d2) • G)) hash (natOfBE rb : ℕ) (natOfBE sb : ℕ) =
      .ok (decision ((d1 + d2) • G) e (natOfBE rb : ℕ) s) := by
    rw [n2]
    exact verify_ok hQ hash (by omega) (by omega) (by rw [n1]; exact he) he0
  have hdec : decision ((d1 + d2) • G) e (natOfBE rb : ℕ) s = true ↔ (e1 * d1 + e2 * d2) % N = e * (d1 + d2) % N := by
    rw [decision_iff, n1]
    unfold SchnorrEquation
    have hg : ∀ g : Pt, coords g = (Gx, Gy) ↔ g = G := by
      intro g
      rw [← coords_G]
      exact ⟨coords_inj, fun h => h ▸ rfl⟩
    simp only [hg, exists_eq_left]
    obtain ⟨j1, j2, j3⟩ := joint_nonce hR
    have hpt : (s : ℤ) • G - e • ((d1 + d2) • G) =
        (getK (coords ((k1 + k2) • G)).2 k1 + getK (coords ((k1 + k2) • G)).2 k2) • G +
          ((e1 * d1 + e2 * d2 : ℤ) - e * (d1 + d2)) • G := by
      rw [smul_smul, ← natCast_zsmul, sub_eq_add_neg ((s : ℤ) • G), ← sub_zsmul, ← add_zsmul]
      refine zsmul_congr ?_
      push_cast
      rw [hse]
      ring
    rw [hpt, ← j3, equation_iff j1 j2, zsmul_zero_iff]
    push_cast
    rw [sub_eq_zero]
    constructor
    · intro h
      exact (ZMod.natCast_eq_natCast_iff' _ _ N).mp (by push_cast; exact h)
    · intro h
      have := (ZMod.natCast_eq_natCast_iff' _ _ N).mpr h
      push_cast at this
      exact this
  unfold schnorrVerify deserialize
  rw [if_neg (by rw [List.length_append]; omega), Res.ok_bind]
  dsimp only
  rw [List.take_left' l1, List.drop_left' l1, hv, Res.ok_bind]
  cases hd : decision ((d1 + d2) • G) e (natOfBE rb : ℕ) s with
  | true => exact Or.inl ⟨rfl, hdec.mp hd⟩
  | false => exact Or.inr ⟨rfl, fun h => by rw [hdec.mpr h] at hd; cases hd⟩

/-- **C71 (partial)**, with the nonces of the code: when the exchange ends and the shared key and point are finite, the
parties agree on key, point and signature. -/
theorem C71_agree_partial (d1 d2 : ℕ) (h1 : d1 < 2 ^ 256) (h2 : d2 < 2 ^ 256) (hash : Bytes) (o : Outcome)
    (h : schnorrRun (prvOf d1) (prvOf d2) hash = .ok o) (hQ : (d1 + d2) • G ≠ 0) (hR : o.R1 ≠ ⟨0, 0⟩) :
    o.pub1 = keyOf ((d1 + d2) • G) ∧ o.pub1 = o.pub2 ∧ o.R1 = o.R2 ∧ o.sig1 = o.sig2 := by
  have h0 := h
  obtain ⟨_, _, p1⟩ := schnorrPhase2 h1 hash
  obtain ⟨_, _, p2⟩ := schnorrPhase2 h2 hash
  unfold schnorrRun at h
  rcases p1 with ⟨p1, _⟩ | ⟨k1, hk1, _, p1⟩
  · rw [p1] at h
    unfold schnorrExchange at h
    rw [schnorrPhase1, Res.ok_bind, schnorrPhase1, Res.ok_bind] at h
    cases h
  rcases p2 with ⟨p2, _⟩ | ⟨k2, hk2, _, p2⟩
  · rw [p1, p2] at h
    unfold schnorrExchange at h
    rw [schnorrPhase1, Res.ok_bind, schnorrPhase1, Res.ok_bind, Res.ok_bind] at h
    cases h
  rw [p1, p2] at h
  by_cases hz : (k1 + k2) • G = 0
  · exfalso
    refine hR ?_
    unfold schnorrExchange at h
    obtain ⟨_, _, h⟩ := Res.bind_eq_ok.mp h
    obtain ⟨_, _, h⟩ := Res.bind_eq_ok.mp h
    rw [Res.ok_bind] at h
    dsimp only at h
    rw [Res.ok_bind] at h
    dsimp only at h
    rw [schnorrPhase3, Res.ok_bind, schnorrPhase3, Res.ok_bind] at h
    obtain ⟨_, _, h⟩ := Res.bind_eq_ok.mp h
    obtain ⟨_, _, h⟩ := Res.bind_eq_ok.mp h
    obtain ⟨_, _, h⟩ := Res.bind_eq_ok.mp h
    obtain ⟨_, _, h⟩ := Res.bind_eq_ok.mp h
    cases h
    dsimp only
    rw [hz]
    rfl
  · obtain ⟨_, _, _, _, _, _, _, _, _, _, _, hrun⟩ := schnorrExchange_eq hk1 hk2 hash hQ hz
    rw [hrun] at h
    cases h
    exact ⟨rfl, rfl, rfl, rfl⟩

/-- **C89.** Phase 4 of Schnorr changes the stored nonce if the y coordinate of the shared point is not a residue. Repeated
with the same arguments it then gives another number, and the two numbers give away the private key: twice the challenge
times the key is their sum, modulo N. -/
theorem C89_negation (d k : ℕ) (hk : 1 ≤ k ∧ k < N) (hash : Bytes) (q : Pt) (hq : q ≠ 0) (R : Scalar) (hR : ¬ Residue R.y) :
    ∃ e s1 s2 party' party'', Challenge q hash (coords (k • G)).1 e ∧
      (prepared d k hash).phase4 (keyOf q) R = .ok (party', s1) ∧ party'.phase4 (keyOf q) R = .ok (party'', s2) ∧
      s1 ≠ s2 ∧ (beNat s1 + beNat s2) % N = 2 * e * d % N := by
  have hj : jacobi R.y ≠ 1 := fun h => hR ((jacobi_iff _).mp h)
  obtain ⟨e, s1, c, h1, p1⟩ := schnorrPhase4 (d := d) hk hash hq R
  have gk : ∀ k : ℕ, getK R.y k = N - k := fun k => by unfold getK; rw [if_neg hj]
  rw [gk] at h1 p1
  have hP : P < 256 ^ 32 := by decide +kernel
  have hN : N < 256 ^ 32 := by decide +kernel
  have hkG : k • G ≠ 0 := Ecdsa.smul_ne hk.1 hk.2
  obtain ⟨rn, hrn⟩ := Int.eq_ofNat_of_zero_le (coords_on hkG).1.1
  have hlt := (coords_on hkG).1.2
  obtain ⟨rb, er, hrb, _⟩ := intToByte_ok (n := rn) (by omega)
  obtain ⟨e', ee, hch, _⟩ := getE_ok hq hash hrb
  rw [← hrn] at hch
  rw [challenge_unique hch c] at ee
  have ht : ((N : ℤ) - k).toNat = N - k := by omega
  have hb : (N : ℤ) - ((N - k : ℕ) : ℤ) = k := by omega
  have hs := mod_range (p := N) ((k : ℤ) + e * d)
  obtain ⟨sn, hsn⟩ := Int.eq_ofNat_of_zero_le hs.1
  obtain ⟨s2, es, hs2, _⟩ := intToByte_ok (n := sn) (by omega)
  have a1 : ((natOfBE s1 : ℕ) : ℤ) = ((N : ℤ) - k + e * d) % N := h1.2
  have a2 : ((natOfBE s2 : ℕ) : ℤ) = ((k : ℤ) + e * d) % N := by rw [hsn]; exact hs2.2
  have b1 : ((natOfBE s1 : ℕ) : ZMod N) = -k + e * d := by
    rw [← Int.cast_natCast, a1, Ecdsa.mod_N]
    push_cast
    rw [ZMod.natCast_self]
    ring
  have b2 : ((natOfBE s2 : ℕ) : ZMod N) = k + e * d := by
    rw [← Int.cast_natCast, a2, Ecdsa.mod_N]
    push_cast
    rfl
  refine ⟨e, s1, s2, _, ⟨prvOf d, hash, some (getK R.y ((N : ℤ) - k).toNat).toNat, some (scalarOf (k • G))⟩, c, p1, ?_, ?_, ?_⟩
  · unfold SchnorrParty.phase4
    dsimp only
    rw [show (scalarOf (k • G)).x = (coords (k • G)).1 from rfl, hrn, er, Res.ok_bind]
    rw [show (keyOf q).x = (coords q).1 from rfl, show (keyOf q).y = (coords q).2 from rfl, ee, Res.ok_bind]
    rw [ht, gk, hb, show ((prvOf d).d : ℤ) = (d : ℤ) from rfl, hsn, es]
    rfl
  · rintro rfl
    have h2k : ((2 * k : ℕ) : ZMod N) = 0 := by push_cast; linear_combination b1 - b2
    rw [ZMod.natCast_eq_zero_iff] at h2k
    rcases (Nat.Prime.dvd_mul Primes.prime_N).mp h2k with h | h
    · exact absurd h (by decide +kernel)
    · exact Nat.not_dvd_of_pos_of_lt hk.1 hk.2 h
  · refine (ZMod.natCast_eq_natCast_iff' _ _ N).mp ?_
    change ((natOfBE s1 + natOfBE s2 : ℕ) : ZMod N) = _
    push_cast
    rw [b1, b2]
    ring

/-- **C89 (partial).** Full statement: without the hypothesis. Proved: if the y coordinate of the shared point is a residue,
phase 4 of Schnorr leaves the party as it was, so repeating it gives the same result. -/
theorem C89_same_partial (d k : ℕ) (hk : 1 ≤ k ∧ k < N) (hash : Bytes) (q : Pt) (hq : q ≠ 0) (R : Scalar) (hR : Residue R.y) :
    ∃ s, (prepared d k hash).phase4 (keyOf q) R = .ok (prepared d k hash, s) := by
  obtain ⟨e, s1, c, h1, p1⟩ := schnorrPhase4 (d := d) hk hash hq R
  refine ⟨s1, ?_⟩
  rw [p1]
  have : getK R.y k = k := by unfold getK; rw [if_pos ((jacobi_iff _).mpr hR)]
  rw [this, Int.toNat_natCast]
  rfl

end

/-- **C71**, the full statement fails: for private keys 1 and 2 and the message `abc`, with SHA-256, the exchange ends and the
signature is refused. -/
theorem C71_negation :
    letI := Sha.realHashes
    ∃ o, schnorrRun (prvOf 1) (prvOf 2) [0x61, 0x62, 0x63] = .ok o ∧
      schnorrVerify o.pub1 [0x61, 0x62, 0x63] o.sig1 = .err Schnorr.errVerify := by
  letI := Sha.realHashes
  have p1 : Keys.prvFromBytes [1] = .ok (prvOf 1) := C61_prvFromBytes [1]
  have p2 : Keys.prvFromBytes [2] = .ok (prvOf 2) := C61_prvFromBytes [2]
  have h : (do
      let a ← Keys.prvFromBytes [1]
      let b ← Keys.prvFromBytes [2]
      let o ← schnorrRun a b [0x61, 0x62, 0x63]
      match schnorrVerify o.pub1 [0x61, 0x62, 0x63] o.sig1 with
      | .err e => if e = Schnorr.errVerify then Res.ok () else .panic
      | _ => .panic) = .ok () := by decide +kernel
  rw [p1, Res.ok_bind, p2, Res.ok_bind] at h
  obtain ⟨o, ho, h⟩ := Res.bind_eq_ok.mp h
  refine ⟨o, ho, ?_⟩
  split at h
  · split at h
    · rename_i e he hx
      rw [he, hx]
    · cases h
  · cases h

/-- A hash function with one value: all challenges coincide. -/
@[instance_reducible] def constHashes : Hashes where
  sha256 _ := List.replicate 31 0 ++ [5]
  sha256_length _ := rfl
  sha512 _ := List.replicate 64 0
  sha512_length _ := rfl

/-- The condition of acceptance can be met: when all challenges coincide the signature is accepted. -/
example :
    letI := constHashes
    ∃ o, schnorrRun (prvOf 1) (prvOf 2) [0x61] = .ok o ∧ schnorrVerify o.pub1 [0x61] o.sig1 = .ok () := by
  letI := constHashes
  have p1 : Keys.prvFromBytes [1] = .ok (prvOf 1) := C61_prvFromBytes [1]
  have p2 : Keys.prvFromBytes [2] = .ok (prvOf 2) := C61_prvFromBytes [2]
  have h : (do
      let a ← Keys.prvFromBytes [1]
      let b ← Keys.prvFromBytes [2]
      let o ← schnorrRun a b [0x61]
      schnorrVerify o.pub1 [0x61] o.sig1) = .ok () := by decide +kernel
  rw [p1, Res.ok_bind, p2, Res.ok_bind] at h
  obtain ⟨o, ho, h⟩ := Res.bind_eq_ok.mp h
  exact ⟨o, ho, h⟩

/-- -1 is not a residue and 1 is. -/
example : ¬ Residue (P - 1) ∧ Residue 1 := by
  rw [← jacobi_iff, ← jacobi_iff]
  decide +kernel

end Toku.Props
