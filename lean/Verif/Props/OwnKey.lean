import Verif.Props.RogueKey
/-
Property C135: whether the key that two parties sign for can be the key of one of them.
-/
namespace Toku.Props
open Toku Toku.Spec Toku.Curve Toku.Keys Toku.Mpc

private theorem keyOf_eq {a b : Pt} (h : keyOf a = keyOf b) : a = b := by
  unfold keyOf at h
  injection h with e1 e2
  exact coords_inj (Prod.ext e1 e2)

/-- **C135**, ECDSA: exactly when the shared key that phase 1 returns is the party's own key: when the private key of the counterpart is 1
(modulo N). -/
theorem C135_ecdsa_iff (d1 d2 : ℕ) (h1 : ¬ N ∣ d1) :
    (newEcdsaParty (prvOf d1)).phase1 (prvOf d2).pub = .ok (prvOf d1).pub ↔ d2 ≡ 1 [MOD N] := by
  rw [phase1_ok]
  have hc : Nat.Coprime N d1 := (Nat.Prime.coprime_iff_not_dvd Primes.prime_N).mpr h1
  constructor
  · intro h
    have := keyOf_eq (Res.ok.inj h : keyOf ((d1 * d2) • G) = keyOf (d1 • G))
    rw [nsmul_eq_nsmul_iff_modEq, order_G] at this
    exact Nat.ModEq.cancel_left_of_coprime (c := d1) hc (by rw [Nat.mul_one]; exact this)
  · intro h
    have e : (d1 * d2) • G = d1 • G := by
      rw [nsmul_eq_nsmul_iff_modEq, order_G]
      simpa using h.mul_left d1
    rw [e]
    rfl

/-- **C135**, negation for ECDSA: a counterpart with the private key 1. Phase 1 gives the party its own key as the shared key; and if the
exchange comes to an end, the counterpart holds a signature of the hash under this key. It ends unless s is 0; the shared point must have an x
coordinate below N (C70). -/
theorem C135_negation (d1 : ℕ) (h1 : d1 < 2 ^ 256) (hash : Bytes) (w1 w2 : Draw) (g1 : w1.Good) (g2 : w2.Good) (k1 k2 : ℕ)
    (hk1 : 1 ≤ k1 ∧ k1 < N) (hk2 : 1 ≤ k2 ∧ k2 < N) (hx : (coords ((k1 * k2) • G)).1 < N)
    (hs : ¬ (hashNum hash + d1 * (coords ((k1 * k2) • G)).1) % N = 0) :
    ∃ o, exchangeWith (prvOf d1) (prvOf 1) hash w1 w2 k1 k2 = .ok o ∧ o.pub1 = (prvOf d1).pub ∧ o.pub2 = (prvOf d1).pub ∧
      Ecdsa.ecdsaVerify (prvOf d1).pub hash o.sig2 = .ok () := by
  have h2 : (1 : ℕ) < 2 ^ 256 := by decide
  have hc := C70_completes d1 1 h1 h2 hash w1 w2 g1 g2 k1 k2 hk1 hk2
  rw [Nat.cast_one, mul_one] at hc
  rcases hc with ⟨⟨o, ho⟩, _⟩ | ⟨_, h⟩
  · obtain ⟨e1, e2, _⟩ := C70_agree d1 1 h1 h2 hash w1 w2 g1 g2 k1 k2 hk1 hk2 o ho
    have hv := (C70_verifies_partial d1 1 h1 h2 hash w1 w2 g1 g2 k1 k2 hk1 hk2 hx o ho).2
    have e : o.pub1 = (prvOf d1).pub := by rw [e1, Nat.mul_one]; rfl
    rw [e2, e] at hv
    exact ⟨o, ho, e, e2.trans e, hv⟩
  · exact absurd h hs

/-- **C135**, Schnorr: the shared key that phase 1 returns is never the party's own key, for every point of the curve that the counterpart may
present as its key. -/
theorem C135_schnorr (d1 : ℕ) (q : Pt) (hq : q ≠ 0) : ∃ pub, (newSchnorrParty (prvOf d1)).phase1 (keyOf q) = .ok pub ∧ pub ≠ (prvOf d1).pub := by
  refine ⟨keyOf (d1 • G + q), ?_, ?_⟩
  · unfold SchnorrParty.phase1 newSchnorrParty prvOf
    dsimp only
    rw [C61_pubAdd]
  · intro h
    exact hq (by simpa using keyOf_eq (h : keyOf (d1 • G + q) = keyOf (d1 • G)))

/-- **C135 (partial)**, Schnorr. Full statement: for every object the counterpart may present. Proved: for every key that PubKeyFromBytes reads
from a text. -/
theorem C135_schnorr_partial (d1 : ℕ) (bs : Bytes) (pub2 : PubKey) (h : pubFromBytes bs = .ok pub2) :
    ∃ pub, (newSchnorrParty (prvOf d1)).phase1 pub2 = .ok pub ∧ pub ≠ (prvOf d1).pub := by
  obtain ⟨_, _, _, q, hq, rfl, _⟩ := C60_accepted_partial bs pub2 h
  exact C135_schnorr d1 q hq

section
variable [Hashes]

/-- What signing returns, with its nonce and its challenge. -/
private theorem sign_parts (d : ℕ) (hd : 1 ≤ d ∧ d < N) (m : Bytes) (db : Bytes) (h32 : Is32 db d) (k : ℕ) (hk : 1 ≤ k ∧ k < N)
    (hkd : k = beNat (Hashes.sha256 (db ++ m)) % N) :
    ∃ e, Challenge (d • G) m (coords (k • G)).1 e ∧
      Schnorr.sign d m = .ok ((coords (k • G)).1, (Schnorr.getK (coords (k • G)).2 k + e * d) % N) := by
  have hN : N < 256 ^ 32 := N_lt
  have hP : P < 256 ^ 32 := P_lt
  obtain ⟨db', ed, h32', hdb⟩ := Schnorr.intToByte_ok (n := d) (by omega)
  have hq : d • G ≠ 0 := Ecdsa.smul_ne hd.1 hd.2
  obtain rfl := is32_unique h32 h32'
  have hR : k • G ≠ 0 := Ecdsa.smul_ne hk.1 hk.2
  have hrx := (coords_on hR).1
  obtain ⟨rn, hrn⟩ := Int.eq_ofNat_of_zero_le hrx.1
  obtain ⟨rb, er, hrb, _⟩ := Schnorr.intToByte_ok (n := rn) (by omega)
  obtain ⟨e, ee, hch, _⟩ := Schnorr.getE_ok hq m hrb
  refine ⟨e, by rw [hrn]; exact hch, ?_⟩
  unfold Schnorr.sign
  rw [ed, Res.ok_bind]
  unfold Schnorr.getK0
  dsimp only
  have hk' : natOfBE (Hashes.sha256 (db ++ m)) % N = k := hkd.symm
  rw [hk', if_neg (by omega), Res.ok_bind, baseMult_coords, natOfBE_natToBE, hrn]
  generalize hc : coords (k • G) = c at hrn
  obtain ⟨cx, cy⟩ := c
  dsimp only at hrn
  simp only [Res.ok_bind]
  rw [hrn, er, Res.ok_bind, baseMult_coords, hdb]
  revert ee
  generalize coords (d • G) = dc
  obtain ⟨dx, dy⟩ := dc
  intro ee
  simp only [Res.ok_bind]
  rw [ee, Res.ok_bind]
  rfl

/-- **C135**, negation for Schnorr: the object with the coordinates 0 and 0, which no text of a key gives (C60), as key and as point of the
counterpart. Then all that phases 1 to 5 return are the party's own key, its own point, and the signature that SchnorrSign makes for the
hash with its private key alone: what the party sends in phase 4 is the whole signature. -/
theorem C135_negation_schnorr (d : ℕ) (hd : 1 ≤ d ∧ d < N) (m : Bytes) (sig : Bytes) (hs : Schnorr.schnorrSign (prvOf d) m = .ok sig) :
    ∃ party r1 party' sb, (newSchnorrParty (prvOf d)).phase1 ⟨0, 0⟩ = .ok (prvOf d).pub ∧
      (newSchnorrParty (prvOf d)).phase2 m = .ok (party, r1) ∧ party.phase3 ⟨0, 0⟩ = .ok r1 ∧
      party.phase4 (prvOf d).pub r1 = .ok (party', sb) ∧ party'.phase5 r1 [sb] = .ok sig := by
  have hN : N < 256 ^ 32 := N_lt
  have hP : P < 256 ^ 32 := P_lt
  have hq : d • G ≠ 0 := Ecdsa.smul_ne hd.1 hd.2
  have hd' : d < 2 ^ 256 := lt_trans hd.2 (by decide +kernel)
  have hz : (⟨0, 0⟩ : PubKey) = keyOf 0 := rfl
  obtain ⟨db, h32, h2⟩ := schnorrPhase2 hd' m
  obtain ⟨⟨r, s⟩, h1, hs⟩ := Res.bind_eq_ok.mp (show (Schnorr.sign d m).bind (fun p => Schnorr.serialize p.1 p.2) = .ok sig from hs)
  rcases h2 with ⟨_, hk0⟩ | ⟨k, hk, hkd, h2⟩
  · exfalso
    obtain ⟨db', ed, h32', hdb⟩ := Schnorr.intToByte_ok (n := d) (by omega)
    obtain rfl := is32_unique h32 h32'
    unfold Schnorr.sign at h1
    rw [ed, Res.ok_bind] at h1
    unfold Schnorr.getK0 at h1
    dsimp only at h1
    rw [if_pos (show natOfBE (Hashes.sha256 (db ++ m)) % N = 0 from hk0)] at h1
    cases h1
  · obtain ⟨e, hc, hsign⟩ := sign_parts d hd m db h32 k hk hkd
    rw [hsign] at h1
    obtain ⟨rfl, rfl⟩ := Prod.mk.inj (Res.ok.inj h1)
    obtain ⟨e', sb, hc', hsb, h4⟩ := schnorrPhase4 (d := d) hk m hq (scalarOf (k • G))
    obtain rfl := Schnorr.challenge_unique hc hc'
    refine ⟨prepared d k m, scalarOf (k • G), _, sb, ?_, h2, ?_, h4, ?_⟩
    · unfold SchnorrParty.phase1 newSchnorrParty prvOf
      dsimp only
      rw [hz, C61_pubAdd, add_zero]
    · have := schnorrPhase3 d k 0 m
      rw [zero_nsmul, Nat.add_zero] at this
      exact this
    · have hr := mod_range (p := N) (Schnorr.getK (coords (k • G)).2 k + e * d)
      have hb : ((natOfBE sb : ℕ) : ℤ) = (Schnorr.getK (coords (k • G)).2 k + e * d) % N := hsb.2
      have hm : natOfBE sb % N = natOfBE sb := Nat.mod_eq_of_lt (by omega)
      rw [← hs]
      unfold SchnorrParty.phase5 Schnorr.serialize
      dsimp only
      rw [show ([sb].foldl (fun a sig => a + natOfBE sig) 0) = natOfBE sb by simp [List.foldl], hm, hb]
      rfl

end

/-! ### Concrete cases -/

/-- The counterpart with private key 3 gives another key, the one with private key 1 (or N + 1) gives the party's own. -/
example : (newEcdsaParty (prvOf 5)).phase1 (prvOf 3).pub ≠ .ok (prvOf 5).pub ∧ (newEcdsaParty (prvOf 5)).phase1 (prvOf 1).pub = .ok (prvOf 5).pub ∧
    (newEcdsaParty (prvOf 5)).phase1 (prvOf (N + 1)).pub = .ok (prvOf 5).pub := by
  have h5 : ¬ N ∣ 5 := by decide +kernel
  refine ⟨fun h => ?_, (C135_ecdsa_iff 5 1 h5).mpr rfl, (C135_ecdsa_iff 5 (N + 1) h5).mpr (by simp [Nat.ModEq])⟩
  exact absurd ((C135_ecdsa_iff 5 3 h5).mp h) (by decide +kernel)

/-- The hypotheses of `C135_negation` can be met: private key 5, hash 0xab, nonces 1. -/
example : ∃ w1 w2 : Draw, w1.Good ∧ w2.Good ∧ ∃ o, exchangeWith (prvOf 5) (prvOf 1) [0xab] w1 w2 1 1 = .ok o ∧
    Ecdsa.ecdsaVerify (prvOf 5).pub [0xab] o.sig2 = .ok () := by
  obtain ⟨w, g⟩ := exists_draw
  have h1 : 1 ≤ 1 ∧ 1 < N := by decide +kernel
  have hc : (coords ((1 * 1) • G)).1 = Gx := by rw [Nat.mul_one, one_nsmul, coords_G]
  obtain ⟨o, ho, _, _, hv⟩ := C135_negation 5 (by norm_num) [0xab] w w g g 1 1 h1 h1 (by rw [hc]; decide +kernel)
    (by rw [hc]; decide +kernel)
  exact ⟨w, w, g, g, o, ho, hv⟩

/-- With SHA-256: private key 5, message `abc`. -/
example :
    letI := Sha.realHashes
    ∃ sig, Schnorr.schnorrSign (prvOf 5) [0x61, 0x62, 0x63] = .ok sig := by
  let _ := Sha.realHashes
  have p : Keys.prvFromBytes [5] = .ok (prvOf 5) := C61_prvFromBytes [5]
  have h : (do
      let own ← Keys.prvFromBytes [5]
      let _ ← Schnorr.schnorrSign own [0x61, 0x62, 0x63]
      Res.ok ()) = .ok () := by decide +kernel
  rw [p, Res.ok_bind] at h
  obtain ⟨sig, h, _⟩ := Res.bind_eq_ok.mp h
  exact ⟨sig, h⟩

end Toku.Props
