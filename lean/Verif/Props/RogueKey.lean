import Verif.Props.MpcLeak
/-
Properties C119 and C120: who holds the shared key of two parties, and what an ordinary signature gives away to the
counterpart.
-/
namespace Toku.Props
open Toku Toku.Spec Toku.Curve Toku.Keys Toku.Mpc

/-! ### C119 -/

/-- What a counterpart computes from the public key of the other party and a private key x of its own, with the functions of
the library: the public key of x plus the negated point. Not code of the library. -/
def rogueKey (pub1 : PubKey) (x : ℕ) : Res PubKey := do
  let own ← prvFromBytes (natToBE x)
  pubAdd own.pub ⟨pub1.x, P - pub1.y⟩

theorem rogueKey_eq {q : Pt} (hq : q ≠ 0) (x : ℕ) : rogueKey (keyOf q) x = .ok (keyOf (x • G - q)) := by
  unfold rogueKey
  rw [C61_prvFromBytes, natOfBE_natToBE, Res.ok_bind]
  have e : (⟨(keyOf q).x, P - (keyOf q).y⟩ : PubKey) = keyOf (-q) := by
    unfold keyOf
    rw [coords_neg' hq]
  rw [e, C61_pubAdd, sub_eq_add_neg]

/-- Points of different numbers differ. -/
theorem smul_G_ne {a b : ℕ} (h : ¬ a ≡ b [MOD N]) : a • G ≠ b • G := fun e =>
  h ((by rw [nsmul_eq_nsmul_iff_modEq, order_G] at e; exact e))

section
variable [Hashes]

/-- **C119**, negation for Schnorr: a counterpart that knows the public key of the other party, and nothing else of it,
computes a key that looks like any other (it is on the curve, its serialisation is parsed), for which phase 1 of the
other party returns the public key of a private key x of the counterpart's own choice. With x it signs any message alone,
by Schnorr or by ECDSA, under the shared key. -/
theorem C119_negation (d1 x : ℕ) (h1 : ¬ N ∣ d1) (hx : 1 ≤ x ∧ x < N) (hne : ¬ x ≡ d1 [MOD N]) :
    ∃ pub2 : PubKey, rogueKey (prvOf d1).pub x = .ok pub2 ∧
      (serializeCompressed pub2 >>= pubFromBytes) = .ok pub2 ∧
      (newSchnorrParty (prvOf d1)).phase1 pub2 = .ok (prvOf x).pub ∧
      (∀ m sig, Schnorr.schnorrSign (prvOf x) m = .ok sig → ¬ Challenge (x • G) m (beNat (sig.take 32)) 0 →
        Schnorr.schnorrVerify (prvOf x).pub m sig = .ok ()) ∧
      (∀ fuel m sig, Ecdsa.ecdsaSign fuel (prvOf x) m = .ok sig → Ecdsa.ecdsaVerify (prvOf x).pub m sig = .ok ()) := by
  have q0 : d1 • G ≠ 0 := fun h => h1 ((smul_zero_iff G_ne _).mp h)
  refine ⟨keyOf (x • G - d1 • G), rogueKey_eq q0 x, (C59_round_trip _ (sub_ne_zero.mpr (smul_G_ne hne))).1, ?_, ?_, ?_⟩
  · unfold SchnorrParty.phase1 newSchnorrParty prvOf
    dsimp only
    rw [C61_pubAdd, add_sub_cancel]
  · intro m sig hs hc
    have hp : prvFromBytes (natToBE x) = .ok (prvOf x) := by rw [C61_prvFromBytes, natOfBE_natToBE]; rfl
    exact (C66_schnorr_partial (natToBE x) m sig (prvOf x) hp hx hs hc).2
  · intro fuel m sig hs
    unfold Ecdsa.ecdsaSign at hs
    obtain ⟨⟨r, s⟩, hs1, hs2⟩ := Res.bind_eq_ok.mp hs
    cases hs2
    obtain ⟨k, _, hk, hw⟩ := Ecdsa.sign_ok hs1
    have : (prvOf x).d = x % N := (Nat.mod_eq_of_lt hx.2).symm
    rw [this] at hw
    exact accepted hk hw

end

/-- **C119 (partial)**, for ECDSA. Full statement: no counterpart holds the private key of the shared key. Proved: a
counterpart whose public key is a sum of multiples `a` of the generator and `b` of the other party's key, not both 0, and
who holds the private key x of the shared key, has an equation for the other party's private key, with at most two
solutions modulo N. Missing: that other ways to choose the key are of no use, and that solving the equation is out of
reach; both are beyond the model. -/
theorem C119_ecdsa_partial (d1 a b x : ℕ) (hab : ¬ (N ∣ a ∧ N ∣ b))
    (h : (newEcdsaParty (prvOf d1)).phase1 (keyOf (a • G + b • (d1 • G))) = .ok (prvOf x).pub) :
    (b : ZMod N) * d1 ^ 2 + a * d1 = x ∧
    ∃ u v : ZMod N, ∀ d : ZMod N, b * d ^ 2 + a * d = x → d = u ∨ d = v := by
  have := Fact.mk Primes.prime_N
  have key : (b : ZMod N) * d1 ^ 2 + a * d1 = x := by
    have e : a • G + b • (d1 • G) = (a + b * d1) • G := by rw [smul_smul, ← add_smul]
    rw [e] at h
    have p := phase1_ok d1 (a + b * d1)
    have p' : (newEcdsaParty (prvOf d1)).phase1 (keyOf ((a + b * d1) • G)) = .ok (keyOf ((d1 * (a + b * d1)) • G)) := p
    rw [p'] at h
    have hk : keyOf ((d1 * (a + b * d1)) • G) = keyOf (x • G) := Res.ok.inj h
    have hc : coords ((d1 * (a + b * d1)) • G) = coords (x • G) := by
      unfold keyOf at hk
      injection hk with e1 e2
      exact Prod.ext e1 e2
    have hpt := coords_inj hc
    rw [nsmul_eq_nsmul_iff_modEq, order_G, ← ZMod.natCast_eq_natCast_iff] at hpt
    rw [← hpt]
    push_cast
    ring
  refine ⟨key, ?_⟩
  by_cases hb : (b : ZMod N) = 0
  · have ha : (a : ZMod N) ≠ 0 := fun ha => hab ⟨(ZMod.natCast_eq_zero_iff _ _).mp ha, (ZMod.natCast_eq_zero_iff _ _).mp hb⟩
    refine ⟨d1, d1, fun d hd => Or.inl ?_⟩
    rw [hb] at key hd
    have : (a : ZMod N) * (d - d1) = 0 := by linear_combination hd - key
    rcases mul_eq_zero.mp this with h | h
    · exact (ha h).elim
    · exact sub_eq_zero.mp h
  · refine ⟨d1, -(a / b) - d1, fun d hd => ?_⟩
    have : ((d : ZMod N) - d1) * (b * (d + d1) + a) = 0 := by linear_combination hd - key
    rcases mul_eq_zero.mp this with h | h
    · exact Or.inl (sub_eq_zero.mp h)
    · right
      field_simp
      linear_combination h

/-- The hypotheses can be met: private keys 5 and 77. -/
example : ¬ N ∣ 5 ∧ (1 ≤ 77 ∧ 77 < N) ∧ ¬ 77 ≡ 5 [MOD N] := by decide +kernel

/-- With SHA-256: the counterpart of the party with private key 5 signs the message `abc` alone under the shared key. -/
example :
    letI := Sha.realHashes
    ∃ pub2 sig, rogueKey (prvOf 5).pub 77 = .ok pub2 ∧
      (do Schnorr.schnorrVerify (← (newSchnorrParty (prvOf 5)).phase1 pub2) [0x61, 0x62, 0x63] sig) = .ok () := by
  let _ := Sha.realHashes
  have p2 : Keys.prvFromBytes [77] = .ok (prvOf 77) := C61_prvFromBytes [77]
  obtain ⟨pub2, e1, _, e2, _⟩ := C119_negation 5 77 (by decide +kernel) (by decide +kernel) (by decide +kernel)
  have h : (do
      let own ← Keys.prvFromBytes [77]
      let sig ← Schnorr.schnorrSign own [0x61, 0x62, 0x63]
      Schnorr.schnorrVerify own.pub [0x61, 0x62, 0x63] sig) = .ok () := by decide +kernel
  rw [p2, Res.ok_bind] at h
  obtain ⟨sig, _, h⟩ := Res.bind_eq_ok.mp h
  exact ⟨pub2, sig, e1, by rw [e2]; exact h⟩

/-- For ECDSA: private keys 5 and 3, where a = 3, b = 0 and the shared key is that of 15. -/
example : (newEcdsaParty (prvOf 5)).phase1 (keyOf (3 • G + 0 • (5 • G))) = .ok (prvOf 15).pub := by
  have e : 3 • G + 0 • (5 • G) = 3 • G := by rw [zero_nsmul, add_zero]
  rw [e]
  exact phase1_ok 5 3

/-! ### C120 -/

section
variable [Hashes]

/-- **C120**, Schnorr: an ordinary signature (r, s) of a message and the number a party sends in phase 4 for the
same message have the same nonce. Whoever sees both, and the two challenges, has an equation for the private key: their
difference or their sum is the private key times the difference or the sum of the challenges. Which of the two it is can
be seen from the y coordinates of the points. -/
theorem C120_schnorr (d : ℕ) (hd : 1 ≤ d ∧ d < N) (m : Bytes) (r s : ℤ) (hs : Schnorr.sign d m = .ok (r, s)) (q : Pt)
    (hq : q ≠ 0) (R : Scalar) :
    ∃ e e' party r1 party' sb, Challenge (d • G) m r e ∧ Challenge q m r e' ∧
      (newSchnorrParty (prvOf d)).phase2 m = .ok (party, r1) ∧ party.phase4 (keyOf q) R = .ok (party', sb) ∧
      ((Residue r1.y ↔ Residue R.y) → (s : ZMod N) - beNat sb = ((e : ZMod N) - e') * d) ∧
      (¬ (Residue r1.y ↔ Residue R.y) → (s : ZMod N) + beNat sb = ((e : ZMod N) + e') * d) := by
  have hN : N < 256 ^ 32 := by decide +kernel
  have hP : P < 256 ^ 32 := by decide +kernel
  have hq0 : d • G ≠ 0 := Ecdsa.smul_ne hd.1 hd.2
  have h256 : d < 2 ^ 256 := lt_trans hd.2 (by decide +kernel)
  obtain ⟨db, h32, hp⟩ := schnorrPhase2 h256 m
  obtain ⟨db', ed, h32', hdb⟩ := Schnorr.intToByte_ok (n := d) (by omega)
  have hdd : db' = db := is32_unique h32' h32
  subst hdd
  unfold Schnorr.sign at hs
  rw [ed, Res.ok_bind] at hs
  unfold Schnorr.getK0 at hs
  dsimp only at hs
  rcases hp with ⟨_, hz⟩ | ⟨k, hk, hke, hp⟩
  · have hz' : natOfBE (Hashes.sha256 (db' ++ m)) % N = 0 := hz
    rw [if_pos hz'] at hs
    cases hs
  have hke' : natOfBE (Hashes.sha256 (db' ++ m)) % N = k := hke.symm
  rw [hke', if_neg (by omega), Res.ok_bind, baseMult_coords, natOfBE_natToBE, Res.ok_bind] at hs
  have hR : k • G ≠ 0 := Ecdsa.smul_ne hk.1 hk.2
  have hrx := (coords_on hR).1
  obtain ⟨rn, hrn⟩ := Int.eq_ofNat_of_zero_le hrx.1
  obtain ⟨rb, er, hrb, _⟩ := Schnorr.intToByte_ok (n := rn) (by omega)
  obtain ⟨e, ee, hch, _⟩ := Schnorr.getE_ok hq0 m hrb
  obtain ⟨e', sb, c', h', p'⟩ := schnorrPhase4 (d := d) hk m hq R
  have hsr : r = (coords (k • G)).1 ∧ s = (Schnorr.getK (coords (k • G)).2 k + e * d) % N := by
    rw [hrn, er, Res.ok_bind, baseMult_coords, hdb, Res.ok_bind, ee, Res.ok_bind] at hs
    have hs := Res.ok.inj hs
    rw [Prod.mk.injEq] at hs
    rw [hrn]
    exact ⟨hs.1.symm, hs.2.symm⟩
  have b : ((beNat sb : ℕ) : ZMod N) = Schnorr.getK R.y k + e' * d := by
    rw [← Int.cast_natCast, h'.2, Ecdsa.mod_N]; push_cast; rfl
  have bs : (s : ZMod N) = Schnorr.getK (coords (k • G)).2 k + e * d := by
    rw [hsr.2, Ecdsa.mod_N]; push_cast; rfl
  have gp : ∀ y : ℤ, Residue y → ((Schnorr.getK y k : ℤ) : ZMod N) = k := fun y hy => by
    unfold Schnorr.getK; rw [if_pos ((Schnorr.jacobi_iff _).mpr hy), Int.cast_natCast]
  have gm : ∀ y : ℤ, ¬ Residue y → ((Schnorr.getK y k : ℤ) : ZMod N) = -k := fun y hy => by
    unfold Schnorr.getK
    rw [if_neg (fun h => hy ((Schnorr.jacobi_iff _).mp h)), Int.cast_sub, Int.cast_natCast, Int.cast_natCast, ZMod.natCast_self,
      zero_sub]
  refine ⟨e, e', _, _, _, sb, by rw [hsr.1, hrn]; exact hch, by rw [hsr.1]; exact c', hp, p', fun hres => ?_, fun hres => ?_⟩
  · change (Residue (coords (k • G)).2 ↔ Residue R.y) at hres
    rw [b, bs]
    by_cases hy : Residue R.y
    · rw [gp _ hy, gp _ (hres.mpr hy)]; ring
    · rw [gm _ hy, gm _ (fun h => hy (hres.mp h))]; ring
  · change ¬ (Residue (coords (k • G)).2 ↔ Residue R.y) at hres
    rw [b, bs]
    by_cases hy : Residue R.y
    · rw [gp _ hy, gm _ (fun h => hres ⟨fun _ => hy, fun _ => h⟩)]; ring
    · have h1 : Residue (coords (k • G)).2 := by
        by_contra h1
        exact hres ⟨fun h => (h1 h).elim, fun h => (hy h).elim⟩
      rw [gm _ hy, gp _ h1]; ring

/-- **C120**, ECDSA: an ordinary signature (r, s) of a hash has the nonce that phase 2 takes for the same hash. A
counterpart following the protocol learns the private key from the signature and the number m that it decrypts, up to
the sign lost when s is made low: for s or for -s the factor on the left is not 0 modulo N, and everything but d1 is known
to it. -/
theorem C120_ecdsa (fuel d1 d2 : ℕ) (h1 : d1 < 2 ^ 256) (h2 : d2 < 2 ^ 256) (hash : Bytes) (hz : ¬ N ∣ hashNum hash)
    (r s : ℤ) (hs : Ecdsa.sign fuel d1 hash = .ok (r, s)) (w1 w2 : Draw) (g1 : w1.Good) (g2 : w2.Good) (R : Pt) (hR : R ≠ 0)
    (hx : ((coords R).1 * d2 : ZMod N) ≠ (r : ZMod N)) (c : ℤ)
    (hc : encryptKey (Paillier.generateKeyPair w2.p w2.q).1 w2.rnd d2 = .ok c) :
    ∃ party c1 pk1 r1 ct m, (newEcdsaParty (prvOf d1)).phase2 fuel w1.p w1.q w1.rnd hash = .ok (party, c1, pk1, r1) ∧
      party.phase4 (some c) (Paillier.generateKeyPair w2.p w2.q).1 (scalarOf R) = .ok (some ct) ∧
      Paillier.decrypt (Paillier.generateKeyPair w2.p w2.q).2 (some ct) = .ok m ∧
      ∃ t : ℤ, (t = s ∨ t = -s) ∧ ((t * (coords R).1 * d2 - m * r : ℤ) : ZMod N) ≠ 0 ∧
        (((t * (coords R).1 * d2 - m * r) * d1 : ℤ) : ZMod N) = ((hashNum hash * (m - t) : ℤ) : ZMod N) := by
  have := Fact.mk Primes.prime_N
  obtain ⟨k, hn, hk, hw⟩ := Ecdsa.sign_ok hs
  obtain ⟨kinv, hi, k0, kN, ke⟩ := inv_ok hk
  obtain ⟨hr, _, _, hsk⟩ := Ecdsa.signWith_ok hk.1 hk.2 hw
  have big : (2 : ℕ) ^ 256 ≤ 2 ^ 1025 := by decide +kernel
  obtain ⟨c1, hc1, _⟩ := encryptKey_ok (d := d1) g1.1 g1.2.2 (by have := g1.2.1; omega)
  obtain ⟨c2, hc2, ec2⟩ := encryptKey_ok (d := d2) g2.1 g2.2.2 (by have := g2.2.1; omega)
  rw [hc] at hc2
  cases hc2
  have p2 := phase2_ok hi (prvOf d1) hash (p := w1.p) (q := w1.q) (rnd := w1.rnd) hc1
  obtain ⟨ct, hct, ect⟩ := phase4_ok (prv := prvOf d1) (k := k) (kinv := kinv) (hash := hash) (p := w1.p) (q := w1.q) g2.1 ec2 (scalarOf R)
  have w12 := no_wrap (n := w2.p * w2.q) g2.2.1 h2 h1 (hashToInt_lt hash) (coords_on hR).1 ⟨k0, kN⟩
  rw [Ecdsa.hashToInt_eq] at ect w12 hsk
  have hdec := Paillier.decrypt_enc g2.1 ect
  rw [show (scalarOf R).x = (coords R).1 from rfl, show ((prvOf d1).d : ℤ) = (d1 : ℤ) from rfl,
    Int.emod_eq_of_lt w12.1 w12.2] at hdec
  have p2' : (newEcdsaParty (prvOf d1)).phase2 fuel w1.p w1.q w1.rnd hash =
      .ok (ready (prvOf d1) k kinv hash w1.p w1.q, c1, (Paillier.generateKeyPair w1.p w1.q).1, scalarOf (k • G)) := by
    unfold EcdsaParty.phase2
    rw [show (newEcdsaParty (prvOf d1)).prv.d = d1 from rfl, hn]
    exact p2
  refine ⟨_, c1, _, _, ct, _, p2', hct, hdec, ?_⟩
  have a2 : ((hashNum hash : ℕ) : ZMod N) ≠ 0 := by rw [Ne, ZMod.natCast_eq_zero_iff]; exact hz
  have a3 : (kinv : ZMod N) ≠ 0 := by intro h; rw [h, zero_mul] at ke; exact zero_ne_one ke
  have main : ∀ t : ℤ, (t : ZMod N) * k = d1 * r + hashNum hash →
      ((t * (coords R).1 * d2 - ((d2 * d1 * (coords R).1 + hashNum hash) * kinv) * r : ℤ) : ZMod N) ≠ 0 ∧
      (((t * (coords R).1 * d2 - ((d2 * d1 * (coords R).1 + hashNum hash) * kinv) * r) * d1 : ℤ) : ZMod N) =
        ((hashNum hash * (((d2 * d1 * (coords R).1 + hashNum hash) * kinv) - t) : ℤ) : ZMod N) := by
    intro t ht
    have te : (t : ZMod N) = kinv * (d1 * r + hashNum hash) := by
      rw [← ht]; linear_combination (-(t : ZMod N)) * ke
    constructor
    · have e : ((t * (coords R).1 * d2 - ((d2 * d1 * (coords R).1 + hashNum hash) * kinv) * r : ℤ) : ZMod N) =
          kinv * hashNum hash * ((coords R).1 * d2 - r) := by
        push_cast; rw [te]; ring
      rw [e]
      exact mul_ne_zero (mul_ne_zero a3 a2) (sub_ne_zero.mpr hx)
    · push_cast; rw [te]; ring
  rcases hsk with h | h
  · exact ⟨s, Or.inl rfl, main s h⟩
  · exact ⟨-s, Or.inr rfl, main (-s) (by push_cast; rw [neg_mul, h, neg_neg])⟩

end

/-- With SHA-256, private key 5 and message `abc`: there is a signature, so for every shared key and point the theorem gives an
equation. -/
example :
    letI := Sha.realHashes
    ∃ r s, Schnorr.sign 5 [0x61, 0x62, 0x63] = .ok (r, s) := by
  let _ := Sha.realHashes
  have h : ((Schnorr.sign 5 [0x61, 0x62, 0x63]) >>= fun _ => Res.ok ()) = .ok () := by decide +kernel
  obtain ⟨⟨r, s⟩, h, _⟩ := Res.bind_eq_ok.mp h
  exact ⟨r, s, h⟩

/-- The hypotheses for ECDSA can be met: private keys 5 and 3, hash 0x07, shared point G, and the nonce 5 of a hash function
with one value. -/
example :
    letI := constHashes
    ∃ (r s : ℤ) (w : Draw) (c : ℤ), Ecdsa.sign 1 5 [7] = .ok (r, s) ∧ ¬ N ∣ hashNum [7] ∧ w.Good ∧
      ((coords G).1 * (3 : ℕ) : ZMod N) ≠ (r : ZMod N) ∧ encryptKey (Paillier.generateKeyPair w.p w.q).1 w.rnd 3 = .ok c := by
  let _ := constHashes
  have h : (do
      let (r, _) ← Ecdsa.sign 1 5 [7]
      if (Gx * 3 - r) % N = 0 then Res.panic else Res.ok ()) = .ok () := by decide +kernel
  obtain ⟨⟨r, s⟩, h, h2⟩ := Res.bind_eq_ok.mp h
  obtain ⟨w, g⟩ := exists_draw
  obtain ⟨c, hc, _⟩ := encryptKey_ok (d := 3) g.1 g.2.2 (lt_of_lt_of_le (by decide +kernel) g.2.1)
  dsimp only at h2
  refine ⟨r, s, w, c, h, by decide +kernel, g, fun e => ?_, hc⟩
  have e2 : ((Gx * 3 - r : ℤ) : ZMod N) = 0 := by
    rw [coords_G] at e
    push_cast at e ⊢
    rw [e, sub_self]
  rw [if_pos (Int.emod_eq_zero_of_dvd ((ZMod.intCast_zmod_eq_zero_iff_dvd _ _).mp e2))] at h2
  cases h2

end Toku.Props
