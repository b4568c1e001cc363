import Verif.Props.MpcSchnorr
/-
Property C90: what phase 4 of the two-party protocols tells the counterpart.
-/
namespace Toku.Props
open Toku Toku.Spec Toku.Curve Toku.Mpc

/-- A party after phase 2 of ECDSA with nonce k and inverse kinv, whatever its Paillier key. -/
noncomputable def signer (d k : ℕ) (kinv : ℤ) (hash : Bytes) (w : Draw) : EcdsaParty := ready (prvOf d) k kinv hash w.p w.q

/-- What a counterpart computes from the number z of the hash, the x coordinate of the shared point and the decrypted
number m. -/
def extract (z x m : ℤ) : ℤ := m / 2 ^ 512 / (x * (m % 2 ^ 512 / z))

/-- **C90.** A counterpart that encrypts 2^512 where its private key is expected learns, from the ciphertext returned by phase
4, the inverse of the nonce and the private key: `extract` returns it. The counterpart chooses the primes and the
randomiser of its Paillier key; the shared point is any finite point; the number of the hash is not 0. -/
theorem C90_one_run (d1 : ℕ) (h1 : d1 < 2 ^ 256) (hash : Bytes) (hz : hashNum hash ≠ 0) (w1 : Draw) (k1 : ℕ) (hk1 : 1 ≤ k1 ∧ k1 < N)
    (kinv1 : ℤ) (hi : Num.modInverse k1 N = some kinv1) (p q rnd : ℕ) (hp : PaillierPrimes p q) (hn : 2 ^ 1281 ≤ p * q)
    (hr : Nat.Coprime rnd (p * q)) (R : Pt) (hR : R ≠ 0) :
    ∃ c ct m, Paillier.encrypt (Paillier.generateKeyPair p q).1 rnd (2 ^ 512) = .ok c ∧
      (signer d1 k1 kinv1 hash w1).phase4 (some c) (Paillier.generateKeyPair p q).1 (scalarOf R) = .ok (some ct) ∧
      Paillier.decrypt (Paillier.generateKeyPair p q).2 (some ct) = .ok m ∧
      m % 2 ^ 512 / hashNum hash = kinv1 ∧ extract (hashNum hash) (coords R).1 m = d1 := by
  have hbig : (2 : ℕ) ^ 512 < p * q := lt_of_lt_of_le (by decide +kernel) hn
  obtain ⟨c, hc, ec⟩ := Paillier.encrypt_enc (Paillier.one_lt hp) hr (m := 2 ^ 512) (by positivity) (by exact_mod_cast hbig)
  have ec' : Paillier.Enc (p * q) c ((2 ^ 512 : ℕ) : ℤ) := by push_cast; exact ec
  obtain ⟨ct, hct, ect⟩ := phase4_ok (prv := prvOf d1) (k := k1) (kinv := kinv1) (hash := hash) (p := w1.p) (q := w1.q) hp ec' (scalarOf R)
  obtain ⟨kinv', hi', k0, kN, ke⟩ := inv_ok hk1
  rw [hi] at hi'
  cases hi'
  have kpos : 0 < kinv1 := by
    rcases lt_or_eq_of_le k0 with h | h
    · exact h
    · rw [← h, Int.cast_zero, zero_mul] at ke; exact absurd ke zero_ne_one
  have hzl := hashToInt_lt hash
  rw [Ecdsa.hashToInt_eq] at ect hzl
  rw [show (scalarOf R).x = (coords R).1 from rfl] at ect
  obtain ⟨x, hx⟩ := Int.eq_ofNat_of_zero_le (coords_on hR).1.1
  have hxP := (coords_on hR).1.2
  have hx0 : x ≠ 0 := by
    rintro rfl
    exact x_ne hR hx
  obtain ⟨κ, rfl⟩ := Int.eq_ofNat_of_zero_le k0
  have hP : P < 2 ^ 256 := by decide +kernel
  have hN : N < 2 ^ 256 := by decide +kernel
  rw [hx] at hxP
  have hxl : x < 2 ^ 256 := by omega
  have hκ : κ < 2 ^ 256 := by omega
  have hκ0 : 0 < κ := by omega
  have hzk : hashNum hash * κ < 2 ^ 512 := by
    calc hashNum hash * κ < 2 ^ 256 * 2 ^ 256 := Nat.mul_lt_mul'' hzl hκ
      _ = 2 ^ 512 := (pow_add 2 256 256).symm
  have hm : (2 ^ 512 * d1 * x + hashNum hash) * κ < p * q := by
    have a1 : 2 ^ 512 * d1 * x ≤ 2 ^ 512 * 2 ^ 256 * 2 ^ 256 := Nat.mul_le_mul (Nat.mul_le_mul_left _ h1.le) hxl.le
    have a2 : (2 ^ 512 * d1 * x + hashNum hash) * κ ≤ (2 ^ 512 * 2 ^ 256 * 2 ^ 256 + 2 ^ 256) * 2 ^ 256 :=
      Nat.mul_le_mul (Nat.add_le_add a1 hzl.le) hκ.le
    have e : ((2 : ℕ) ^ 512 * 2 ^ 256 * 2 ^ 256 + 2 ^ 256) * 2 ^ 256 < 2 ^ 1281 := by decide +kernel
    exact lt_of_le_of_lt a2 (lt_of_lt_of_le e hn)
  have hdec := Paillier.decrypt_enc hp ect
  have heq : (((2 ^ 512 : ℕ) : ℤ) * (prvOf d1).d * (coords R).1 + (hashNum hash : ℕ)) * (κ : ℕ) =
      (((2 ^ 512 * d1 * x + hashNum hash) * κ : ℕ) : ℤ) := by
    rw [hx]; push_cast; rfl
  rw [heq, Int.emod_eq_of_lt (Int.natCast_nonneg _) (Int.ofNat_lt.mpr hm)] at hdec
  have hsplit : (2 ^ 512 * d1 * x + hashNum hash) * κ = hashNum hash * κ + 2 ^ 512 * (d1 * x * κ) := by ring
  have hmod : ((2 ^ 512 * d1 * x + hashNum hash) * κ) % 2 ^ 512 = hashNum hash * κ := by
    rw [hsplit, Nat.add_mul_mod_self_left, Nat.mod_eq_of_lt hzk]
  have hdiv : ((2 ^ 512 * d1 * x + hashNum hash) * κ) / 2 ^ 512 = d1 * x * κ := by
    rw [hsplit, Nat.add_mul_div_left _ _ (by positivity), Nat.div_eq_of_lt hzk, zero_add]
  have hk' : ((2 ^ 512 * d1 * x + hashNum hash) * κ) % 2 ^ 512 / hashNum hash = κ := by
    rw [hmod, Nat.mul_div_cancel_left _ (Nat.pos_of_ne_zero hz)]
  refine ⟨c, ct, _, hc, hct, hdec, by exact_mod_cast hk', ?_⟩
  unfold extract
  rw [hx]
  have : ((2 ^ 512 * d1 * x + hashNum hash) * κ) / 2 ^ 512 /
      (x * (((2 ^ 512 * d1 * x + hashNum hash) * κ) % 2 ^ 512 / hashNum hash)) = d1 := by
    rw [hk', hdiv, Nat.mul_assoc, Nat.mul_div_cancel _ (Nat.mul_pos (Nat.pos_of_ne_zero hx0) hκ0)]
  exact_mod_cast this

/-- **C90.** The nonce of the code is a function of the private key and the hash. A counterpart following the protocol in two
runs for the same hash, with shared points of different x coordinate, learns the private key from the two decrypted
numbers m and m': the factor on the left is not 0 modulo N, and everything but d1 is known to it. -/
theorem C90_two_runs (d1 d2 : ℕ) (h1 : d1 < 2 ^ 256) (h2 : d2 < 2 ^ 256) (hd2 : ¬ N ∣ d2) (hash : Bytes) (hz : ¬ N ∣ hashNum hash)
    (w1 w1' w2 w2' : Draw) (g2 : w2.Good) (g2' : w2'.Good) (k1 : ℕ) (hk1 : 1 ≤ k1 ∧ k1 < N)
    (kinv1 : ℤ) (hi : Num.modInverse k1 N = some kinv1) (R R' : Pt) (hR : R ≠ 0) (hR' : R' ≠ 0)
    (hx : (((coords R).1 : ℤ) : ZMod N) ≠ (coords R').1) (c c' : ℤ)
    (hc : encryptKey (Paillier.generateKeyPair w2.p w2.q).1 w2.rnd d2 = .ok c)
    (hc' : encryptKey (Paillier.generateKeyPair w2'.p w2'.q).1 w2'.rnd d2 = .ok c') :
    ∃ ct ct' m m',
      (signer d1 k1 kinv1 hash w1).phase4 (some c) (Paillier.generateKeyPair w2.p w2.q).1 (scalarOf R) = .ok (some ct) ∧
      (signer d1 k1 kinv1 hash w1').phase4 (some c') (Paillier.generateKeyPair w2'.p w2'.q).1 (scalarOf R') = .ok (some ct') ∧
      Paillier.decrypt (Paillier.generateKeyPair w2.p w2.q).2 (some ct) = .ok m ∧
      Paillier.decrypt (Paillier.generateKeyPair w2'.p w2'.q).2 (some ct') = .ok m' ∧
      ((d2 * ((coords R').1 * m - (coords R).1 * m') : ℤ) : ZMod N) ≠ 0 ∧
      ((d2 * ((coords R').1 * m - (coords R).1 * m') * d1 : ℤ) : ZMod N) = ((hashNum hash * (m' - m) : ℤ) : ZMod N) := by
  obtain ⟨kinv', hi', k0, kN, ke⟩ := inv_ok hk1
  rw [hi] at hi'
  cases hi'
  have big : (2 : ℕ) ^ 256 ≤ 2 ^ 1025 := by decide +kernel
  have run : ∀ (w v : Draw) (g : v.Good) (c : ℤ) (R : Pt) (_ : R ≠ 0)
      (_ : encryptKey (Paillier.generateKeyPair v.p v.q).1 v.rnd d2 = .ok c), ∃ ct,
      (signer d1 k1 kinv1 hash w).phase4 (some c) (Paillier.generateKeyPair v.p v.q).1 (scalarOf R) = .ok (some ct) ∧
      Paillier.decrypt (Paillier.generateKeyPair v.p v.q).2 (some ct) = .ok ((d2 * d1 * (coords R).1 + hashNum hash) * kinv1) := by
    intro w v g c R hR hc
    obtain ⟨c2, hc2, ec2⟩ := encryptKey_ok (d := d2) g.1 g.2.2 (by have := g.2.1; omega)
    rw [hc] at hc2
    cases hc2
    obtain ⟨ct, hct, ect⟩ := phase4_ok (prv := prvOf d1) (k := k1) (kinv := kinv1) (hash := hash) (p := w.p) (q := w.q) g.1 ec2 (scalarOf R)
    refine ⟨ct, hct, ?_⟩
    have w12 := no_wrap (n := v.p * v.q) g.2.1 h2 h1 (hashToInt_lt hash) (coords_on hR).1 ⟨k0, kN⟩
    rw [Ecdsa.hashToInt_eq] at ect w12
    have hdec := Paillier.decrypt_enc g.1 ect
    rw [show (scalarOf R).x = (coords R).1 from rfl, show ((prvOf d1).d : ℤ) = (d1 : ℤ) from rfl,
      Int.emod_eq_of_lt w12.1 w12.2] at hdec
    exact hdec
  obtain ⟨ct, hct, hd⟩ := run w1 w2 g2 c R hR hc
  obtain ⟨ct', hct', hd'⟩ := run w1' w2' g2' c' R' hR' hc'
  refine ⟨ct, ct', _, _, hct, hct', hd, hd', ?_, ?_⟩
  · have e : ((d2 * ((coords R').1 * ((d2 * d1 * (coords R).1 + hashNum hash) * kinv1) -
        (coords R).1 * ((d2 * d1 * (coords R').1 + hashNum hash) * kinv1)) : ℤ) : ZMod N) =
        d2 * hashNum hash * kinv1 * ((((coords R').1 : ℤ) : ZMod N) - ((coords R).1 : ℤ)) := by
      push_cast; ring
    rw [e]
    have a1 : ((d2 : ℕ) : ZMod N) ≠ 0 := by rw [Ne, ZMod.natCast_eq_zero_iff]; exact hd2
    have a2 : ((hashNum hash : ℕ) : ZMod N) ≠ 0 := by rw [Ne, ZMod.natCast_eq_zero_iff]; exact hz
    have a3 : (kinv1 : ZMod N) ≠ 0 := by intro h; rw [h, zero_mul] at ke; exact zero_ne_one ke
    exact mul_ne_zero (mul_ne_zero (mul_ne_zero a1 a2) a3) (sub_ne_zero.mpr hx.symm)
  · push_cast; ring

section
variable [Hashes]

/-- **C90**, the nonce: two runs of phase 2 for the same hash use the same nonce, whatever the random numbers drawn. -/
theorem C90_same_nonce (fuel : ℕ) (prv : Keys.PrvKey) (hash : Bytes) (w w' : Draw) (o o' : EcdsaParty × ℤ × Paillier.PubKey × Scalar)
    (h : (newEcdsaParty prv).phase2 fuel w.p w.q w.rnd hash = .ok o)
    (h' : (newEcdsaParty prv).phase2 fuel w'.p w'.q w'.rnd hash = .ok o') :
    o.1.k = o'.1.k ∧ o.1.kinv = o'.1.kinv ∧ o.2.2.2 = o'.2.2.2 := by
  unfold EcdsaParty.phase2 at h h'
  cases hn : Ecdsa.nonce N fuel (newEcdsaParty prv).prv.d hash with
  | none => rw [hn] at h; cases h
  | some k =>
    rw [hn] at h h'
    dsimp only at h h'
    unfold EcdsaParty.phase2With at h h'
    obtain ⟨_, _, h⟩ := Res.bind_eq_ok.mp h
    obtain ⟨_, _, h'⟩ := Res.bind_eq_ok.mp h'
    obtain ⟨⟨x, y⟩, e, h⟩ := Res.bind_eq_ok.mp h
    obtain ⟨⟨x', y'⟩, e', h'⟩ := Res.bind_eq_ok.mp h'
    rw [e] at e'
    cases e'
    cases h
    cases h'
    exact ⟨rfl, rfl, rfl⟩

/-- **C90**, Schnorr: in two runs for the same message with different shared keys (points with residues for y), the
difference of the two numbers of phase 4 is the private key times the difference of the known challenges. -/
theorem C90_schnorr (d k : ℕ) (hk : 1 ≤ k ∧ k < N) (hash : Bytes) (q q' : Pt) (hq : q ≠ 0) (hq' : q' ≠ 0) (R R' : Scalar)
    (hR : Residue R.y) (hR' : Residue R'.y) :
    ∃ e e' s s' party party', Challenge q hash (coords (k • G)).1 e ∧ Challenge q' hash (coords (k • G)).1 e' ∧
      (prepared d k hash).phase4 (keyOf q) R = .ok (party, s) ∧ (prepared d k hash).phase4 (keyOf q') R' = .ok (party', s') ∧
      ((beNat s : ZMod N) - beNat s' = ((e : ZMod N) - e') * d) := by
  obtain ⟨e, s, c, h, p⟩ := schnorrPhase4 (d := d) hk hash hq R
  obtain ⟨e', s', c', h', p'⟩ := schnorrPhase4 (d := d) hk hash hq' R'
  refine ⟨e, e', s, s', _, _, c, c', p, p', ?_⟩
  have g : ∀ y : ℤ, Residue y → Schnorr.getK y k = k := fun y hy => by
    unfold Schnorr.getK; rw [if_pos ((Schnorr.jacobi_iff _).mpr hy)]
  rw [g _ hR] at h
  rw [g _ hR'] at h'
  have b : ((beNat s : ℕ) : ZMod N) = k + e * d := by
    rw [← Int.cast_natCast, h.2, Ecdsa.mod_N]; push_cast; rfl
  have b' : ((beNat s' : ℕ) : ZMod N) = k + e' * d := by
    rw [← Int.cast_natCast, h'.2, Ecdsa.mod_N]; push_cast; rfl
  rw [b, b']
  ring

end

/-- The hypotheses of the attack can be met: private key 12345, nonce 1, hash 0x07, shared point G. -/
example : ∃ (w : Draw) (c ct m : ℤ), Paillier.encrypt (Paillier.generateKeyPair w.p w.q).1 w.rnd (2 ^ 512) = .ok c ∧
    (signer 12345 1 1 [7] w).phase4 (some c) (Paillier.generateKeyPair w.p w.q).1 (scalarOf G) = .ok (some ct) ∧
    Paillier.decrypt (Paillier.generateKeyPair w.p w.q).2 (some ct) = .ok m ∧ extract 7 (coords G).1 m = 12345 := by
  obtain ⟨w, g, hb⟩ := exists_draw_big
  have hz : hashNum [7] = 7 := by decide +kernel
  obtain ⟨c, ct, m, a1, a2, a3, _, a5⟩ := C90_one_run 12345 (by norm_num) [7] (by rw [hz]; norm_num) w 1 (by decide +kernel) 1
    (by decide +kernel) w.p w.q w.rnd g.1 hb g.2.2 G G_ne
  rw [hz] at a5
  exact ⟨w, c, ct, m, a1, a2, a3, a5⟩

end Toku.Props
