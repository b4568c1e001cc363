import Mathlib.NumberTheory.Bertrand
import Verif.Proof.Mpc
import Verif.Proof.DerSpec
import Verif.Props.Ecdsa
/-
Properties C70 and C72: two-party ECDSA and the scriptless exchange. The Paillier primes, the randomisers and the nonces
are arguments; in the last theorems the nonces are those of the code.
-/
namespace Toku.Props
open Toku Toku.Spec Toku.Curve Toku.Mpc

/-- What a party draws at random: the primes of its Paillier key and the randomiser for its encrypted private key. -/
structure Draw where
  p : ℕ
  q : ℕ
  rnd : ℕ

/-- Primes as required, with a product of 1026 bits at least (the code has 2048 bits), and a randomiser coprime to it. -/
def Draw.Good (w : Draw) : Prop := PaillierPrimes w.p w.q ∧ 2 ^ 1025 ≤ w.p * w.q ∧ Nat.Coprime w.rnd (w.p * w.q)

/-- There are such numbers. -/
theorem exists_draw_big : ∃ w : Draw, w.Good ∧ 2 ^ 1281 ≤ w.p * w.q := by
  obtain ⟨p, hp1, hp⟩ := Nat.exists_infinite_primes (2 ^ 700)
  obtain ⟨q, hq, hq1, hq2⟩ := Nat.exists_prime_lt_and_le_two_mul p (by have := hp.pos; omega)
  have h700 : (4 : ℕ) ≤ 2 ^ 700 := by decide +kernel
  have n1 : ¬ p ∣ q - 1 := by
    rintro ⟨k, hk⟩
    have hk2 : k < 2 := by
      by_contra h2
      have : p * 2 ≤ p * k := Nat.mul_le_mul_left p (by omega)
      omega
    have : k = 1 := by
      have : k ≠ 0 := by rintro rfl; omega
      omega
    rw [this, Nat.mul_one] at hk
    rcases hp.eq_two_or_odd with h2 | h2
    · omega
    · rcases hq.eq_two_or_odd with h3 | h3 <;> omega
  have n2 : ¬ q ∣ p - 1 := fun h => by have := Nat.le_of_dvd (by omega) h; omega
  have self : ∀ x : ℕ, x.Prime → ¬ x ∣ x - 1 := fun x hx h => by
    have := Nat.le_of_dvd (by have := hx.one_lt; omega) h
    have := hx.one_lt
    omega
  have hne : p ≠ q := by omega
  have hbig : (2 : ℕ) ^ 1281 ≤ p * q := by
    have : 2 ^ 700 * 2 ^ 700 ≤ p * q := Nat.mul_le_mul hp1 (by omega)
    have h2 : (2 : ℕ) ^ 1281 ≤ 2 ^ 700 * 2 ^ 700 := by decide +kernel
    exact le_trans h2 this
  refine ⟨⟨p, q, 1⟩, ⟨⟨hp, hq, hne, ?_⟩, ?_, Nat.coprime_one_left _⟩, hbig⟩
  · rw [Nat.coprime_mul_iff_left, Nat.coprime_mul_iff_right, Nat.coprime_mul_iff_right, hp.coprime_iff_not_dvd,
      hp.coprime_iff_not_dvd, hq.coprime_iff_not_dvd, hq.coprime_iff_not_dvd]
    exact ⟨⟨self p hp, n1⟩, n2, self q hq⟩
  · exact le_trans (by decide +kernel) hbig

theorem exists_draw : ∃ w : Draw, w.Good := by
  obtain ⟨w, h, _⟩ := exists_draw_big
  exact ⟨w, h⟩

/-- What both sides hold at the end: the shared public keys, the shared points, the signatures. -/
structure Outcome where
  pub1 : Keys.PubKey
  pub2 : Keys.PubKey
  R1 : Scalar
  R2 : Scalar
  sig1 : Bytes
  sig2 : Bytes

/-- The result of Phase2. -/
abbrev Phase2 := Res (EcdsaParty × ℤ × Paillier.PubKey × Scalar)

/-- Two parties run phases 1 to 5, exchanging public keys, encrypted keys, points and ciphertexts, as in
xcrypto/mpc_ecdsa_test.go. -/
def exchange (party1 party2 : EcdsaParty) (phase2a phase2b : Phase2) : Res Outcome := do
  let pub1 ← party1.phase1 party2.prv.pub
  let pub2 ← party2.phase1 party1.prv.pub
  let (party1, encpk1, encpub1, r1) ← phase2a
  let (party2, encpk2, encpub2, r2) ← phase2b
  let R1 ← party1.phase3 r2
  let R2 ← party2.phase3 r1
  let ct1 ← party1.phase4 (some encpk2) encpub2 R1
  let ct2 ← party2.phase4 (some encpk1) encpub1 R2
  let sig1 ← party1.phase5 R1 ct2
  let sig2 ← party2.phase5 R2 ct1
  return ⟨pub1, pub2, R1, R2, sig1, sig2⟩

/-- The exchange with given nonces. -/
def exchangeWith (prv1 prv2 : Keys.PrvKey) (hash : Bytes) (w1 w2 : Draw) (k1 k2 : ℕ) : Res Outcome :=
  exchange (newEcdsaParty prv1) (newEcdsaParty prv2)
    ((newEcdsaParty prv1).phase2With k1 w1.p w1.q w1.rnd hash) ((newEcdsaParty prv2).phase2With k2 w2.p w2.q w2.rnd hash)

/-- The exchange with the nonces of the code. -/
def exchangeRfc [Hashes] (fuel : ℕ) (prv1 prv2 : Keys.PrvKey) (hash : Bytes) (w1 w2 : Draw) : Res Outcome :=
  exchange (newEcdsaParty prv1) (newEcdsaParty prv2)
    ((newEcdsaParty prv1).phase2 fuel w1.p w1.q w1.rnd hash) ((newEcdsaParty prv2).phase2 fuel w2.p w2.q w2.rnd hash)

/-- A private key as made from bytes. -/
def prvOf (d : ℕ) : Keys.PrvKey := ⟨keyOf (d • G), d⟩

/-- Every private key made from bytes is one of those. -/
theorem prvOf_bytes (key : Bytes) (prv : Keys.PrvKey) (h : Keys.prvFromBytes key = .ok prv) : prv = prvOf (beNat key) := by
  rw [C61_prvFromBytes] at h
  cases h
  rfl

theorem phase1_ok (d1 d2 : ℕ) : (newEcdsaParty (prvOf d1)).phase1 (prvOf d2).pub = .ok (keyOf ((d1 * d2) • G)) := by
  unfold EcdsaParty.phase1 newEcdsaParty prvOf keyOf
  dsimp only
  rw [mult_coords, natOfBE_natToBE, smul_smul, Res.ok_bind]
  generalize coords ((d1 * d2) • G) = c
  obtain ⟨x, y⟩ := c
  rfl

theorem prod_not_dvd {a b : ℕ} (ha : 1 ≤ a ∧ a < N) (hb : 1 ≤ b ∧ b < N) : ¬ N ∣ a * b := by
  intro hd
  rcases (Nat.Prime.dvd_mul Primes.prime_N).mp hd with h | h
  · exact Nat.not_dvd_of_pos_of_lt ha.1 ha.2 h
  · exact Nat.not_dvd_of_pos_of_lt hb.1 hb.2 h

theorem prod_range {a b : ℕ} (ha : 1 ≤ a ∧ a < N) (hb : 1 ≤ b ∧ b < N) : 1 ≤ a * b % N ∧ a * b % N < N := by
  refine ⟨?_, Nat.mod_lt _ (by decide +kernel)⟩
  rw [Nat.one_le_iff_ne_zero]
  exact fun h0 => prod_not_dvd ha hb (Nat.dvd_of_mod_eq_zero h0)

/-- Numbers r and s made by signing, in DER, are accepted. -/
theorem accepted {k d : ℕ} (hk : 1 ≤ k ∧ k < N) {hash : Bytes} {r s : ℤ} (hs : Ecdsa.signWith k (d % N) hash = .ok (r, s)) :
    Ecdsa.ecdsaVerify (keyOf (d • G)) hash (Der.marshal r s) = .ok () := by
  have hv := (C62_sign_any_nonce _ (d % N) hk hash r s hs).1
  have hkG : (d % N) • G = d • G := Ecdsa.smul_eq (ZMod.natCast_mod _ _)
  rw [hkG] at hv
  obtain ⟨_, hr, hss, _⟩ := Ecdsa.signWith_ok hk.1 hk.2 hs
  have hN1 : (N : ℤ) < 128 * 256 ^ 32 := by decide +kernel
  have hN2 : ((N / 2 : ℕ) : ℤ) < 128 * 256 ^ 31 := by decide +kernel
  have hlen := Der.marshal_length (Der.intContent_length (k := 32) (by omega : 0 ≤ r) (by omega))
    (Der.intContent_length (k := 31) (by omega : 0 ≤ s) (by omega)) (by omega)
  have h31 : (Der.marshal r s).length < 2 ^ 31 := by omega
  unfold Ecdsa.ecdsaVerify
  rw [C65_round_trip r s h31, Res.ok_bind]
  dsimp only
  rw [hv, Res.ok_bind]
  rfl

/-- The whole exchange. -/
theorem exchange_eq {d1 d2 : ℕ} (h1 : d1 < 2 ^ 256) (h2 : d2 < 2 ^ 256) (hash : Bytes) {w1 w2 : Draw} (g1 : w1.Good) (g2 : w2.Good)
    {k1 k2 : ℕ} (hk1 : 1 ≤ k1 ∧ k1 < N) (hk2 : 1 ≤ k2 ∧ k2 < N) :
    ∃ kinv1 kinv2 : ℤ, (kinv1 : ZMod N) * k1 = 1 ∧ (kinv2 : ZMod N) * k2 = 1 ∧
      exchangeWith (prvOf d1) (prvOf d2) hash w1 w2 k1 k2 =
        (finish (scalarOf ((k1 * k2) • G)) (jointS d1 d2 (coords ((k1 * k2) • G)).1 hash kinv1 kinv2) >>= fun sig =>
          .ok ⟨keyOf ((d1 * d2) • G), keyOf ((d1 * d2) • G), scalarOf ((k1 * k2) • G), scalarOf ((k1 * k2) • G), sig, sig⟩) := by
  obtain ⟨kinv1, i1, a0, a1, e1⟩ := inv_ok hk1
  obtain ⟨kinv2, i2, b0, b1, e2⟩ := inv_ok hk2
  refine ⟨kinv1, kinv2, e1, e2, ?_⟩
  have big : (2 : ℕ) ^ 256 ≤ 2 ^ 1025 := by decide +kernel
  have l1 : d1 < w1.p * w1.q := by have := g1.2.1; omega
  have l2 : d2 < w2.p * w2.q := by have := g2.2.1; omega
  obtain ⟨c1, hc1, ec1⟩ := encryptKey_ok (d := d1) g1.1 g1.2.2 l1
  obtain ⟨c2, hc2, ec2⟩ := encryptKey_ok (d := d2) g2.1 g2.2.2 l2
  have p1 := phase2_ok i1 (prvOf d1) hash hc1
  have p2 := phase2_ok i2 (prvOf d2) hash hc2
  obtain ⟨ct1, hct1, ect1⟩ := phase4_ok (prv := prvOf d1) (k := k1) (kinv := kinv1) (hash := hash) (p := w1.p) (q := w1.q)
    g2.1 ec2 (scalarOf (k1 • (k2 • G)))
  obtain ⟨ct2, hct2, ect2⟩ := phase4_ok (prv := prvOf d2) (k := k2) (kinv := kinv2) (hash := hash) (p := w2.p) (q := w2.q)
    g1.1 ec1 (scalarOf (k2 • (k1 • G)))
  have hkk := prod_not_dvd hk1 hk2
  have hR : (k1 * k2) • G ≠ 0 := fun h => hkk ((smul_zero_iff G_ne _).mp h)
  have hX := (coords_on hR).1
  have hz := hashToInt_lt hash
  have s12 : k1 • (k2 • G) = (k1 * k2) • G := smul_smul _ _ _
  have s21 : k2 • (k1 • G) = (k1 * k2) • G := by rw [smul_smul, Nat.mul_comm]
  rw [s12] at hct1 ect1
  rw [s21] at hct2 ect2
  have hxe : (scalarOf ((k1 * k2) • G)).x = (coords ((k1 * k2) • G)).1 := rfl
  rw [hxe] at ect1 ect2
  have w12 := no_wrap (n := w2.p * w2.q) g2.2.1 h2 h1 hz hX ⟨a0, a1⟩
  have w21 := no_wrap (n := w1.p * w1.q) g1.2.1 h1 h2 hz hX ⟨b0, b1⟩
  have ps1 := partialS_ok (prv := prvOf d1) (k := k1) (kinv := kinv1) (hash := hash) g1.1 ect2 w21.1 w21.2
  have ps2 := partialS_ok (prv := prvOf d2) (k := k2) (kinv := kinv2) (hash := hash) g2.1 ect1 w12.1 w12.2
  have j1 : (((d1 : ℤ) * (prvOf d2).d * (coords ((k1 * k2) • G)).1 + Ecdsa.hashToInt hash) * kinv2 * kinv1) % N =
      jointS d1 d2 (coords ((k1 * k2) • G)).1 hash kinv1 kinv2 := by
    unfold jointS prvOf; congr 1; ring
  have j2 : (((d2 : ℤ) * (prvOf d1).d * (coords ((k1 * k2) • G)).1 + Ecdsa.hashToInt hash) * kinv1 * kinv2) % N =
      jointS d1 d2 (coords ((k1 * k2) • G)).1 hash kinv1 kinv2 := by
    unfold jointS prvOf; congr 1; ring
  rw [j1] at ps1
  rw [j2] at ps2
  unfold exchangeWith exchange
  have q1 : (newEcdsaParty (prvOf d1)).phase1 (newEcdsaParty (prvOf d2)).prv.pub = .ok (keyOf ((d1 * d2) • G)) := phase1_ok d1 d2
  have q2 : (newEcdsaParty (prvOf d2)).phase1 (newEcdsaParty (prvOf d1)).prv.pub = .ok (keyOf ((d1 * d2) • G)) := by
    rw [Nat.mul_comm]; exact phase1_ok d2 d1
  rw [q1, Res.ok_bind, q2, Res.ok_bind, p1, Res.ok_bind]
  dsimp only
  rw [p2, Res.ok_bind]
  dsimp only
  rw [phase3_ok, Res.ok_bind, phase3_ok, Res.ok_bind, s12, s21, hct1, Res.ok_bind, hct2, Res.ok_bind]
  unfold EcdsaParty.phase5
  rw [ps1, ps2]
  simp only [Res.ok_bind]
  cases finish (scalarOf ((k1 * k2) • G)) (jointS d1 d2 (coords ((k1 * k2) • G)).1 hash kinv1 kinv2) <;> rfl

section
variable (d1 d2 : ℕ) (h1 : d1 < 2 ^ 256) (h2 : d2 < 2 ^ 256) (hash : Bytes) (w1 w2 : Draw) (g1 : w1.Good) (g2 : w2.Good)
variable (k1 k2 : ℕ) (hk1 : 1 ≤ k1 ∧ k1 < N) (hk2 : 1 ≤ k2 ∧ k2 < N)
include h1 h2 g1 g2 hk1 hk2

/-- **C70.** When the exchange ends both parties hold the same public key, the same point and the same signature; the key
is that of the product of the private keys, the point that of the product of the nonces. -/
theorem C70_agree (o : Outcome) (h : exchangeWith (prvOf d1) (prvOf d2) hash w1 w2 k1 k2 = .ok o) :
    o.pub1 = keyOf ((d1 * d2) • G) ∧ o.pub2 = o.pub1 ∧ o.R1 = scalarOf ((k1 * k2) • G) ∧ o.R2 = o.R1 ∧ o.sig1 = o.sig2 := by
  obtain ⟨kinv1, kinv2, _, _, e⟩ := exchange_eq h1 h2 hash g1 g2 hk1 hk2
  rw [e] at h
  obtain ⟨sig, _, h⟩ := Res.bind_eq_ok.mp h
  cases h
  exact ⟨rfl, rfl, rfl, rfl, rfl⟩

/-- **C70 (partial).** Full statement: without the hypothesis that the x coordinate of the shared point is below N.
Proved: then the exchange is signing with the product of the private keys and the product of the nonces. -/
theorem C70_single_partial (hx : (coords ((k1 * k2) • G)).1 < N) :
    exchangeWith (prvOf d1) (prvOf d2) hash w1 w2 k1 k2 =
      (Ecdsa.signWith (k1 * k2 % N) (d1 * d2 % N) hash >>= fun rs =>
        .ok ⟨keyOf ((d1 * d2) • G), keyOf ((d1 * d2) • G), scalarOf ((k1 * k2) • G), scalarOf ((k1 * k2) • G),
          Der.marshal rs.1 rs.2, Der.marshal rs.1 rs.2⟩) := by
  obtain ⟨kinv1, kinv2, e1, e2, e⟩ := exchange_eq h1 h2 hash g1 g2 hk1 hk2
  have hkG : (k1 * k2 % N) • G = (k1 * k2) • G := Ecdsa.smul_eq (ZMod.natCast_mod _ _)
  have := finish_single (d := d1 * d2) (prod_range hk1 hk2) hash
    (jointS_range d1 d2 (coords ((k1 * k2) • G)).1 hash kinv1 kinv2) (by rw [hkG]; exact hx) (by
      rw [hkG, jointS_cast, ZMod.natCast_mod]
      push_cast
      linear_combination ((d1 : ZMod N) * d2 * ((coords ((k1 * k2) • G)).1 : ZMod N) + Ecdsa.hashToInt hash) *
        (kinv2 * k2 * e1 + e2))
  rw [hkG] at this
  rw [e, this]
  cases Ecdsa.signWith (k1 * k2 % N) (d1 * d2 % N) hash <;> rfl

/-- **C70 (partial).** Full statement: without the hypothesis that the x coordinate of the shared point is below N.
Proved: then the signature is accepted for the hash under the shared public key. -/
theorem C70_verifies_partial (hx : (coords ((k1 * k2) • G)).1 < N) (o : Outcome)
    (h : exchangeWith (prvOf d1) (prvOf d2) hash w1 w2 k1 k2 = .ok o) :
    Ecdsa.ecdsaVerify o.pub1 hash o.sig1 = .ok () ∧ Ecdsa.ecdsaVerify o.pub2 hash o.sig2 = .ok () := by
  rw [C70_single_partial d1 d2 h1 h2 hash w1 w2 g1 g2 k1 k2 hk1 hk2 hx] at h
  obtain ⟨⟨r, s⟩, hs, h⟩ := Res.bind_eq_ok.mp h
  cases h
  have := accepted (d := d1 * d2) (prod_range hk1 hk2) hs
  exact ⟨this, this⟩

/-- **C70.** The exchange ends with a result, unless the number s would be 0; then both parties report it. -/
theorem C70_completes :
    (∃ o, exchangeWith (prvOf d1) (prvOf d2) hash w1 w2 k1 k2 = .ok o) ∧
      ¬ (hashNum hash + (d1 * d2) * (coords ((k1 * k2) • G)).1) % N = 0 ∨
    exchangeWith (prvOf d1) (prvOf d2) hash w1 w2 k1 k2 = .err Ecdsa.errSZero ∧
      (hashNum hash + (d1 * d2) * (coords ((k1 * k2) • G)).1) % N = 0 := by
  obtain ⟨kinv1, kinv2, e1, e2, e⟩ := exchange_eq h1 h2 hash g1 g2 hk1 hk2
  have hz : jointS d1 d2 (coords ((k1 * k2) • G)).1 hash kinv1 kinv2 = 0 ↔
      (hashNum hash + (d1 * d2) * (coords ((k1 * k2) • G)).1) % N = 0 := by
    rw [← cast_zero_iff (p := N) (jointS_range _ _ _ _ _ _), mod_zero_iff, jointS_cast, Ecdsa.hashToInt_eq]
    push_cast
    have n1 : (kinv1 : ZMod N) ≠ 0 := by intro h; rw [h, zero_mul] at e1; exact zero_ne_one e1
    have n2 : (kinv2 : ZMod N) ≠ 0 := by intro h; rw [h, zero_mul] at e2; exact zero_ne_one e2
    rw [mul_eq_zero, mul_eq_zero, or_iff_left n2, or_iff_left n1, add_comm]
  rw [e, ← hz]
  rcases finish_eq (scalarOf ((k1 * k2) • G)) (jointS_range d1 d2 (coords ((k1 * k2) • G)).1 hash kinv1 kinv2) with ⟨h, hf⟩ | ⟨h, hf⟩
  · right; rw [hf]; exact ⟨rfl, h⟩
  · left; rw [hf]; exact ⟨⟨_, rfl⟩, h⟩

end

/-- A number r of N or above is refused. -/
theorem refused {q : Pt} {hash : Bytes} {r s : ℤ} (hr : N ≤ r) (hr2 : r < P) (hs : 0 ≤ s ∧ s < N) :
    Ecdsa.ecdsaVerify (keyOf q) hash (Der.marshal r s) = .err Ecdsa.errVerify := by
  have hN1 : (N : ℤ) < 128 * 256 ^ 32 := by decide +kernel
  have hP1 : (P : ℤ) < 128 * 256 ^ 32 := by decide +kernel
  have hlen := Der.marshal_length (Der.intContent_length (k := 32) (by omega : 0 ≤ r) (by omega))
    (Der.intContent_length (k := 32) (by omega : 0 ≤ s) (by omega)) (by omega)
  have h31 : (Der.marshal r s).length < 2 ^ 31 := by omega
  unfold Ecdsa.ecdsaVerify
  rw [C65_round_trip r s h31, Res.ok_bind]
  dsimp only
  unfold Ecdsa.verify
  split
  · rfl
  · rw [if_pos (Or.inl hr)]; rfl

/-- The x coordinate of a shared point can be N or more: here N + 2. -/
theorem exists_high : ∃ k, (1 ≤ k ∧ k < N) ∧ (coords (k • G)).1 = N + 2 := by
  obtain ⟨q, hq, hc⟩ := exists_coords (x := N + 2) (y := 0x36b1aa62eb77c1973025cbcbea9740eed8eacdab8772268b395064453269d1d3)
    (by decide +kernel) (by decide +kernel) (by decide +kernel)
  obtain ⟨k, hk, rfl⟩ := exists_smul q
  refine ⟨k, ⟨?_, hk⟩, by rw [hc]⟩
  rcases Nat.eq_zero_or_pos k with h | h
  · rw [h, zero_nsmul] at hq; exact absurd rfl hq
  · exact h

/-- **C70**, the full statement fails: r is the x coordinate itself, not its remainder modulo N. Whatever the Paillier
keys, there are nonces for which the exchange ends, both parties holding a signature that is refused. -/
theorem C70_negation (w1 w2 : Draw) (g1 : w1.Good) (g2 : w2.Good) :
    ∃ k1 k2 : ℕ, (1 ≤ k1 ∧ k1 < N) ∧ (1 ≤ k2 ∧ k2 < N) ∧ ∃ o, exchangeWith (prvOf 1) (prvOf 1) [] w1 w2 k1 k2 = .ok o ∧
      Ecdsa.ecdsaVerify o.pub1 [] o.sig1 = .err Ecdsa.errVerify := by
  obtain ⟨k, hk, hx⟩ := exists_high
  have hone : 1 ≤ 1 ∧ 1 < N := by decide +kernel
  refine ⟨k, 1, hk, hone, ?_⟩
  obtain ⟨kinv1, kinv2, e1, e2, e⟩ := exchange_eq (d1 := 1) (d2 := 1) (by norm_num) (by norm_num) [] g1 g2 hk hone
  rcases C70_completes 1 1 (by norm_num) (by norm_num) [] w1 w2 g1 g2 k 1 hk hone with ⟨⟨o, ho⟩, _⟩ | ⟨_, h0⟩
  · refine ⟨o, ho, ?_⟩
    rw [e] at ho
    obtain ⟨sig, hf, ho⟩ := Res.bind_eq_ok.mp ho
    cases ho
    have hr := jointS_range 1 1 (coords ((k * 1) • G)).1 [] kinv1 kinv2
    rcases finish_eq (scalarOf ((k * 1) • G)) hr with ⟨_, hf'⟩ | ⟨hne, hf'⟩
    · rw [hf] at hf'; cases hf'
    · rw [hf] at hf'
      cases hf'
      have hxe : (scalarOf ((k * 1) • G)).x = N + 2 := by rw [Nat.mul_one]; exact hx
      rw [hxe]
      refine refused (by omega) (by decide +kernel) ?_
      have h2 : ((N / 2 : ℕ) : ℤ) < N := by decide +kernel
      split <;> omega
  · rw [Nat.mul_one, hx] at h0
    exact absurd h0 (by decide +kernel)

/-- **C70**, with the nonces of the code: when the exchange ends, the parties agree and the signature is accepted, if the
x coordinate of the shared point is below N. -/
theorem C70_rfc_partial [Hashes] (fuel : ℕ) (key1 key2 : Bytes) (l1 : key1.length ≤ 32) (l2 : key2.length ≤ 32) (prv1 prv2 : Keys.PrvKey)
    (hp1 : Keys.prvFromBytes key1 = .ok prv1) (hp2 : Keys.prvFromBytes key2 = .ok prv2) (hash : Bytes) (w1 w2 : Draw)
    (g1 : w1.Good) (g2 : w2.Good) (o : Outcome) (h : exchangeRfc fuel prv1 prv2 hash w1 w2 = .ok o) :
    o.pub1 = o.pub2 ∧ o.R1 = o.R2 ∧ o.sig1 = o.sig2 ∧ (o.R1.x < N → Ecdsa.ecdsaVerify o.pub1 hash o.sig1 = .ok ()) := by
  have b : ∀ k : Bytes, k.length ≤ 32 → beNat k < 2 ^ 256 := by
    intro k hk
    have h1 := natOfBE_lt k
    have h2 : 256 ^ k.length ≤ 256 ^ 32 := Nat.pow_le_pow_right (by norm_num) hk
    have h3 : (256 : ℕ) ^ 32 = 2 ^ 256 := by norm_num
    have : beNat k = natOfBE k := rfl
    omega
  rw [prvOf_bytes _ _ hp1, prvOf_bytes _ _ hp2] at h
  cases n1 : Ecdsa.nonce N fuel (beNat key1) hash with
  | none =>
    unfold exchangeRfc exchange EcdsaParty.phase2 at h
    have q1 := phase1_ok (beNat key1) (beNat key2)
    have q2 := phase1_ok (beNat key2) (beNat key1)
    have e1 : (newEcdsaParty (prvOf (beNat key1))).prv.d = beNat key1 := rfl
    rw [show (newEcdsaParty (prvOf (beNat key2))).prv.pub = (prvOf (beNat key2)).pub from rfl,
      show (newEcdsaParty (prvOf (beNat key1))).prv.pub = (prvOf (beNat key1)).pub from rfl,
      q1, Res.ok_bind, q2, Res.ok_bind, e1, n1] at h
    cases h
  | some k1 =>
    cases n2 : Ecdsa.nonce N fuel (beNat key2) hash with
    | none =>
      unfold exchangeRfc exchange EcdsaParty.phase2 at h
      obtain ⟨_, _, h⟩ := Res.bind_eq_ok.mp h
      obtain ⟨_, _, h⟩ := Res.bind_eq_ok.mp h
      obtain ⟨_, _, h⟩ := Res.bind_eq_ok.mp h
      have e2 : (newEcdsaParty (prvOf (beNat key2))).prv.d = beNat key2 := rfl
      rw [e2, n2] at h
      cases h
    | some k2 =>
      have hk1 := Ecdsa.nonce_range n1
      have hk2 := Ecdsa.nonce_range n2
      have e1 : (newEcdsaParty (prvOf (beNat key1))).prv.d = beNat key1 := rfl
      have e2 : (newEcdsaParty (prvOf (beNat key2))).prv.d = beNat key2 := rfl
      have h' : exchangeWith (prvOf (beNat key1)) (prvOf (beNat key2)) hash w1 w2 k1 k2 = .ok o := by
        unfold exchangeRfc EcdsaParty.phase2 at h
        rw [e1, e2, n1, n2] at h
        exact h
      obtain ⟨_, a2, a3, a4, a5⟩ := C70_agree _ _ (b key1 l1) (b key2 l2) hash w1 w2 g1 g2 k1 k2 hk1 hk2 o h'
      refine ⟨a2.symm, a4.symm, a5, fun hx => ?_⟩
      rw [a3] at hx
      exact (C70_verifies_partial _ _ (b key1 l1) (b key2 l2) hash w1 w2 g1 g2 k1 k2 hk1 hk2 hx o h').1

/-- The hypotheses can be met: with private keys 3 and 5 and nonces 2 and 1 the exchange ends and the signature is
accepted. -/
example : ∃ w1 w2 : Draw, w1.Good ∧ w2.Good ∧ ∃ o, exchangeWith (prvOf 3) (prvOf 5) [0xab] w1 w2 2 1 = .ok o ∧
    Ecdsa.ecdsaVerify o.pub1 [0xab] o.sig1 = .ok () := by
  obtain ⟨w, g⟩ := exists_draw
  have h1 : 1 ≤ 2 ∧ 2 < N := by decide +kernel
  have h2 : 1 ≤ 1 ∧ 1 < N := by decide +kernel
  have hc : (coords ((2 * 1) • G)).1 = 0xc6047f9441ed7d6d3045406e95c07cd85c778e4b8cef3ca7abac09b95c709ee5 := by
    have h := baseMult_coords [2]
    have e : natOfBE [2] = 2 * 1 := by decide
    have h2 : baseMult [2] = .ok (0xc6047f9441ed7d6d3045406e95c07cd85c778e4b8cef3ca7abac09b95c709ee5,
      0x1ae168fea63dc339a3c58419466ceaeef7f632653266d0e1236431a950cfe52a) := by decide +kernel
    rw [h2, e] at h
    rw [← Res.ok.inj h]
  refine ⟨w, w, g, g, ?_⟩
  rcases C70_completes 3 5 (by norm_num) (by norm_num) [0xab] w w g g 2 1 h1 h2 with ⟨⟨o, ho⟩, _⟩ | ⟨_, h0⟩
  · refine ⟨o, ho, (C70_verifies_partial 3 5 (by norm_num) (by norm_num) [0xab] w w g g 2 1 h1 h2 ?_ o ho).1⟩
    rw [hc]; decide +kernel
  · rw [hc] at h0
    exact absurd h0 (by decide +kernel)

end Toku.Props
