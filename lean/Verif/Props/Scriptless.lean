import Verif.Props.Mpc
/-
Property C72: the scriptless exchange.
-/
namespace Toku.Props
open Toku Toku.Spec Toku.Curve Toku.Mpc

/-- What both sides hold after phase 6: the shared public keys and points, the numbers of phase 5, Bob's signature and
the secret recovered by Alice. -/
structure Swap where
  pub1 : Keys.PubKey
  pub2 : Keys.PubKey
  R1 : Scalar
  R2 : Scalar
  aliceS : ℤ
  bobS : ℤ
  sig : Bytes
  secret : ℤ

/-- Alice and Bob run phases 1 to 6, exchanging their outputs, as in xcrypto/scriptless_ecdsa_test.go and
examples/scriptless_ecdsa.go. -/
def swap (alice : EcdsaParty) (bob : EcdsaBob) (phase2a : Phase2) (phase2b : Res (EcdsaBob × ℤ × Paillier.PubKey × Scalar)) :
    Res Swap := do
  let pub1 ← alice.phase1 bob.party.prv.pub
  let pub2 ← bob.party.phase1 alice.prv.pub
  let (alice, encpk1, encpub1, r1) ← phase2a
  let (bob, encpk2, encpub2, r2) ← phase2b
  let R1 ← alice.phase3 r2
  let R2 ← bob.phase3 r1
  let ct1 ← alice.phase4 (some encpk2) encpub2 R1
  let ct2 ← bob.party.phase4 (some encpk1) encpub1 R2
  let aliceS ← alicePhase5 alice ct2
  let bobS ← bob.phase5 ct1
  let secret ← alicePhase6 aliceS bobS
  let sig ← bob.phase6 R2 bobS
  return ⟨pub1, pub2, R1, R2, aliceS, bobS, sig, secret⟩

/-- The exchange with given nonces. -/
def swapWith (prv1 prv2 : Keys.PrvKey) (t : ℕ) (hash : Bytes) (w1 w2 : Draw) (k1 k2 : ℕ) : Res Swap :=
  swap (newEcdsaParty prv1) ⟨t, newEcdsaParty prv2⟩ ((newEcdsaParty prv1).phase2With k1 w1.p w1.q w1.rnd hash)
    (EcdsaBob.phase2From ⟨t, newEcdsaParty prv2⟩ ((newEcdsaParty prv2).phase2With k2 w2.p w2.q w2.rnd hash))

/-- The exchange with the nonces of the code. -/
def swapRfc [Hashes] (fuel : ℕ) (prv1 prv2 : Keys.PrvKey) (t : ℕ) (hash : Bytes) (w1 w2 : Draw) : Res Swap :=
  swap (newEcdsaParty prv1) ⟨t, newEcdsaParty prv2⟩ ((newEcdsaParty prv1).phase2 fuel w1.p w1.q w1.rnd hash)
    ((⟨t, newEcdsaParty prv2⟩ : EcdsaBob).phase2 fuel w2.p w2.q w2.rnd hash)

/-- The whole exchange. -/
theorem swap_eq {d1 d2 : ℕ} (h1 : d1 < 2 ^ 256) (h2 : d2 < 2 ^ 256) (hash : Bytes) {w1 w2 : Draw} (g1 : w1.Good) (g2 : w2.Good)
    {k1 k2 t : ℕ} (hk1 : 1 ≤ k1 ∧ k1 < N) (hk2 : 1 ≤ k2 ∧ k2 < N) (ht : 1 ≤ t ∧ t < N) :
    ∃ kinv1 kinv2 tinv a b : ℤ, (kinv1 : ZMod N) * k1 = 1 ∧ (kinv2 : ZMod N) * k2 = 1 ∧ (tinv : ZMod N) * t = 1 ∧
      (0 ≤ a ∧ a < N) ∧ (0 ≤ b ∧ b < N) ∧
      (a : ZMod N) = (d1 * d2 * (coords ((k1 * k2 % N * t) • G)).1 + Ecdsa.hashToInt hash) * kinv1 * kinv2 ∧
      (b : ZMod N) = a * tinv ∧
      swapWith (prvOf d1) (prvOf d2) t hash w1 w2 k1 k2 =
        (alicePhase6 a b >>= fun secret => finish (scalarOf ((k1 * k2 % N * t) • G)) b >>= fun sig =>
          .ok ⟨keyOf ((d1 * d2) • G), keyOf ((d1 * d2) • G), scalarOf ((k1 * k2 % N * t) • G), scalarOf ((k1 * k2 % N * t) • G),
            a, b, sig, secret⟩) := by
  obtain ⟨kinv1, i1, a0, a1, e1⟩ := inv_ok hk1
  obtain ⟨kinv2, i2, b0, b1, e2⟩ := inv_ok hk2
  obtain ⟨tinv, i3, t0, t1, e3⟩ := inv_ok ht
  have big : (2 : ℕ) ^ 256 ≤ 2 ^ 1025 := by decide +kernel
  have l1 : d1 < w1.p * w1.q := by have := g1.2.1; omega
  have l2 : d2 < w2.p * w2.q := by have := g2.2.1; omega
  obtain ⟨c1, hc1, ec1⟩ := encryptKey_ok (d := d1) g1.1 g1.2.2 l1
  obtain ⟨c2, hc2, ec2⟩ := encryptKey_ok (d := d2) g2.1 g2.2.2 l2
  have p1 := phase2_ok i1 (prvOf d1) hash hc1
  have p2 := phase2_ok i2 (prvOf d2) hash hc2
  have hkk := prod_range hk1 hk2
  have hR : (k1 * k2 % N * t) • G ≠ 0 := fun h => prod_not_dvd hkk ht ((smul_zero_iff G_ne _).mp h)
  have hX := (coords_on hR).1
  have hz := hashToInt_lt hash
  have hR0 : (k1 * k2 % N * t) • G = (k1 * k2 * t) • G := Ecdsa.smul_eq (by push_cast; rw [ZMod.natCast_mod]; push_cast; rfl)
  have s12 : k1 • (t • (k2 • G)) = (k1 * k2 % N * t) • G := by
    rw [hR0, smul_smul, smul_smul]; congr 1; ring
  have s21 : t • (k2 • (k1 • G)) = (k1 * k2 % N * t) • G := by
    rw [hR0, smul_smul, smul_smul]; congr 1; ring
  generalize (k1 * k2 % N * t) • G = R at hR hX s12 s21
  obtain ⟨ct1, hct1, ect1⟩ := phase4_ok (prv := prvOf d1) (k := k1) (kinv := kinv1) (hash := hash) (p := w1.p) (q := w1.q)
    g2.1 ec2 (scalarOf R)
  obtain ⟨ct2, hct2, ect2⟩ := phase4_ok (prv := prvOf d2) (k := k2) (kinv := kinv2) (hash := hash) (p := w2.p) (q := w2.q)
    g1.1 ec1 (scalarOf R)
  have hxe : (scalarOf R).x = (coords R).1 := rfl
  rw [hxe] at ect1 ect2
  have w12 := no_wrap (n := w2.p * w2.q) g2.2.1 h2 h1 hz hX ⟨a0, a1⟩
  have w21 := no_wrap (n := w1.p * w1.q) g1.2.1 h1 h2 hz hX ⟨b0, b1⟩
  have ps1 := partialS_ok (prv := prvOf d1) (k := k1) (kinv := kinv1) (hash := hash) g1.1 ect2 w21.1 w21.2
  have ps2 := bobPhase5_ok i3 (prv := prvOf d2) (k := k2) (kinv := kinv2) (hash := hash) g2.1 ect1 w12.1 w12.2
  obtain ⟨a, pa, ra, ea⟩ : ∃ a : ℤ, (ready (prvOf d1) k1 kinv1 hash w1.p w1.q).partialS (some ct2) = .ok a ∧ (0 ≤ a ∧ a < N) ∧
      (a : ZMod N) = (d1 * d2 * (coords R).1 + Ecdsa.hashToInt hash) * kinv1 * kinv2 := by
    refine ⟨_, ps1, mod_range (p := N) _, ?_⟩
    rw [Ecdsa.mod_N]
    push_cast [prvOf]
    ring
  obtain ⟨b, pb, rb, eb⟩ : ∃ b : ℤ, (⟨t, ready (prvOf d2) k2 kinv2 hash w2.p w2.q⟩ : EcdsaBob).phase5 (some ct1) = .ok b ∧
      (0 ≤ b ∧ b < N) ∧ (b : ZMod N) = a * tinv := by
    refine ⟨_, ps2, mod_range (p := N) _, ?_⟩
    rw [Ecdsa.mod_N, ea]
    push_cast [prvOf]
    ring
  refine ⟨kinv1, kinv2, tinv, a, b, e1, e2, e3, ra, rb, ea, eb, ?_⟩
  have q1 : (newEcdsaParty (prvOf d1)).phase1 (newEcdsaParty (prvOf d2)).prv.pub = .ok (keyOf ((d1 * d2) • G)) := phase1_ok d1 d2
  have q2 : (newEcdsaParty (prvOf d2)).phase1 (newEcdsaParty (prvOf d1)).prv.pub = .ok (keyOf ((d1 * d2) • G)) := by
    rw [Nat.mul_comm]; exact phase1_ok d2 d1
  unfold swapWith swap
  dsimp only
  rw [q1, Res.ok_bind, q2, Res.ok_bind, p1, Res.ok_bind]
  dsimp only
  rw [p2, phase2From_ok, Res.ok_bind]
  dsimp only
  rw [phase3_ok, Res.ok_bind, bobPhase3_ok, Res.ok_bind, s12, s21, hct1, Res.ok_bind, hct2, Res.ok_bind]
  unfold alicePhase5 EcdsaBob.phase6
  rw [pa, Res.ok_bind, pb, Res.ok_bind]
  rfl

/-- Alice's phase 6 divides modulo N. -/
theorem phase6_eq {a b : ℤ} (hb : 0 ≤ b ∧ b < N) :
    (b = 0 ∧ alicePhase6 a b = .panic) ∨
    (b ≠ 0 ∧ ∃ x : ℤ, alicePhase6 a b = .ok x ∧ (0 ≤ x ∧ x < N) ∧ (x : ZMod N) * b = a) := by
  unfold alicePhase6
  rcases eq_or_ne b 0 with h | h
  · left
    refine ⟨h, ?_⟩
    have hN : 1 < N := by decide +kernel
    rw [(Num.modInverse_eq hN b).2 (by rw [h, Int.gcd_zero_left, Int.natAbs_natCast]; omega)]
  · right
    refine ⟨h, ?_⟩
    obtain ⟨w, hw, _, _, e⟩ := Num.modInverse_prime (n := N) Primes.prime_N b (fun h' => h ((cast_zero_iff (p := N) hb).mp h'))
    rw [hw]
    refine ⟨_, rfl, mod_range (p := N) _, ?_⟩
    rw [Ecdsa.mod_N]
    push_cast
    linear_combination (a : ZMod N) * e

/-- A number below N with the right remainder. -/
theorem eq_of_cast {x : ℤ} (hx : 0 ≤ x ∧ x < N) {t : ℕ} (ht : t < N) (h : (x : ZMod N) = t) : x = t := by
  rw [← Ecdsa.castN_inj hx ⟨by omega, by exact_mod_cast ht⟩]
  push_cast
  exact h

section
variable (d1 d2 : ℕ) (h1 : d1 < 2 ^ 256) (h2 : d2 < 2 ^ 256) (hash : Bytes) (w1 w2 : Draw) (g1 : w1.Good) (g2 : w2.Good)
variable (k1 k2 t : ℕ) (hk1 : 1 ≤ k1 ∧ k1 < N) (hk2 : 1 ≤ k2 ∧ k2 < N) (ht : 1 ≤ t ∧ t < N)
include h1 h2 g1 g2 hk1 hk2 ht

/-- **C72.** When the exchange ends, Alice holds exactly Bob's secret, and the parties agree on the public key and the
point. -/
theorem C72_secret (o : Swap) (h : swapWith (prvOf d1) (prvOf d2) t hash w1 w2 k1 k2 = .ok o) :
    o.secret = t ∧ o.pub1 = keyOf ((d1 * d2) • G) ∧ o.pub2 = o.pub1 ∧ o.R1 = scalarOf ((k1 * k2 * t) • G) ∧ o.R2 = o.R1 := by
  obtain ⟨kinv1, kinv2, tinv, a, b, e1, e2, e3, ha, hb, ea, eb, e⟩ := swap_eq h1 h2 hash g1 g2 hk1 hk2 ht
  have hR0 : (k1 * k2 % N * t) • G = (k1 * k2 * t) • G := Ecdsa.smul_eq (by push_cast; rw [ZMod.natCast_mod]; push_cast; rfl)
  rw [hR0] at e
  rw [e] at h
  obtain ⟨x, hx, h⟩ := Res.bind_eq_ok.mp h
  obtain ⟨sig, hf, h⟩ := Res.bind_eq_ok.mp h
  cases h
  refine ⟨?_, rfl, rfl, rfl, rfl⟩
  dsimp only
  rcases phase6_eq (a := a) hb with ⟨_, hp⟩ | ⟨hne, x', hp, hxr, hxe⟩
  · rw [hx] at hp; cases hp
  · rw [hx] at hp
    cases hp
    have hbne : (b : ZMod N) ≠ 0 := by rw [Ne, cast_zero_iff (p := N) hb]; exact hne
    refine eq_of_cast hxr ht.2 (mul_right_cancel₀ hbne ?_)
    rw [hxe, eb]
    linear_combination -(a : ZMod N) * e3

/-- **C72 (partial).** Full statement: without the hypothesis that the x coordinate of the shared point is below N.
Proved: then Bob's signature is accepted for the hash under the shared public key; it is the signature of the product of
the private keys with nonce `k1 k2 t`. -/
theorem C72_verifies_partial (hx : (coords ((k1 * k2 * t) • G)).1 < N) (o : Swap)
    (h : swapWith (prvOf d1) (prvOf d2) t hash w1 w2 k1 k2 = .ok o) :
    Ecdsa.ecdsaVerify o.pub1 hash o.sig = .ok () ∧
    ∃ r s, Ecdsa.signWith (k1 * k2 * t % N) (d1 * d2 % N) hash = .ok (r, s) ∧ o.sig = Der.marshal r s := by
  obtain ⟨kinv1, kinv2, tinv, a, b, e1, e2, e3, ha, hb, ea, eb, e⟩ := swap_eq h1 h2 hash g1 g2 hk1 hk2 ht
  have hK : k1 * k2 % N * t % N = k1 * k2 * t % N := by rw [Nat.mul_mod, Nat.mod_mod, ← Nat.mul_mod]
  have hR0 : (k1 * k2 % N * t) • G = (k1 * k2 * t % N) • G := by
    rw [← hK]; exact Ecdsa.smul_eq (ZMod.natCast_mod _ _).symm
  have hR1 : (k1 * k2 * t) • G = (k1 * k2 * t % N) • G := Ecdsa.smul_eq (ZMod.natCast_mod _ _).symm
  rw [hR0] at e ea
  rw [hR1] at hx
  rw [e] at h
  obtain ⟨x, _, h⟩ := Res.bind_eq_ok.mp h
  obtain ⟨sig, hf, h⟩ := Res.bind_eq_ok.mp h
  cases h
  have hk : 1 ≤ k1 * k2 * t % N ∧ k1 * k2 * t % N < N := by rw [← hK]; exact prod_range (prod_range hk1 hk2) ht
  have := finish_single (d := d1 * d2) hk hash hb hx (by
    rw [eb, ea, ZMod.natCast_mod]
    push_cast
    linear_combination ((d1 : ZMod N) * d2 * ((coords ((k1 * k2 * t % N) • G)).1 : ZMod N) + Ecdsa.hashToInt hash) *
      (kinv2 * k2 * tinv * t * e1 + tinv * t * e2 + e3))
  rw [hf] at this
  obtain ⟨⟨r, s⟩, hs, h⟩ := Res.bind_eq_ok.mp this.symm
  cases h
  exact ⟨accepted hk hs, r, s, hs, rfl⟩

/-- **C72.** The exchange ends with a result, unless Bob's number is 0; then Alice's phase 6 panics. -/
theorem C72_completes :
    (∃ o, swapWith (prvOf d1) (prvOf d2) t hash w1 w2 k1 k2 = .ok o) ∧
      ¬ (hashNum hash + (d1 * d2) * (coords ((k1 * k2 * t) • G)).1) % N = 0 ∨
    swapWith (prvOf d1) (prvOf d2) t hash w1 w2 k1 k2 = .panic ∧
      (hashNum hash + (d1 * d2) * (coords ((k1 * k2 * t) • G)).1) % N = 0 := by
  obtain ⟨kinv1, kinv2, tinv, a, b, e1, e2, e3, ha, hb, ea, eb, e⟩ := swap_eq h1 h2 hash g1 g2 hk1 hk2 ht
  have hR0 : (k1 * k2 % N * t) • G = (k1 * k2 * t) • G := Ecdsa.smul_eq (by push_cast; rw [ZMod.natCast_mod]; push_cast; rfl)
  rw [hR0] at e ea
  have hz : b = 0 ↔ (hashNum hash + (d1 * d2) * (coords ((k1 * k2 * t) • G)).1) % N = 0 := by
    rw [← cast_zero_iff (p := N) hb, mod_zero_iff, eb, ea, Ecdsa.hashToInt_eq]
    push_cast
    have n1 : (kinv1 : ZMod N) ≠ 0 := by intro h; rw [h, zero_mul] at e1; exact zero_ne_one e1
    have n2 : (kinv2 : ZMod N) ≠ 0 := by intro h; rw [h, zero_mul] at e2; exact zero_ne_one e2
    have n3 : (tinv : ZMod N) ≠ 0 := by intro h; rw [h, zero_mul] at e3; exact zero_ne_one e3
    rw [mul_eq_zero, mul_eq_zero, mul_eq_zero, or_iff_left n3, or_iff_left n2, or_iff_left n1, add_comm]
  rw [e, ← hz]
  rcases phase6_eq (a := a) hb with ⟨h, hp⟩ | ⟨h, x, hp, _, _⟩
  · right; rw [hp]; exact ⟨rfl, h⟩
  · left
    rw [hp, Res.ok_bind]
    rcases finish_eq (scalarOf ((k1 * k2 * t) • G)) hb with ⟨h', _⟩ | ⟨_, hf⟩
    · exact absurd h' h
    · rw [hf]; exact ⟨⟨_, rfl⟩, h⟩

/-- **C72 (partial)**, from the signature Bob publishes instead of his number of phase 5. Full statement: Alice's
phase 6, applied to her number and the s of the published signature, returns the secret. Proved: it returns the secret t
if Bob's number is at most N/2, and N - t otherwise, because the published s is made low. -/
theorem C72_published_partial (o : Swap) (h : swapWith (prvOf d1) (prvOf d2) t hash w1 w2 k1 k2 = .ok o) :
    ∃ r s, Der.unmarshal o.sig = .ok (r, s) ∧
      (2 * o.bobS < N ∧ s = o.bobS ∧ alicePhase6 o.aliceS s = .ok (t : ℤ) ∨
       N < 2 * o.bobS ∧ s = N - o.bobS ∧ alicePhase6 o.aliceS s = .ok (N - t : ℤ)) := by
  obtain ⟨kinv1, kinv2, tinv, a, b, e1, e2, e3, ha, hb, ea, eb, e⟩ := swap_eq h1 h2 hash g1 g2 hk1 hk2 ht
  have hR : (k1 * k2 % N * t) • G ≠ 0 := fun h => prod_not_dvd (prod_range hk1 hk2) ht ((smul_zero_iff G_ne _).mp h)
  have hX := (coords_on hR).1
  rw [e] at h
  obtain ⟨x, hx, h⟩ := Res.bind_eq_ok.mp h
  obtain ⟨sig, hf, h⟩ := Res.bind_eq_ok.mp h
  cases h
  dsimp only
  rcases finish_eq (scalarOf ((k1 * k2 % N * t) • G)) hb with ⟨_, hf'⟩ | ⟨hne, hf'⟩
  · rw [hf] at hf'; cases hf'
  rw [hf] at hf'
  cases hf'
  have hodd : 2 * ((N / 2 : ℕ) : ℤ) + 1 = N := by decide +kernel
  have hN1 : (N : ℤ) < 128 * 256 ^ 32 := by decide +kernel
  have hP1 : (P : ℤ) < 128 * 256 ^ 32 := by decide +kernel
  have hxe : (scalarOf ((k1 * k2 % N * t) • G)).x = (coords ((k1 * k2 % N * t) • G)).1 := rfl
  rw [hxe]
  have hsr : 0 ≤ (if b > ((N / 2 : ℕ) : ℤ) then (N : ℤ) - b else b) ∧ (if b > ((N / 2 : ℕ) : ℤ) then (N : ℤ) - b else b) < N := by
    split <;> omega
  refine ⟨_, _, C65_round_trip _ _ ?_, ?_⟩
  · have hlen := Der.marshal_length (Der.intContent_length (k := 32) hX.1 (by omega))
      (Der.intContent_length (k := 32) hsr.1 (by omega)) (by omega)
    omega
  have hbne : (b : ZMod N) ≠ 0 := by rw [Ne, cast_zero_iff (p := N) hb]; exact hne
  have hta : (t : ZMod N) * b = a := by rw [eb]; linear_combination (a : ZMod N) * e3
  split
  · right
    rename_i hgt
    refine ⟨by omega, rfl, ?_⟩
    rcases phase6_eq (a := a) (b := N - b) ⟨by omega, by omega⟩ with ⟨h', _⟩ | ⟨_, y, hy, hyr, hye⟩
    · omega
    · rw [hy]
      congr 1
      have : (y : ZMod N) = ((N - t : ℕ) : ZMod N) := by
        refine mul_right_cancel₀ hbne ?_
        push_cast at hye
        rw [Nat.cast_sub ht.2.le]
        rw [ZMod.natCast_self] at hye ⊢
        linear_combination -hye + hta
      have := eq_of_cast hyr (by omega) this
      rw [this]
      push_cast [ht.2.le]
      rfl
  · left
    rename_i hle
    refine ⟨by omega, rfl, ?_⟩
    rcases phase6_eq (a := a) hb with ⟨h', _⟩ | ⟨_, y, hy, hyr, hye⟩
    · exact absurd h' hne
    · rw [hy]
      congr 1
      refine eq_of_cast hyr ht.2 (mul_right_cancel₀ hbne ?_)
      rw [hye, hta]

end

/-- x coordinate of twice the generator. -/
theorem coords_two : (coords (2 • G)).1 = 0xc6047f9441ed7d6d3045406e95c07cd85c778e4b8cef3ca7abac09b95c709ee5 := by
  have h := baseMult_coords [2]
  have e : natOfBE [2] = 2 := by decide
  have h2 : baseMult [2] = .ok (0xc6047f9441ed7d6d3045406e95c07cd85c778e4b8cef3ca7abac09b95c709ee5,
    0x1ae168fea63dc339a3c58419466ceaeef7f632653266d0e1236431a950cfe52a) := by decide +kernel
  rw [h2, e] at h
  rw [← Res.ok.inj h]

/-- **C72**, the full statement fails for the published signature: with private keys 1, nonces 1, the empty hash and the
secret 2, whatever the Paillier keys, Alice's phase 6 applied to her number and the published s gives N - 2. -/
theorem C72_negation (w1 w2 : Draw) (g1 : w1.Good) (g2 : w2.Good) :
    ∃ o, swapWith (prvOf 1) (prvOf 1) 2 [] w1 w2 1 1 = .ok o ∧ ∃ r s, Der.unmarshal o.sig = .ok (r, s) ∧
      alicePhase6 o.aliceS s = .ok (N - 2 : ℤ) ∧ (N - 2 : ℤ) ≠ 2 := by
  have hone : 1 ≤ 1 ∧ 1 < N := by decide +kernel
  have htwo : 1 ≤ 2 ∧ 2 < N := by decide +kernel
  have hc : (coords ((1 * 1 * 2) • G)).1 = 0xc6047f9441ed7d6d3045406e95c07cd85c778e4b8cef3ca7abac09b95c709ee5 := coords_two
  rcases C72_completes 1 1 (by norm_num) (by norm_num) [] w1 w2 g1 g2 1 1 2 hone hone htwo with ⟨⟨o, ho⟩, _⟩ | ⟨_, h0⟩
  · refine ⟨o, ho, ?_⟩
    obtain ⟨r, s, hu, h⟩ := C72_published_partial 1 1 (by norm_num) (by norm_num) [] w1 w2 g1 g2 1 1 2 hone hone htwo o ho
    refine ⟨r, s, hu, ?_⟩
    rcases h with ⟨hlt, _, _⟩ | ⟨_, _, h⟩
    · exfalso
      obtain ⟨kinv1, kinv2, tinv, a, b, e1, e2, e3, ha, hb, ea, eb, e⟩ :=
        swap_eq (d1 := 1) (d2 := 1) (by norm_num) (by norm_num) [] g1 g2 hone hone htwo
      rw [e] at ho
      obtain ⟨x, _, ho⟩ := Res.bind_eq_ok.mp ho
      obtain ⟨sig, _, ho⟩ := Res.bind_eq_ok.mp ho
      cases ho
      dsimp only at hlt
      have hk : 1 * 1 % N * 2 = 1 * 1 * 2 := by decide +kernel
      have hz : Ecdsa.hashToInt [] = 0 := by decide +kernel
      rw [hk, hc, hz] at ea
      have hbv : b = (0xe3023fca20f6beb69822a0374ae03e6b8b9335991e1bee71b5bf342316537013 : ℕ) := by
        refine eq_of_cast hb (by decide +kernel) ?_
        have i2 : ((0xe3023fca20f6beb69822a0374ae03e6b8b9335991e1bee71b5bf342316537013 : ℕ) : ZMod N) * 2 =
            ((0xc6047f9441ed7d6d3045406e95c07cd85c778e4b8cef3ca7abac09b95c709ee5 : ℕ) : ZMod N) := by
          rw [show (2 : ZMod N) = ((2 : ℕ) : ZMod N) from rfl, ← Nat.cast_mul, ZMod.natCast_eq_natCast_iff]
          decide +kernel
        have i3 : (((0xc6047f9441ed7d6d3045406e95c07cd85c778e4b8cef3ca7abac09b95c709ee5 : ℤ)) : ZMod N) =
            ((0xc6047f9441ed7d6d3045406e95c07cd85c778e4b8cef3ca7abac09b95c709ee5 : ℕ) : ZMod N) := by
          rw [← Int.cast_natCast]; rfl
        have n2 : (2 : ZMod N) ≠ 0 := by
          intro h
          rw [show (2 : ZMod N) = ((2 : ℕ) : ZMod N) from rfl, ZMod.natCast_eq_zero_iff] at h
          exact absurd h (by decide +kernel)
        refine mul_right_cancel₀ n2 ?_
        rw [i2, ← i3, eb, ea]
        rw [Nat.cast_one, mul_one] at e1 e2
        rw [e1, e2]
        push_cast at e3 ⊢
        linear_combination (0xc6047f9441ed7d6d3045406e95c07cd85c778e4b8cef3ca7abac09b95c709ee5 : ZMod N) * e3
      rw [hbv] at hlt
      exact absurd hlt (by decide +kernel)
    · exact ⟨h, by decide +kernel⟩
  · rw [hc] at h0
    exact absurd h0 (by decide +kernel)

/-- **C72.** With a secret that is a multiple of N the exchange never ends with a result. -/
theorem C72_zero (alice : EcdsaParty) (p2 : Phase2) (party : EcdsaParty) (res : Phase2) (t : ℕ) (ht : N ∣ t) (o : Swap) :
    swap alice ⟨t, party⟩ p2 (EcdsaBob.phase2From ⟨t, party⟩ res) ≠ .ok o := by
  intro h
  unfold swap at h
  obtain ⟨_, _, h⟩ := Res.bind_eq_ok.mp h
  obtain ⟨_, _, h⟩ := Res.bind_eq_ok.mp h
  obtain ⟨⟨_, _, _, _⟩, _, h⟩ := Res.bind_eq_ok.mp h
  obtain ⟨⟨bob, _, _, _⟩, hb, h⟩ := Res.bind_eq_ok.mp h
  obtain ⟨_, _, h⟩ := Res.bind_eq_ok.mp h
  obtain ⟨_, _, h⟩ := Res.bind_eq_ok.mp h
  obtain ⟨_, _, h⟩ := Res.bind_eq_ok.mp h
  obtain ⟨_, _, h⟩ := Res.bind_eq_ok.mp h
  obtain ⟨_, _, h⟩ := Res.bind_eq_ok.mp h
  obtain ⟨_, h5, _⟩ := Res.bind_eq_ok.mp h
  unfold EcdsaBob.phase2From at hb
  obtain ⟨⟨_, _, _, _⟩, _, hb⟩ := Res.bind_eq_ok.mp hb
  obtain ⟨⟨_, _⟩, _, hb⟩ := Res.bind_eq_ok.mp hb
  cases hb
  unfold EcdsaBob.phase5 at h5
  obtain ⟨_, _, h5⟩ := Res.bind_eq_ok.mp h5
  have hN : 1 < N := by decide +kernel
  dsimp only at h5
  rw [(Num.modInverse_eq hN t).2 (by
    rw [Int.gcd_natCast_natCast, Nat.gcd_eq_right ht]; omega)] at h5
  split at h5
  · contradiction
  · cases h5

/-- **C72**, with the nonces of the code: when the exchange ends, Alice holds the secret, the parties agree, and if the
x coordinate of the shared point is below N, the signature is accepted. -/
theorem C72_rfc_partial [Hashes] (fuel : ℕ) (key1 key2 : Bytes) (l1 : key1.length ≤ 32) (l2 : key2.length ≤ 32) (prv1 prv2 : Keys.PrvKey)
    (hp1 : Keys.prvFromBytes key1 = .ok prv1) (hp2 : Keys.prvFromBytes key2 = .ok prv2) (t : ℕ) (ht : 1 ≤ t ∧ t < N) (hash : Bytes)
    (w1 w2 : Draw) (g1 : w1.Good) (g2 : w2.Good) (o : Swap) (h : swapRfc fuel prv1 prv2 t hash w1 w2 = .ok o) :
    o.secret = t ∧ o.pub1 = o.pub2 ∧ o.R1 = o.R2 ∧ (o.R1.x < N → Ecdsa.ecdsaVerify o.pub1 hash o.sig = .ok ()) := by
  have b : ∀ k : Bytes, k.length ≤ 32 → beNat k < 2 ^ 256 := by
    intro k hk
    have h1 := natOfBE_lt k
    have h2 : 256 ^ k.length ≤ 256 ^ 32 := Nat.pow_le_pow_right (by norm_num) hk
    have h3 : (256 : ℕ) ^ 32 = 2 ^ 256 := by norm_num
    have : beNat k = natOfBE k := rfl
    omega
  rw [prvOf_bytes _ _ hp1, prvOf_bytes _ _ hp2] at h
  have h0 := h
  unfold swapRfc swap at h
  obtain ⟨_, _, h⟩ := Res.bind_eq_ok.mp h
  obtain ⟨_, _, h⟩ := Res.bind_eq_ok.mp h
  obtain ⟨⟨_, _, _, _⟩, p1, h⟩ := Res.bind_eq_ok.mp h
  obtain ⟨⟨_, _, _, _⟩, p2, h⟩ := Res.bind_eq_ok.mp h
  have e1 : (newEcdsaParty (prvOf (beNat key1))).prv.d = beNat key1 := rfl
  have e2 : (newEcdsaParty (prvOf (beNat key2))).prv.d = beNat key2 := rfl
  cases n1 : Ecdsa.nonce N fuel (beNat key1) hash with
  | none =>
    unfold EcdsaParty.phase2 at p1
    rw [e1, n1] at p1
    cases p1
  | some k1 =>
    cases n2 : Ecdsa.nonce N fuel (beNat key2) hash with
    | none =>
      unfold EcdsaBob.phase2 EcdsaBob.phase2From EcdsaParty.phase2 at p2
      dsimp only at p2
      rw [e2, n2] at p2
      cases p2
    | some k2 =>
      have hk1 := Ecdsa.nonce_range n1
      have hk2 := Ecdsa.nonce_range n2
      have h' : swapWith (prvOf (beNat key1)) (prvOf (beNat key2)) t hash w1 w2 k1 k2 = .ok o := by
        unfold swapRfc EcdsaBob.phase2 EcdsaParty.phase2 at h0
        dsimp only at h0
        rw [e1, e2, n1, n2] at h0
        exact h0
      obtain ⟨a1, _, a3, a4, a5⟩ := C72_secret _ _ (b key1 l1) (b key2 l2) hash w1 w2 g1 g2 k1 k2 t hk1 hk2 ht o h'
      refine ⟨a1, a3.symm, a5.symm, fun hx => ?_⟩
      rw [a4] at hx
      exact (C72_verifies_partial _ _ (b key1 l1) (b key2 l2) hash w1 w2 g1 g2 k1 k2 t hk1 hk2 ht hx o h').1

/-- The hypotheses can be met: with private keys 1, nonces 1 and the secret 2 the exchange ends, the signature is accepted
and Alice holds 2. -/
example : ∃ w1 w2 : Draw, w1.Good ∧ w2.Good ∧ ∃ o, swapWith (prvOf 1) (prvOf 1) 2 [] w1 w2 1 1 = .ok o ∧ o.secret = 2 ∧
    Ecdsa.ecdsaVerify o.pub1 [] o.sig = .ok () := by
  obtain ⟨w, g⟩ := exists_draw
  have hone : 1 ≤ 1 ∧ 1 < N := by decide +kernel
  have htwo : 1 ≤ 2 ∧ 2 < N := by decide +kernel
  obtain ⟨o, ho, _⟩ := C72_negation w w g g
  refine ⟨w, w, g, g, o, ho, (C72_secret 1 1 (by norm_num) (by norm_num) [] w w g g 1 1 2 hone hone htwo o ho).1,
    (C72_verifies_partial 1 1 (by norm_num) (by norm_num) [] w w g g 1 1 2 hone hone htwo ?_ o ho).1⟩
  rw [show 1 * 1 * 2 = 2 from rfl, coords_two]
  decide +kernel

end Toku.Props
