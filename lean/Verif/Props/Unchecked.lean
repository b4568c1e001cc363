import Verif.Props.Atomic
/-
Property C130: a party of two-party ECDSA that reports a signature reports one that is accepted.
-/
namespace Toku.Props
open Toku Toku.Spec Toku.Curve Toku.Mpc

/-- What a party does from phase 1 to phase 5, with whatever the counterpart sends: its public key `pub2`, its point `r2` and its
ciphertext `ct2`. The result is the shared public key and the signature. xcrypto/mpc_ecdsa.go:52-164 -/
def against (prv : Keys.PrvKey) (hash : Bytes) (w : Draw) (k : ℕ) (pub2 : Keys.PubKey) (r2 : Scalar) (ct2 : Option ℤ) :
    Res (Keys.PubKey × Bytes) := do
  let shared ← (newEcdsaParty prv).phase1 pub2
  let (party, _, _, _) ← (newEcdsaParty prv).phase2With k w.p w.q w.rnd hash
  let shareR ← party.phase3 r2
  let sig ← party.phase5 shareR ct2
  return (shared, sig)

/-- What Bob does in the scriptless exchange, xcrypto/scriptless_ecdsa.go:83-145. -/
def againstBob (prv : Keys.PrvKey) (t : ℕ) (hash : Bytes) (w : Draw) (k : ℕ) (pub2 : Keys.PubKey) (r2 : Scalar) (ct2 : Option ℤ) :
    Res (Keys.PubKey × Bytes) := do
  let bob : EcdsaBob := ⟨t, newEcdsaParty prv⟩
  let shared ← bob.party.phase1 pub2
  let (bob, _, _, _) ← bob.phase2From (bob.party.phase2With k w.p w.q w.rnd hash)
  let shareR ← bob.phase3 r2
  let s ← bob.phase5 ct2
  let sig ← bob.phase6 shareR s
  return (shared, sig)

/-! ### Helpers -/

private theorem x_eq_or {q1 q2 : Pt} (h1 : q1 ≠ 0) (h2 : q2 ≠ 0) (h : (coords q1).1 = (coords q2).1) : q1 = q2 ∨ q1 = -q2 := by
  cases q1 with
  | zero => exact absurd rfl h1
  | some x y n =>
    cases q2 with
    | zero => exact absurd rfl h2
    | some x' y' n' =>
      have h : ((x.val : ℕ) : ℤ) = ((x'.val : ℕ) : ℤ) := h
      have h : x = x' := ZMod.val_injective P (by exact_mod_cast h)
      subst h
      rcases WeierstrassCurve.Affine.Y_eq_of_X_eq n.1 n'.1 rfl with e | e
      · left; subst e; rfl
      · right; subst e; rfl

private theorem smul_congr (q : Pt) {a b : ℕ} (h : (a : ZMod N) = b) : a • q = b • q := by
  rcases eq_or_ne q 0 with rfl | hq
  · simp
  · rw [nsmul_eq_nsmul_iff_modEq, order_all hq]
    exact (ZMod.natCast_eq_natCast_iff a b N).mp h

private theorem x_of_mod {A : Pt} (hA : A ≠ 0) {r : ℤ} (hr : (P - N : ℤ) ≤ r) (hx : (coords A).1 % N = r) : (coords A).1 = r := by
  have hPN : (P : ℤ) < 2 * N := by decide +kernel
  have hc := (coords_on hA).1
  have hd := Int.emod_add_mul_ediv (coords A).1 N
  have hm := Int.emod_lt_of_pos (coords A).1 (b := N) (by decide +kernel)
  rw [hx] at hd hm
  generalize (coords A).1 = x at hx hc hd
  have hN : (0 : ℤ) < N := by decide +kernel
  have hq : x / N < 2 := by rw [Int.ediv_lt_iff_lt_mul hN]; omega
  have hq0 : 0 ≤ x / N := Int.ediv_nonneg hc.1 (by omega)
  have : x / N = 0 ∨ x / N = 1 := by omega
  rcases this with h | h
  · rw [h] at hd; omega
  · rw [h] at hd; omega

/-- When a signature with the x coordinate of a given point is accepted. -/
private theorem verify_iff (q R : Pt) (hR : R ≠ 0) (hash : Bytes) {s : ℤ} (hs : 1 ≤ s ∧ s < N)
    (hx : (P - N : ℤ) ≤ (coords R).1 ∧ (coords R).1 < N) :
    Ecdsa.verify (keyOf q) hash (coords R).1 s = .ok true ↔
      s.toNat • R = Ecdsa.hashToInt hash • G + (coords R).1.toNat • q ∨
      s.toNat • R = -(Ecdsa.hashToInt hash • G + (coords R).1.toNat • q) := by
  have hPN : (0 : ℤ) < P - N := by decide +kernel
  have hr : 1 ≤ (coords R).1 ∧ (coords R).1 < N := ⟨by omega, hx.2⟩
  obtain ⟨w, hw, u1, u2, e1, e2, hv⟩ := Ecdsa.verify_eq q hash hr hs
  have hv' : Ecdsa.verify (keyOf q) hash (coords R).1 s = _ := hv
  have hT : s.toNat • (u1 • G + u2 • q) = Ecdsa.hashToInt hash • G + (coords R).1.toNat • q := by
    rw [nsmul_add, smul_smul, smul_smul]
    congr 1
    · refine smul_congr _ ?_
      push_cast
      rw [e1, Ecdsa.toNat_cast (by omega)]
      linear_combination (Ecdsa.hashToInt hash : ZMod N) * hw
    · refine smul_congr _ ?_
      push_cast
      rw [e2, Ecdsa.toNat_cast (by omega), Ecdsa.toNat_cast (by omega)]
      linear_combination ((coords R).1 : ZMod N) * hw
  have hsd : ¬ N ∣ s.toNat := Nat.not_dvd_of_pos_of_lt (by omega) (by omega)
  have inj : ∀ A B : Pt, s.toNat • A = s.toNat • B → A = B := by
    intro A B h
    have : s.toNat • (A - B) = 0 := by rw [nsmul_sub, h, sub_self]
    by_contra hne
    exact hsd ((smul_zero_iff (sub_ne_zero.mpr hne) _).mp this)
  rw [hv', ← hT]
  generalize u1 • G + u2 • q = A
  constructor
  · intro h
    have hb := Res.ok.inj h
    rw [Bool.and_eq_true, decide_eq_true_eq, beq_iff_eq] at hb
    rcases x_eq_or hb.1 hR (x_of_mod hb.1 hx.1 hb.2) with rfl | rfl
    · left; rfl
    · right; rw [neg_nsmul, neg_neg]
  · rintro (h | h)
    · rw [← inj _ _ h]
      simp only [ne_eq, hR, not_false_eq_true, decide_true, Bool.true_and, beq_iff_eq, Res.ok.injEq]
      exact Int.emod_eq_of_lt (by omega) hx.2
    · have : A = -R := by
        apply inj
        rw [← neg_inj, ← h, ← neg_nsmul, neg_neg]
      rw [this, Ecdsa.coords_neg]
      simp only [ne_eq, neg_eq_zero, hR, not_false_eq_true, decide_true, Bool.true_and, beq_iff_eq, Res.ok.injEq]
      exact Int.emod_eq_of_lt (by omega) hx.2

/-- Decryption never fails on a positive number. -/
private theorem decrypt_any {p q : ℕ} (h : PaillierPrimes p q) {c : ℤ} (hc : 0 < c) :
    ∃ v : ℕ, Paillier.decrypt (Paillier.generateKeyPair p q).2 (some c) = .ok (v : ℤ) ∧ v < p * q := by
  have hn := Paillier.one_lt h
  obtain ⟨mu, hmu, _, _, hmul⟩ := (Num.modInverse_eq hn (Paillier.phi p q)).1 (by
    rw [Paillier.phi_eq h, Int.gcd_natCast_natCast]; exact Nat.Coprime.symm h.2.2.2)
  have e : (Paillier.generateKeyPair p q).2 = ⟨some mu, ⟨((p * q : ℕ) : ℤ) + 1, p * q, p * q * (p * q)⟩, Paillier.phi p q⟩ := by
    rw [← hmu]; rfl
  rw [e]
  unfold Paillier.decrypt Num.expMod
  rw [Paillier.positive_some hc]
  dsimp only
  rw [if_pos (by rw [Paillier.phi_eq h]; exact Int.natCast_nonneg _)]
  dsimp only
  generalize Paillier.l _ _ * mu = y
  have h0 : 0 ≤ y % ((p * q : ℕ) : ℤ) := Int.emod_nonneg _ (by omega)
  have h1 : y % ((p * q : ℕ) : ℤ) < ((p * q : ℕ) : ℤ) := Int.emod_lt_of_pos _ (by omega)
  exact ⟨(y % ((p * q : ℕ) : ℤ)).toNat, by rw [Int.toNat_of_nonneg h0], by omega⟩

/-- From the number s to the accepted signature: `a` times `k` is 1 modulo N, the point is `k` times Q. -/
private theorem finish_accept {q Q : Pt} (hQ : Q ≠ 0) {hash : Bytes} {k v : ℕ} {a : ℤ} (hk : ¬ N ∣ k) (ha : (a : ZMod N) * k = 1)
    (hx : (P - N : ℤ) ≤ (coords (k • Q)).1 ∧ (coords (k • Q)).1 < N) :
    (N ∣ v → finish (scalarOf (k • Q)) ((v * a) % N) = .err Ecdsa.errSZero) ∧
    (¬ N ∣ v → ∃ sig, finish (scalarOf (k • Q)) ((v * a) % N) = .ok sig ∧
      (Ecdsa.ecdsaVerify (keyOf q) hash sig = .ok () ↔
        v • Q = Ecdsa.hashToInt hash • G + (coords (k • Q)).1.toNat • q ∨
        v • Q = -(Ecdsa.hashToInt hash • G + (coords (k • Q)).1.toNat • q))) := by
  have hR : k • Q ≠ 0 := fun h => hk ((smul_zero_iff hQ _).mp h)
  have hN : (0 : ℤ) < N := by decide +kernel
  have hsr : 0 ≤ ((v * a) % N : ℤ) ∧ ((v * a) % N : ℤ) < N := ⟨Int.emod_nonneg _ hN.ne', Int.emod_lt_of_pos _ hN⟩
  have hsc : (((v * a) % N : ℤ) : ZMod N) = v * a := by rw [Ecdsa.mod_N]; push_cast; rfl
  have hz : ((v * a) % N : ℤ) = 0 ↔ N ∣ v := by
    rw [← cast_zero_iff (p := N) hsr, hsc, ← ZMod.natCast_eq_zero_iff]
    constructor
    · intro h
      linear_combination (k : ZMod N) * h - (v : ZMod N) * ha
    · intro h
      rw [h, zero_mul]
  generalize ((v * a) % N : ℤ) = s at *
  rcases finish_eq (scalarOf (k • Q)) hsr with ⟨h0, hf⟩ | ⟨h0, hf⟩
  · exact ⟨fun _ => hf, fun h => absurd (hz.mp h0) h⟩
  · refine ⟨fun h => absurd (hz.mpr h) h0, fun _ => ⟨_, hf, ?_⟩⟩
    have hxe : (scalarOf (k • Q)).x = (coords (k • Q)).1 := rfl
    rw [hxe]
    have hX0 := (coords_on hR).1
    have hN1 : (N : ℤ) < 128 * 256 ^ 32 := by decide +kernel
    have hodd : 2 * ((N / 2 : ℕ) : ℤ) + 1 = N := by decide +kernel
    have hlow : 1 ≤ (if s > ((N / 2 : ℕ) : ℤ) then (N : ℤ) - s else s) ∧ (if s > ((N / 2 : ℕ) : ℤ) then (N : ℤ) - s else s) < N := by
      split <;> omega
    have hcast : ((if s > ((N / 2 : ℕ) : ℤ) then (N : ℤ) - s else s : ℤ) : ZMod N) = v * a ∨
        ((if s > ((N / 2 : ℕ) : ℤ) then (N : ℤ) - s else s : ℤ) : ZMod N) = -(v * a) := by
      split
      · right; push_cast; rw [ZMod.natCast_self, hsc]; ring
      · left; exact hsc
    generalize (if s > ((N / 2 : ℕ) : ℤ) then (N : ℤ) - s else s : ℤ) = s' at hlow hcast
    have hlen := Der.marshal_length (Der.intContent_length (k := 32) hX0.1 (by omega : (coords (k • Q)).1 < 128 * 256 ^ 32))
      (Der.intContent_length (k := 32) (by omega : 0 ≤ s') (by omega)) (by omega)
    have hver : Ecdsa.ecdsaVerify (keyOf q) hash (Der.marshal (coords (k • Q)).1 s') = .ok () ↔
        Ecdsa.verify (keyOf q) hash (coords (k • Q)).1 s' = .ok true := by
      unfold Ecdsa.ecdsaVerify
      rw [C65_round_trip _ _ (by omega), Res.ok_bind]
      dsimp only
      constructor
      · intro h
        obtain ⟨b, hb, h⟩ := Res.bind_eq_ok.mp h
        cases b with
        | true => exact hb
        | false => cases h
      · intro h
        rw [h]
        rfl
    rw [hver, verify_iff q (k • Q) hR hash hlow hx]
    generalize Ecdsa.hashToInt hash • G + (coords (k • Q)).1.toNat • q = T
    have hsk : ∀ b : ZMod N, (s' : ZMod N) = b * a → ((s'.toNat * k : ℕ) : ZMod N) = b := by
      intro b hb
      push_cast
      rw [Ecdsa.toNat_cast (by omega), hb]
      linear_combination b * ha
    rw [smul_smul]
    rcases hcast with h | h
    · rw [smul_congr Q (hsk v h)]
    · have : (s'.toNat * k) • Q = -(v • Q) := by
        have hd : N ∣ s'.toNat * k + v := by
          rw [← ZMod.natCast_eq_zero_iff]
          rw [Nat.cast_add, hsk (-v) (by rw [h]; ring)]
          ring
        rw [eq_neg_iff_add_eq_zero, ← add_nsmul]
        exact (smul_zero_iff hQ _).mpr hd
      rw [this, neg_inj, neg_eq_iff_eq_neg]
      exact Or.comm

private theorem inv_cancel {a b x y : ZMod N} (h1 : a * x = 1) (h2 : b * y = 1) : a * b * (x * y) = 1 := by
  linear_combination b * y * h1 + h2

/-! ### C130 -/

/-- **C130**, exactly. The party has the private key `d` and the nonce `k`; the public key `q` and the point `Q` of the counterpart are
any points on the curve, the ciphertext is any positive number. It decrypts to some number `v`. If `v` is a multiple of N the party
reports an error; otherwise it reports a signature, and this is accepted for the hash under the shared key `d q` exactly if `v Q` is
the point `z G + x (d q)` or its opposite, where `z` is the number of the hash and `x` the x coordinate of the shared point `k Q`. -/
theorem C130_exact (d : ℕ) (hd : d < 2 ^ 256) (hash : Bytes) (w : Draw) (g : w.Good) (k : ℕ) (hk : 1 ≤ k ∧ k < N) (q Q : Pt) (hQ : Q ≠ 0)
    (hx : (P - N : ℤ) ≤ (coords (k • Q)).1 ∧ (coords (k • Q)).1 < N) (c : ℤ) (hc : 0 < c) :
    ∃ v : ℕ, Paillier.decrypt (Paillier.generateKeyPair w.p w.q).2 (some c) = .ok (v : ℤ) ∧
      (N ∣ v → against (prvOf d) hash w k (keyOf q) (scalarOf Q) (some c) = .err Ecdsa.errSZero) ∧
      (¬ N ∣ v → ∃ sig, against (prvOf d) hash w k (keyOf q) (scalarOf Q) (some c) = .ok (keyOf (d • q), sig) ∧
        (Ecdsa.ecdsaVerify (keyOf (d • q)) hash sig = .ok () ↔
          v • Q = hashNum hash • G + (coords (k • Q)).1.toNat • (d • q) ∨
          v • Q = -(hashNum hash • G + (coords (k • Q)).1.toNat • (d • q)))) := by
  obtain ⟨kinv, i1, a0, a1, e1⟩ := inv_ok hk
  have big : (2 : ℕ) ^ 256 ≤ 2 ^ 1025 := by decide +kernel
  obtain ⟨ck, hck, _⟩ := encryptKey_ok (d := d) g.1 g.2.2 (by have := g.2.1; omega)
  have p2 := phase2_ok i1 (prvOf d) hash hck
  obtain ⟨v, hv, _⟩ := decrypt_any g.1 hc
  have hps : (ready (prvOf d) k kinv hash w.p w.q).partialS (some c) = .ok ((v * kinv) % N) := by
    unfold EcdsaParty.partialS ready decryptNil
    dsimp only
    rw [hv]
    rfl
  have key : against (prvOf d) hash w k (keyOf q) (scalarOf Q) (some c) =
      (finish (scalarOf (k • Q)) ((v * kinv) % N) >>= fun sig => .ok (keyOf (d • q), sig)) := by
    unfold against
    have q1 : (newEcdsaParty (prvOf d)).phase1 (keyOf q) = .ok (keyOf (d • q)) := by
      unfold EcdsaParty.phase1 newEcdsaParty prvOf keyOf
      dsimp only
      rw [mult_coords, natOfBE_natToBE, Res.ok_bind]
      generalize coords (d • q) = y
      obtain ⟨x, y⟩ := y
      rfl
    rw [q1, Res.ok_bind, p2, Res.ok_bind]
    dsimp only
    rw [phase3_ok, Res.ok_bind]
    unfold EcdsaParty.phase5
    rw [hps, Res.ok_bind]
    cases finish (scalarOf (k • Q)) ((v * kinv) % N) <;> rfl
  have hf := finish_accept (q := d • q) hQ (hash := hash) (v := v) (Nat.not_dvd_of_pos_of_lt hk.1 hk.2) e1 hx
  rw [Ecdsa.hashToInt_eq] at hf
  refine ⟨v, hv, fun h => ?_, fun h => ?_⟩
  · rw [key, hf.1 h]; rfl
  · obtain ⟨sig, hs, hiff⟩ := hf.2 h
    exact ⟨sig, by rw [key, hs]; rfl, hiff⟩

/-- **C130** for Bob of the scriptless exchange, with the secret `t`. -/
theorem C130_bob_exact (d t : ℕ) (hd : d < 2 ^ 256) (ht : 1 ≤ t ∧ t < N) (hash : Bytes) (w : Draw) (g : w.Good) (k : ℕ)
    (hk : 1 ≤ k ∧ k < N) (q Q : Pt) (hQ : Q ≠ 0)
    (hx : (P - N : ℤ) ≤ (coords ((k * t) • Q)).1 ∧ (coords ((k * t) • Q)).1 < N) (c : ℤ) (hc : 0 < c) :
    ∃ v : ℕ, Paillier.decrypt (Paillier.generateKeyPair w.p w.q).2 (some c) = .ok (v : ℤ) ∧
      (N ∣ v → againstBob (prvOf d) t hash w k (keyOf q) (scalarOf Q) (some c) = .err Ecdsa.errSZero) ∧
      (¬ N ∣ v → ∃ sig, againstBob (prvOf d) t hash w k (keyOf q) (scalarOf Q) (some c) = .ok (keyOf (d • q), sig) ∧
        (Ecdsa.ecdsaVerify (keyOf (d • q)) hash sig = .ok () ↔
          v • Q = hashNum hash • G + (coords ((k * t) • Q)).1.toNat • (d • q) ∨
          v • Q = -(hashNum hash • G + (coords ((k * t) • Q)).1.toNat • (d • q)))) := by
  obtain ⟨kinv, i1, a0, a1, e1⟩ := inv_ok hk
  obtain ⟨tinv, i2, b0, b1, e2⟩ := inv_ok ht
  have big : (2 : ℕ) ^ 256 ≤ 2 ^ 1025 := by decide +kernel
  obtain ⟨ck, hck, _⟩ := encryptKey_ok (d := d) g.1 g.2.2 (by have := g.2.1; omega)
  have p2 := phase2_ok i1 (prvOf d) hash hck
  obtain ⟨v, hv, _⟩ := decrypt_any g.1 hc
  have hps : (⟨t, ready (prvOf d) k kinv hash w.p w.q⟩ : EcdsaBob).phase5 (some c) = .ok ((v * (kinv * tinv)) % N) := by
    unfold EcdsaBob.phase5 ready decryptNil
    dsimp only
    rw [hv, i2, Res.ok_bind, ← mul_assoc]
    rfl
  have key : againstBob (prvOf d) t hash w k (keyOf q) (scalarOf Q) (some c) =
      (finish (scalarOf ((k * t) • Q)) ((v * (kinv * tinv)) % N) >>= fun sig => .ok (keyOf (d • q), sig)) := by
    unfold againstBob
    have q1 : (newEcdsaParty (prvOf d)).phase1 (keyOf q) = .ok (keyOf (d • q)) := by
      unfold EcdsaParty.phase1 newEcdsaParty prvOf keyOf
      dsimp only
      rw [mult_coords, natOfBE_natToBE, Res.ok_bind]
      generalize coords (d • q) = y
      obtain ⟨x, y⟩ := y
      rfl
    dsimp only
    rw [q1, Res.ok_bind, p2, phase2From_ok, Res.ok_bind]
    dsimp only
    rw [bobPhase3_ok, Res.ok_bind, hps, Res.ok_bind]
    unfold EcdsaBob.phase6
    rw [show t • k • Q = (k * t) • Q by rw [smul_smul, Nat.mul_comm]]
    cases finish (scalarOf ((k * t) • Q)) ((v * (kinv * tinv)) % N) <;> rfl
  have hf := finish_accept (q := d • q) hQ (hash := hash) (v := v) (prod_not_dvd hk ht)
    (a := kinv * tinv) (by push_cast; exact inv_cancel e1 e2) hx
  rw [Ecdsa.hashToInt_eq] at hf
  refine ⟨v, hv, fun h => ?_, fun h => ?_⟩
  · rw [key, hf.1 h]; rfl
  · obtain ⟨sig, hs, hiff⟩ := hf.2 h
    exact ⟨sig, by rw [key, hs]; rfl, hiff⟩

/-- **C130** is false of the code, for all keys, nonces, hashes and points: the party takes the encryption of 1 or of 2 for the
counterpart's part and reports a signature that is refused under the shared key. Nothing of the private key or the nonce has to be
known for it. -/
theorem C130_negation (d : ℕ) (hd : d < 2 ^ 256) (hash : Bytes) (w : Draw) (g : w.Good) (k : ℕ) (hk : 1 ≤ k ∧ k < N) (q Q : Pt)
    (hQ : Q ≠ 0) (hx : (P - N : ℤ) ≤ (coords (k • Q)).1 ∧ (coords (k • Q)).1 < N) :
    ∃ m : ℤ, (m = 1 ∨ m = 2) ∧ ∃ c, Paillier.encrypt (Paillier.generateKeyPair w.p w.q).1 1 m = .ok c ∧
      ∃ sig, against (prvOf d) hash w k (keyOf q) (scalarOf Q) (some c) = .ok (keyOf (d • q), sig) ∧
        Ecdsa.ecdsaVerify (keyOf (d • q)) hash sig ≠ .ok () := by
  have hn := Paillier.one_lt g.1
  have hn2 : 2 < w.p * w.q := lt_of_lt_of_le (by decide +kernel) g.2.1
  have one : ∀ m : ℕ, m = 1 ∨ m = 2 → ∃ c, Paillier.encrypt (Paillier.generateKeyPair w.p w.q).1 1 m = .ok c ∧
      ∃ sig, against (prvOf d) hash w k (keyOf q) (scalarOf Q) (some c) = .ok (keyOf (d • q), sig) ∧
        (Ecdsa.ecdsaVerify (keyOf (d • q)) hash sig = .ok () ↔
          m • Q = hashNum hash • G + (coords (k • Q)).1.toNat • (d • q) ∨
          m • Q = -(hashNum hash • G + (coords (k • Q)).1.toNat • (d • q))) := by
    intro m hm
    obtain ⟨c, hc, ec⟩ := Paillier.encrypt_enc hn (Nat.coprime_one_left (w.p * w.q)) (m := m) (by omega) (by omega)
    have hdec := Paillier.decrypt_enc g.1 ec
    have hpos : 0 < c := by
      by_contra h
      unfold Paillier.decrypt Paillier.positive at hdec
      dsimp only at hdec
      rw [if_neg h] at hdec
      cases hdec
    obtain ⟨v, hv, _, hs⟩ := C130_exact d hd hash w g k hk q Q hQ hx c hpos
    have hvm : v = m := by
      rw [hdec] at hv
      have := Res.ok.inj hv
      rw [Int.emod_eq_of_lt (by omega) (by omega)] at this
      exact_mod_cast this.symm
    subst hvm
    have hN2 : 2 < N := by decide +kernel
    exact ⟨c, hc, hs (Nat.not_dvd_of_pos_of_lt (by omega) (by omega))⟩
  obtain ⟨c1, hc1, sig1, hs1, i1⟩ := one 1 (.inl rfl)
  obtain ⟨c2, hc2, sig2, hs2, i2⟩ := one 2 (.inr rfl)
  by_cases hv1 : Ecdsa.ecdsaVerify (keyOf (d • q)) hash sig1 = .ok ()
  · refine ⟨2, .inr rfl, c2, hc2, sig2, hs2, fun hv2 => ?_⟩
    have hN3 : 3 < N := by decide +kernel
    have no : ∀ j : ℕ, 1 ≤ j → j ≤ 3 → j • Q ≠ 0 := fun j h1 h3 h =>
      Nat.not_dvd_of_pos_of_lt h1 (by omega) ((smul_zero_iff hQ _).mp h)
    have t1 := i1.mp hv1
    have t2 := i2.mp hv2
    generalize hashNum hash • G + (coords (k • Q)).1.toNat • (d • q) = T at t1 t2
    rw [one_nsmul] at t1
    rw [two_nsmul] at t2
    rcases t1 with rfl | t1
    · rcases t2 with t2 | t2
      · exact no 1 (by omega) (by omega) (by rw [one_nsmul]; exact add_eq_left.mp t2)
      · refine no 3 (by omega) (by omega) ?_
        rw [show (3 : ℕ) = 2 + 1 from rfl, add_nsmul, two_nsmul, one_nsmul, t2, neg_add_cancel]
    · have t1 : T = -Q := by rw [t1, neg_neg]
      rw [t1, neg_neg] at t2
      rcases t2 with t2 | t2
      · refine no 3 (by omega) (by omega) ?_
        rw [show (3 : ℕ) = 2 + 1 from rfl, add_nsmul, two_nsmul, one_nsmul, t2, neg_add_cancel]
      · exact no 1 (by omega) (by omega) (by rw [one_nsmul]; exact add_eq_left.mp t2)
  · exact ⟨1, .inl rfl, c1, hc1, sig1, hs1, hv1⟩

/-- The hypotheses can be met: private key 1, nonce 2, the empty hash, the generator as public key and point of the counterpart. An
honest counterpart's part makes an accepted signature (`C70_verifies_partial`); here is one that does not. -/
example : ∃ w : Draw, w.Good ∧ ∃ c sig, against (prvOf 1) [] w 2 (keyOf G) (scalarOf G) (some c) = .ok (keyOf G, sig) ∧
    Ecdsa.ecdsaVerify (keyOf G) [] sig ≠ .ok () := by
  obtain ⟨w, g⟩ := exists_draw
  have htwo : 1 ≤ 2 ∧ 2 < N := by decide +kernel
  obtain ⟨m, _, c, _, sig, hs, hv⟩ := C130_negation 1 (by norm_num) [] w g 2 htwo G G G_ne (by
    rw [coords_two]
    decide +kernel)
  rw [one_nsmul] at hs hv
  exact ⟨w, g, c, sig, hs, hv⟩

end Toku.Props
