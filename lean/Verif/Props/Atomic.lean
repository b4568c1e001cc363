import Verif.Props.Scriptless
/-
Property C129: who publishes the signature of a scriptless exchange gives the secret away.
-/
namespace Toku.Props
open Toku Toku.Spec Toku.Curve Toku.Mpc

/-! ### Helpers -/

private theorem x_eq_or {q1 q2 : Pt} (h1 : q1 ≠ 0) (h2 : q2 ≠ 0) (h : (coords q1).1 = (coords q2).1) : q1 = q2 ∨ q1 = -q2 := by
  cases q1 with
  | zero => exact absurd rfl h1
  | some x y n =>
    cases q2 with
    | zero => exact absurd rfl h2
    | some x' y' n' =>
      have h : ((x.val : ℕ) : ℤ) = ((x'.val : ℕ) : ℤ) := h
      have h : x = x' := ZMod.val_injective P (by exact_mod_cast h)
      subst h
      rcases WeierstrassCurve.Affine.Y_eq_of_X_eq n.1 n'.1 rfl with e | e
      · left; subst e; rfl
      · right; subst e; rfl

private theorem smul_congr (q : Pt) {a b : ℕ} (h : (a : ZMod N) = b) : a • q = b • q := by
  rcases eq_or_ne q 0 with rfl | hq
  · simp
  · rw [nsmul_eq_nsmul_iff_modEq, order_all hq]
    exact (ZMod.natCast_eq_natCast_iff a b N).mp h

private theorem verify_range {pub : Keys.PubKey} {hash : Bytes} {r s : ℤ} (h : Ecdsa.verify pub hash r s = .ok true) :
    (1 ≤ r ∧ r < N) ∧ (1 ≤ s ∧ s < N) := by
  unfold Ecdsa.verify at h
  split at h
  · cases h
  · split at h
    · cases h
    · omega

/-- An accepted signature: `s` times some point with the x coordinate `r` modulo N is the same point for all of them. -/
private theorem verify_point {q : Pt} {hash : Bytes} {r s : ℤ} (h : Ecdsa.verify (keyOf q) hash r s = .ok true) :
    ∃ A : Pt, A ≠ 0 ∧ (coords A).1 % N = r ∧ s.toNat • A = Ecdsa.hashToInt hash • G + r.toNat • q := by
  obtain ⟨hr, hs⟩ := verify_range h
  obtain ⟨w, hw, u1, u2, e1, e2, hv⟩ := Ecdsa.verify_eq q hash hr hs
  have hv' := hv
  change Ecdsa.verify (keyOf q) hash r s = _ at hv'
  rw [h] at hv'
  have hb := Res.ok.inj hv'
  rw [eq_comm, Bool.and_eq_true, decide_eq_true_eq, beq_iff_eq] at hb
  refine ⟨u1 • G + u2 • q, hb.1, hb.2, ?_⟩
  rw [nsmul_add, smul_smul, smul_smul]
  congr 1
  · refine smul_congr _ ?_
    push_cast
    rw [e1, Ecdsa.toNat_cast (by omega)]
    linear_combination (Ecdsa.hashToInt hash : ZMod N) * hw
  · refine smul_congr _ ?_
    push_cast
    rw [e2, Ecdsa.toNat_cast (by omega), Ecdsa.toNat_cast (by omega)]
    linear_combination (r : ZMod N) * hw

/-! ### C129 -/

/-- **C129**, one signature: for a public key, a hash and a number `r` not below P - N, at most two numbers `s` are accepted, the one
and its opposite. -/
theorem C129_unique (q : Pt) (hash : Bytes) (r s1 s2 : ℤ) (hr : (P - N : ℤ) ≤ r) (h1 : Ecdsa.verify (keyOf q) hash r s1 = .ok true)
    (h2 : Ecdsa.verify (keyOf q) hash r s2 = .ok true) : s1 = s2 ∨ s1 + s2 = N := by
  obtain ⟨_, hs1⟩ := verify_range h1
  obtain ⟨hrr, hs2⟩ := verify_range h2
  obtain ⟨A1, n1, x1, e1⟩ := verify_point h1
  obtain ⟨A2, n2, x2, e2⟩ := verify_point h2
  have hPN : (P : ℤ) < 2 * N := by decide +kernel
  have hx : ∀ A : Pt, A ≠ 0 → (coords A).1 % N = r → (coords A).1 = r := by
    intro A hA hx
    have hc := (coords_on hA).1
    have hd := Int.emod_add_mul_ediv (coords A).1 N
    rw [hx] at hd
    generalize (coords A).1 = x at hx hc hd
    have hq : x / N < 2 := by rw [Int.ediv_lt_iff_lt_mul (by omega)]; omega
    have hq0 : 0 ≤ x / N := Int.ediv_nonneg hc.1 (by omega)
    have : x / N = 0 ∨ x / N = 1 := by omega
    rcases this with h | h
    · rw [h] at hd; omega
    · rw [h] at hd; omega
  have hxx : (coords A1).1 = (coords A2).1 := by rw [hx A1 n1 x1, hx A2 n2 x2]
  have e : s1.toNat • A1 = s2.toNat • A2 := by rw [e1, e2]
  rcases x_eq_or n1 n2 hxx with rfl | rfl
  · left
    rw [nsmul_eq_nsmul_iff_modEq, order_all n1] at e
    have : s1.toNat = s2.toNat := Nat.ModEq.eq_of_lt_of_lt e (by omega) (by omega)
    omega
  · right
    have h0 : (s1.toNat + s2.toNat) • A2 = 0 := by
      rw [add_nsmul, ← e, neg_nsmul, add_neg_cancel]
    rw [smul_zero_iff n2] at h0
    obtain ⟨c, hc⟩ := h0
    have : c = 1 := by
      have h1 : 0 < c := by
        rcases Nat.eq_zero_or_pos c with rfl | h
        · omega
        · exact h
      have h2 : c < 2 := by
        by_contra hcc
        have : N * 2 ≤ N * c := Nat.mul_le_mul_left _ (by omega)
        omega
      omega
    rw [this] at hc
    omega

/-- The number `s` of an accepted signature, from its bytes. -/
private theorem verify_of_bytes {pub : Keys.PubKey} {hash sig : Bytes} (h : Ecdsa.ecdsaVerify pub hash sig = .ok ()) {r s : ℤ}
    (hu : Der.unmarshal sig = .ok (r, s)) : Ecdsa.verify pub hash r s = .ok true := by
  unfold Ecdsa.ecdsaVerify at h
  rw [hu, Res.ok_bind] at h
  obtain ⟨b, hb, h⟩ := Res.bind_eq_ok.mp h
  cases b with
  | true => exact hb
  | false => cases h

section
variable (d1 d2 : ℕ) (h1 : d1 < 2 ^ 256) (h2 : d2 < 2 ^ 256) (hash : Bytes) (w1 w2 : Draw) (g1 : w1.Good) (g2 : w2.Good)
variable (k1 k2 t : ℕ) (hk1 : 1 ≤ k1 ∧ k1 < N) (hk2 : 1 ≤ k2 ∧ k2 < N) (ht : 1 ≤ t ∧ t < N)
include h1 h2 g1 g2 hk1 hk2 ht

/-- The signature Bob publishes, its number and Alice's. -/
private theorem swap_numbers (hx : (coords ((k1 * k2 * t) • G)).1 < N) (o : Swap)
    (h : swapWith (prvOf d1) (prvOf d2) t hash w1 w2 k1 k2 = .ok o) :
    ∃ s : ℤ, Der.unmarshal o.sig = .ok (o.R1.x, s) ∧ Ecdsa.verify (keyOf ((d1 * d2) • G)) hash o.R1.x s = .ok true ∧
      (0 ≤ o.aliceS ∧ o.aliceS < N) ∧ ((o.aliceS : ZMod N) = t * s ∨ (o.aliceS : ZMod N) = -(t * s)) := by
  obtain ⟨_, hp1, _, hR1, _⟩ := C72_secret d1 d2 h1 h2 hash w1 w2 g1 g2 k1 k2 t hk1 hk2 ht o h
  obtain ⟨hv, r0, s0, hs0, hm⟩ := C72_verifies_partial d1 d2 h1 h2 hash w1 w2 g1 g2 k1 k2 t hk1 hk2 ht hx o h
  obtain ⟨r, s, hu, hcase⟩ := C72_published_partial d1 d2 h1 h2 hash w1 w2 g1 g2 k1 k2 t hk1 hk2 ht o h
  have hver := verify_of_bytes hv hu
  obtain ⟨hrr, hss⟩ := verify_range hver
  obtain ⟨kinv1, kinv2, tinv, a, b, e1, e2, e3, ha, hb, ea, eb, e⟩ := swap_eq h1 h2 hash g1 g2 hk1 hk2 ht
  have h' := h
  rw [e] at h'
  obtain ⟨x, _, h'⟩ := Res.bind_eq_ok.mp h'
  obtain ⟨sig, hf, h'⟩ := Res.bind_eq_ok.mp h'
  cases h'
  dsimp only at *
  -- the r of the published signature is the x coordinate
  have hr : r = (scalarOf ((k1 * k2 % N * t) • G)).x := by
    have hX0 := (coords_on (q := (k1 * k2 % N * t) • G)
      (fun hz => prod_not_dvd (prod_range hk1 hk2) ht ((smul_zero_iff G_ne _).mp hz))).1
    rcases finish_eq (scalarOf ((k1 * k2 % N * t) • G)) hb with ⟨_, hf'⟩ | ⟨hne, hf'⟩
    · rw [hf] at hf'; cases hf'
    · rw [hf] at hf'
      cases hf'
      have hodd : 2 * ((N / 2 : ℕ) : ℤ) + 1 = N := by decide +kernel
      have hN1 : (N : ℤ) < 128 * 256 ^ 32 := by decide +kernel
      have hP1 : (P : ℤ) < 128 * 256 ^ 32 := by decide +kernel
      have hsr : 0 ≤ (if b > ((N / 2 : ℕ) : ℤ) then (N : ℤ) - b else b) ∧ (if b > ((N / 2 : ℕ) : ℤ) then (N : ℤ) - b else b) < N := by
        split <;> omega
      have hxe : (scalarOf ((k1 * k2 % N * t) • G)).x = (coords ((k1 * k2 % N * t) • G)).1 := rfl
      rw [hxe] at hu ⊢
      rw [C65_round_trip _ _ (by
        have hlen := Der.marshal_length (Der.intContent_length (k := 32) hX0.1 (by omega))
          (Der.intContent_length (k := 32) hsr.1 (by omega)) (by omega)
        omega)] at hu
      exact (Prod.mk.inj (Res.ok.inj hu)).1.symm
  have hta : (t : ZMod N) * b = a := by rw [eb]; linear_combination (a : ZMod N) * e3
  rw [hp1] at hver
  subst hr
  refine ⟨s, hu, hver, ha, ?_⟩
  rcases hcase with ⟨_, hs, _⟩ | ⟨_, hs, _⟩
  · left; rw [hs, hta]
  · right
    rw [hs]
    push_cast
    rw [ZMod.natCast_self]
    linear_combination -hta

/-- **C129 (partial)**: after an exchange that both followed, from every signature at all that is accepted for the hash under the
shared key and has the x coordinate of the shared point as its `r`, whoever made it, Alice's phase 6 computes Bob's secret or
its opposite. Missing: the opposite is not told from the secret; shared points with an x coordinate below P - N or not below N; a
Bob who does not follow the protocol (`C129_negation`). -/
theorem C129_published_partial (hx : (P - N : ℤ) ≤ (coords ((k1 * k2 * t) • G)).1 ∧ (coords ((k1 * k2 * t) • G)).1 < N) (o : Swap)
    (h : swapWith (prvOf d1) (prvOf d2) t hash w1 w2 k1 k2 = .ok o) (sig : Bytes) (s : ℤ)
    (hv : Ecdsa.ecdsaVerify o.pub1 hash sig = .ok ()) (hu : Der.unmarshal sig = .ok (o.R1.x, s)) :
    alicePhase6 o.aliceS s = .ok (t : ℤ) ∨ alicePhase6 o.aliceS s = .ok (N - t : ℤ) := by
  obtain ⟨_, hp1, _, hR1, _⟩ := C72_secret d1 d2 h1 h2 hash w1 w2 g1 g2 k1 k2 t hk1 hk2 ht o h
  obtain ⟨s0, hu0, hv0, ha, hcase⟩ := swap_numbers d1 d2 h1 h2 hash w1 w2 g1 g2 k1 k2 t hk1 hk2 ht hx.2 o h
  have hver := verify_of_bytes hv hu
  rw [hp1] at hver
  obtain ⟨_, hs⟩ := verify_range hver
  have hun := C129_unique _ hash o.R1.x s s0 (by rw [hR1]; exact hx.1) hver hv0
  have hpm : (o.aliceS : ZMod N) = t * s ∨ (o.aliceS : ZMod N) = -(t * s) := by
    rcases hun with rfl | hsum
    · exact hcase
    · have : (s0 : ZMod N) = -s := by
        have := congrArg (Int.cast : ℤ → ZMod N) hsum
        push_cast at this
        rw [ZMod.natCast_self] at this
        linear_combination this
      rcases hcase with hc | hc
      · right; rw [hc, this]; ring
      · left; rw [hc, this]; ring
  rcases phase6_eq (a := o.aliceS) (b := s) ⟨by omega, hs.2⟩ with ⟨h0, _⟩ | ⟨_, y, hy, hyr, hye⟩
  · omega
  · have hsne : (s : ZMod N) ≠ 0 := by rw [Ne, cast_zero_iff (p := N) ⟨by omega, hs.2⟩]; omega
    rw [hy]
    rcases hpm with hc | hc
    · left
      congr 1
      refine eq_of_cast hyr ht.2 (mul_right_cancel₀ hsne ?_)
      rw [hye, hc]
    · right
      congr 1
      have : (y : ZMod N) = ((N - t : ℕ) : ZMod N) := by
        refine mul_right_cancel₀ hsne ?_
        rw [hye, hc, Nat.cast_sub ht.2.le, ZMod.natCast_self]
        ring
      rw [eq_of_cast hyr (by omega) this]
      push_cast [ht.2.le]
      rfl

/-- **C129**: Alice's own number is not a signature (unless the secret is 1 or its opposite): she has to wait for Bob's. -/
theorem C129_alice_partial (hx : (P - N : ℤ) ≤ (coords ((k1 * k2 * t) • G)).1 ∧ (coords ((k1 * k2 * t) • G)).1 < N) (o : Swap)
    (h : swapWith (prvOf d1) (prvOf d2) t hash w1 w2 k1 k2 = .ok o) :
    (Ecdsa.verify o.pub1 hash o.R1.x o.aliceS = .ok true ∨ Ecdsa.verify o.pub1 hash o.R1.x (N - o.aliceS) = .ok true) ↔
      t = 1 ∨ t = N - 1 := by
  obtain ⟨_, hp1, _, hR1, _⟩ := C72_secret d1 d2 h1 h2 hash w1 w2 g1 g2 k1 k2 t hk1 hk2 ht o h
  obtain ⟨s0, hu0, hv0, ha, hcase⟩ := swap_numbers d1 d2 h1 h2 hash w1 w2 g1 g2 k1 k2 t hk1 hk2 ht hx.2 o h
  obtain ⟨_, hs⟩ := verify_range hv0
  have hsne : (s0 : ZMod N) ≠ 0 := by rw [Ne, cast_zero_iff (p := N) ⟨by omega, hs.2⟩]; omega
  have hN1 : 1 < N := by decide +kernel
  -- t = ±1 is aliceS = ±s0
  have key : (t = 1 ∨ t = N - 1) ↔ ((o.aliceS : ZMod N) = s0 ∨ (o.aliceS : ZMod N) = -s0) := by
    have e1 : t = 1 ↔ (t : ZMod N) = 1 := by
      constructor
      · rintro rfl; simp
      · intro e
        have : (t : ZMod N) = ((1 : ℕ) : ZMod N) := by rw [e]; simp
        rw [ZMod.natCast_eq_natCast_iff] at this
        exact Nat.ModEq.eq_of_lt_of_lt this ht.2 hN1
    have e2 : t = N - 1 ↔ (t : ZMod N) = -1 := by
      have hc : ((N - 1 : ℕ) : ZMod N) = -1 := by rw [Nat.cast_sub hN1.le, ZMod.natCast_self]; simp
      constructor
      · rintro rfl; exact hc
      · intro e
        have : (t : ZMod N) = ((N - 1 : ℕ) : ZMod N) := by rw [e, hc]
        rw [ZMod.natCast_eq_natCast_iff] at this
        exact Nat.ModEq.eq_of_lt_of_lt this ht.2 (by omega)
    rw [e1, e2]
    rcases hcase with hc | hc
    · rw [hc]
      constructor
      · rintro (e | e) <;> rw [e]
        · left; ring
        · right; ring
      · rintro (e | e)
        · left; exact mul_right_cancel₀ hsne (by rw [e]; ring)
        · right; exact mul_right_cancel₀ hsne (by rw [e]; ring)
    · rw [hc]
      constructor
      · rintro (e | e) <;> rw [e]
        · right; ring
        · left; ring
      · rintro (e | e)
        · right; exact mul_right_cancel₀ hsne (by linear_combination -e)
        · left; exact mul_right_cancel₀ hsne (by linear_combination -e)
  rw [hp1, key]
  have hrx : (P - N : ℤ) ≤ o.R1.x := by rw [hR1]; exact hx.1
  constructor
  · rintro (hv | hv)
    · rcases C129_unique _ hash _ _ _ hrx hv hv0 with e | e
      · left; rw [e]
      · right
        have := congrArg (Int.cast : ℤ → ZMod N) e
        push_cast at this
        rw [ZMod.natCast_self] at this
        linear_combination this
    · rcases C129_unique _ hash _ _ _ hrx hv hv0 with e | e
      · right
        have := congrArg (Int.cast : ℤ → ZMod N) e
        push_cast at this
        rw [ZMod.natCast_self] at this
        linear_combination -this
      · left
        have := congrArg (Int.cast : ℤ → ZMod N) e
        push_cast at this
        rw [ZMod.natCast_self] at this
        linear_combination -this
  · rintro (e | e)
    · left
      have : o.aliceS = s0 := (Ecdsa.castN_inj ha ⟨by omega, hs.2⟩).mp e
      rw [this]
      exact hv0
    · right
      have hne : o.aliceS ≠ 0 := by
        intro h0
        rw [h0] at e
        push_cast at e
        exact hsne (by linear_combination e)
      have : (N : ℤ) - o.aliceS = s0 := by
        refine (Ecdsa.castN_inj ⟨by omega, by omega⟩ ⟨by omega, hs.2⟩).mp ?_
        push_cast
        rw [ZMod.natCast_self]
        linear_combination -e
      rw [this]
      exact hv0

end

/-- The exchange when Bob sends `ct2` as his ciphertext of phase 4, whatever it is, and does everything else as he should. -/
def swapSending (ct2 : Option ℤ) (alice : EcdsaParty) (bob : EcdsaBob) (phase2a : Phase2)
    (phase2b : Res (EcdsaBob × ℤ × Paillier.PubKey × Scalar)) : Res Swap := do
  let pub1 ← alice.phase1 bob.party.prv.pub
  let pub2 ← bob.party.phase1 alice.prv.pub
  let (alice, _, _, r1) ← phase2a
  let (bob, encpk2, encpub2, r2) ← phase2b
  let R1 ← alice.phase3 r2
  let R2 ← bob.phase3 r1
  let ct1 ← alice.phase4 (some encpk2) encpub2 R1
  let aliceS ← alicePhase5 alice ct2
  let bobS ← bob.phase5 ct1
  let secret ← alicePhase6 aliceS bobS
  let sig ← bob.phase6 R2 bobS
  return ⟨pub1, pub2, R1, R2, aliceS, bobS, sig, secret⟩

/-- `swapSending` with given nonces -/
def swapSendingWith (ct2 : Option ℤ) (prv1 prv2 : Keys.PrvKey) (t : ℕ) (hash : Bytes) (w1 w2 : Draw) (k1 k2 : ℕ) : Res Swap :=
  swapSending ct2 (newEcdsaParty prv1) ⟨t, newEcdsaParty prv2⟩ ((newEcdsaParty prv1).phase2With k1 w1.p w1.q w1.rnd hash)
    (EcdsaBob.phase2From ⟨t, newEcdsaParty prv2⟩ ((newEcdsaParty prv2).phase2With k2 w2.p w2.q w2.rnd hash))

/-- **C129** fails if Bob does not follow the protocol: in phase 4 he sends an encryption of 0 under Alice's Paillier key. None of
Alice's phases notices, the signature Bob publishes is the one he would have published (accepted under the shared key,
`C72_verifies_partial`), and what Alice computes from it is 0, whatever the keys, the nonces, the hash and the secret. -/
theorem C129_negation (d1 d2 : ℕ) (h1 : d1 < 2 ^ 256) (h2 : d2 < 2 ^ 256) (hash : Bytes) (w1 w2 : Draw) (g1 : w1.Good) (g2 : w2.Good)
    (k1 k2 t : ℕ) (hk1 : 1 ≤ k1 ∧ k1 < N) (hk2 : 1 ≤ k2 ∧ k2 < N) (ht : 1 ≤ t ∧ t < N) (o : Swap)
    (h : swapWith (prvOf d1) (prvOf d2) t hash w1 w2 k1 k2 = .ok o) :
    ∃ ct2, Paillier.encrypt (Paillier.generateKeyPair w1.p w1.q).1 1 0 = .ok ct2 ∧
      swapSendingWith (some ct2) (prvOf d1) (prvOf d2) t hash w1 w2 k1 k2 = .ok { o with aliceS := 0, secret := 0 } := by
  obtain ⟨kinv1, i1, a0, a1, e1⟩ := inv_ok hk1
  obtain ⟨kinv2, i2, b0, b1, e2⟩ := inv_ok hk2
  obtain ⟨tinv, i3, t0, t1, e3⟩ := inv_ok ht
  have big : (2 : ℕ) ^ 256 ≤ 2 ^ 1025 := by decide +kernel
  have l1 : d1 < w1.p * w1.q := by have := g1.2.1; omega
  have l2 : d2 < w2.p * w2.q := by have := g2.2.1; omega
  obtain ⟨c0, hc0, ec0⟩ := Paillier.encrypt_enc (Paillier.one_lt g1.1) (Nat.coprime_one_left (w1.p * w1.q)) (m := 0) (by omega)
    (by have := Paillier.one_lt g1.1; omega)
  refine ⟨c0, hc0, ?_⟩
  obtain ⟨c1, hc1, ec1⟩ := encryptKey_ok (d := d1) g1.1 g1.2.2 l1
  obtain ⟨c2, hc2, ec2⟩ := encryptKey_ok (d := d2) g2.1 g2.2.2 l2
  have p1 := phase2_ok i1 (prvOf d1) hash hc1
  have p2 := phase2_ok i2 (prvOf d2) hash hc2
  have ps0 := partialS_ok (prv := prvOf d1) (k := k1) (kinv := kinv1) (hash := hash) g1.1 ec0 (by omega)
    (by have := Paillier.one_lt g1.1; omega)
  rw [zero_mul, Int.zero_emod] at ps0
  unfold swapWith swap at h
  dsimp only at h
  obtain ⟨pub1, q1, h⟩ := Res.bind_eq_ok.mp h
  obtain ⟨pub2, q2, h⟩ := Res.bind_eq_ok.mp h
  rw [p1, Res.ok_bind] at h
  dsimp only at h
  rw [p2, phase2From_ok, Res.ok_bind] at h
  dsimp only at h
  obtain ⟨R1, q3, h⟩ := Res.bind_eq_ok.mp h
  obtain ⟨R2, q4, h⟩ := Res.bind_eq_ok.mp h
  obtain ⟨ct1, q5, h⟩ := Res.bind_eq_ok.mp h
  obtain ⟨ct2, q6, h⟩ := Res.bind_eq_ok.mp h
  obtain ⟨aliceS, q7, h⟩ := Res.bind_eq_ok.mp h
  obtain ⟨bobS, q8, h⟩ := Res.bind_eq_ok.mp h
  obtain ⟨secret, q9, h⟩ := Res.bind_eq_ok.mp h
  obtain ⟨sig, q10, h⟩ := Res.bind_eq_ok.mp h
  cases h
  have q9' : alicePhase6 0 bobS = .ok 0 := by
    unfold alicePhase6 at q9 ⊢
    cases hm : Num.modInverse bobS N with
    | none => rw [hm] at q9; cases q9
    | some inv => simp
  unfold swapSendingWith swapSending
  dsimp only
  rw [q1, Res.ok_bind, q2, Res.ok_bind, p1, Res.ok_bind]
  dsimp only
  rw [p2, phase2From_ok, Res.ok_bind]
  dsimp only
  rw [q3, Res.ok_bind, q4, Res.ok_bind, q5, Res.ok_bind]
  unfold alicePhase5
  rw [ps0, Res.ok_bind, q8, Res.ok_bind, q9', Res.ok_bind, q10, Res.ok_bind]
  rfl

/-- The hypotheses can be met: private keys 1, nonces 1, the empty hash and the secret 2. Bob's signature is accepted, it gives Alice 2 or
N - 2, her own number is no signature; and a Bob who sends an encryption of 0 leaves her with 0. -/
example : ∃ w : Draw, w.Good ∧ ∃ o s, swapWith (prvOf 1) (prvOf 1) 2 [] w w 1 1 = .ok o ∧
    Ecdsa.ecdsaVerify o.pub1 [] o.sig = .ok () ∧ Der.unmarshal o.sig = .ok (o.R1.x, s) ∧
    (alicePhase6 o.aliceS s = .ok 2 ∨ alicePhase6 o.aliceS s = .ok (N - 2 : ℤ)) ∧
    Ecdsa.verify o.pub1 [] o.R1.x o.aliceS ≠ .ok true ∧
    ∃ ct2 o', swapSendingWith (some ct2) (prvOf 1) (prvOf 1) 2 [] w w 1 1 = .ok o' ∧ o'.sig = o.sig ∧ o'.secret = 0 := by
  obtain ⟨w, g⟩ := exists_draw
  have hone : 1 ≤ 1 ∧ 1 < N := by decide +kernel
  have htwo : 1 ≤ 2 ∧ 2 < N := by decide +kernel
  obtain ⟨o, ho, _⟩ := C72_negation w w g g
  have hx : (P - N : ℤ) ≤ (coords ((1 * 1 * 2) • G)).1 ∧ (coords ((1 * 1 * 2) • G)).1 < N := by
    rw [show 1 * 1 * 2 = 2 from rfl, coords_two]
    decide +kernel
  have hv := (C72_verifies_partial 1 1 (by norm_num) (by norm_num) [] w w g g 1 1 2 hone hone htwo hx.2 o ho).1
  obtain ⟨s, hu, _⟩ := swap_numbers 1 1 (by norm_num) (by norm_num) [] w w g g 1 1 2 hone hone htwo hx.2 o ho
  obtain ⟨ct2, _, hc⟩ := C129_negation 1 1 (by norm_num) (by norm_num) [] w w g g 1 1 2 hone hone htwo o ho
  refine ⟨w, g, o, s, ho, hv, hu, ?_, ?_, ct2, _, hc, rfl, rfl⟩
  · exact C129_published_partial 1 1 (by norm_num) (by norm_num) [] w w g g 1 1 2 hone hone htwo hx o ho o.sig s hv hu
  · intro hbad
    have := (C129_alice_partial 1 1 (by norm_num) (by norm_num) [] w w g g 1 1 2 hone hone htwo hx o ho).mp (.inl hbad)
    exact absurd this (by decide +kernel)

end Toku.Props
