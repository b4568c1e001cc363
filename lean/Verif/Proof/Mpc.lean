import Verif.Model.Mpc
import Verif.Proof.Paillier
import Verif.Proof.Ecdsa
import Verif.Proof.Nonce
import Verif.Proof.Order
import Verif.Proof.Schnorr
/-
Helper lemmas for the two-party protocols.
-/
namespace Toku.Mpc
open Toku.Curve Toku.Keys Toku.Spec Toku.Paillier

/-- The scalar holding a point. -/
def scalarOf (q : Pt) : Scalar := ⟨(coords q).1, (coords q).2⟩

/-- There is no point with x coordinate 0: 7 is not a square. -/
theorem x_ne {q : Pt} (h : q ≠ 0) : (coords q).1 ≠ 0 := by
  obtain ⟨_, _, hon⟩ := coords_on h
  rw [isOnCurve_iff] at hon
  intro h0
  rw [h0] at hon
  have hsq : IsSquare ((7 : ℕ) : ZMod P) := ⟨((coords q).2 : ZMod P), by
    have : ((7 : ℕ) : ZMod P) = 7 := by norm_cast
    rw [this]; push_cast at hon; linear_combination -hon⟩
  have he := (ZMod.euler_criterion P seven_ne).mp hsq
  have hc : ((7 ^ (P / 2) % P : ℕ) : ZMod P) = 1 := by
    rw [ZMod.natCast_mod, Nat.cast_pow]; exact he
  rw [← Primes.powMod_eq P 256 7 (P / 2) (by decide +kernel)] at hc
  have hv : Primes.powMod P 256 7 (P / 2) = P - 1 := by decide +kernel
  rw [hv] at hc
  have hm : ((P - 1 : ℕ) : ZMod P) = -1 := by
    rw [Nat.cast_sub (by decide +kernel), ZMod.natCast_self]; norm_num
  rw [hm] at hc
  have h2 : ((2 : ℕ) : ZMod P) = 0 := by push_cast; linear_combination -hc
  exact natCast_ne_zero (by decide) (by decide +kernel) h2

theorem mult_scalar (q : Pt) (k : ℕ) : mult (scalarOf q).x (scalarOf q).y (natToBE k) = .ok (coords (k • q)) := by
  unfold scalarOf
  rw [mult_coords, natOfBE_natToBE]

/-! ### ECDSA -/

theorem encryptKey_ok {p q rnd d : ℕ} (h : PaillierPrimes p q) (hr : Nat.Coprime rnd (p * q)) (hd : d < p * q) :
    ∃ c, encryptKey (generateKeyPair p q).1 rnd d = .ok c ∧ Enc (p * q) c d := by
  obtain ⟨c, hc, he⟩ := encrypt_enc (one_lt h) hr (m := d) (by omega) (by exact_mod_cast hd)
  refine ⟨c, ?_, he⟩
  unfold encryptKey
  have : encrypt (generateKeyPair p q).1 rnd d = .ok c := hc
  rw [this]

theorem inv_ok {k : ℕ} (hk : 1 ≤ k ∧ k < N) :
    ∃ kinv, Num.modInverse k N = some kinv ∧ 0 ≤ kinv ∧ kinv < N ∧ (kinv : ZMod N) * k = 1 := by
  have hk0 : ((k : ℤ) : ZMod N) ≠ 0 := by
    rw [Ne, cast_zero_iff (p := N) ⟨by omega, by exact_mod_cast hk.2⟩]; omega
  obtain ⟨w, h, h0, h1, hw⟩ := Num.modInverse_prime Primes.prime_N k hk0
  refine ⟨w, h, h0, h1, ?_⟩
  rw [Int.cast_natCast] at hw
  exact hw

/-- The party after Phase2. -/
def ready (prv : Keys.PrvKey) (k : ℕ) (kinv : ℤ) (hash : Bytes) (p q : ℕ) : EcdsaParty :=
  ⟨prv, some k, some kinv, hash, some (generateKeyPair p q).2⟩

theorem phase2_ok {p q rnd k : ℕ} {kinv : ℤ} (hk : Num.modInverse k N = some kinv) (prv : Keys.PrvKey) (hash : Bytes) {c : ℤ}
    (he : encryptKey (generateKeyPair p q).1 rnd prv.d = .ok c) :
    (newEcdsaParty prv).phase2With k p q rnd hash =
      .ok (ready prv k kinv hash p q, c, (generateKeyPair p q).1, scalarOf (k • G)) := by
  unfold EcdsaParty.phase2With newEcdsaParty
  dsimp only
  rw [he, Res.ok_bind, hk, baseMult_coords, natOfBE_natToBE, Res.ok_bind]
  unfold scalarOf ready
  generalize coords (k • G) = c
  obtain ⟨x, y⟩ := c
  rfl

theorem phase3_ok (prv : Keys.PrvKey) (k : ℕ) (kinv : ℤ) (hash : Bytes) (p q : ℕ) (r : Pt) :
    (ready prv k kinv hash p q).phase3 (scalarOf r) = .ok (scalarOf (k • r)) := by
  unfold EcdsaParty.phase3 ready
  dsimp only
  rw [mult_scalar, Res.ok_bind]
  unfold scalarOf
  generalize coords (k • r) = c
  obtain ⟨x, y⟩ := c
  rfl

theorem phase4_ok {prv : Keys.PrvKey} {k : ℕ} {kinv : ℤ} {hash : Bytes} {p q p2 q2 : ℕ} (h2 : PaillierPrimes p2 q2) {c2 : ℤ} {d2 : ℕ}
    (hc : Enc (p2 * q2) c2 d2) (R : Scalar) :
    ∃ ct, (ready prv k kinv hash p q).phase4 (some c2) (generateKeyPair p2 q2).1 R = .ok (some ct) ∧
      Enc (p2 * q2) ct ((d2 * prv.d * R.x + Ecdsa.hashToInt hash) * kinv) := by
  unfold EcdsaParty.phase4 ready multNil
  dsimp only
  have hn := one_lt h2
  have e : (generateKeyPair p2 q2).1 = Paillier.keyOf (p2 * q2) := rfl
  rw [e]
  obtain ⟨a, ha, ea⟩ := mult_enc hn hc prv.d
  obtain ⟨b, hb, eb⟩ := mult_enc hn ea R.x
  obtain ⟨g, hg, eg⟩ := addPlain_enc hn eb (Ecdsa.hashToInt hash)
  obtain ⟨f, hf, ef⟩ := mult_enc hn eg kinv
  rw [ha, Res.ok_bind, hb, Res.ok_bind, hg, Res.ok_bind]
  exact ⟨f, hf, ef⟩

theorem partialS_ok {prv : Keys.PrvKey} {k : ℕ} {kinv : ℤ} {hash : Bytes} {p q : ℕ} (h : PaillierPrimes p q) {ct m : ℤ}
    (hc : Enc (p * q) ct m) (h0 : 0 ≤ m) (h1 : m < (p * q : ℕ)) :
    (ready prv k kinv hash p q).partialS (some ct) = .ok ((m * kinv) % N) := by
  unfold EcdsaParty.partialS ready decryptNil
  dsimp only
  rw [decrypt_enc h hc, Int.emod_eq_of_lt h0 h1]
  rfl

theorem hashToInt_lt (hash : Bytes) : Ecdsa.hashToInt hash < 2 ^ 256 := by
  rw [Ecdsa.hashToInt_eq]
  unfold hashNum
  have h1 := natOfBE_lt (hash.take 32)
  have h2 : 256 ^ (hash.take 32).length ≤ 256 ^ 32 := Nat.pow_le_pow_right (by norm_num) (by rw [List.length_take]; omega)
  have h3 : (256 : ℕ) ^ 32 = 2 ^ 256 := by norm_num
  have : beNat (hash.take 32) = natOfBE (hash.take 32) := rfl
  omega

/-- No intermediate number reaches the Paillier modulus. -/
theorem no_wrap {n d1 d2 z : ℕ} {X kinv : ℤ} (hn : 2 ^ 1025 ≤ n) (h1 : d1 < 2 ^ 256) (h2 : d2 < 2 ^ 256) (hz : z < 2 ^ 256)
    (hX : 0 ≤ X ∧ X < P) (hk : 0 ≤ kinv ∧ kinv < N) :
    0 ≤ ((d1 : ℤ) * d2 * X + z) * kinv ∧ ((d1 : ℤ) * d2 * X + z) * kinv < n := by
  obtain ⟨X, rfl⟩ := Int.eq_ofNat_of_zero_le hX.1
  obtain ⟨kinv, rfl⟩ := Int.eq_ofNat_of_zero_le hk.1
  refine ⟨by positivity, ?_⟩
  have hP : P < 2 ^ 256 := by decide +kernel
  have hN : N < 2 ^ 256 := by decide +kernel
  have hX2 : X < 2 ^ 256 := by have := hX.2; omega
  have hk2 : kinv < 2 ^ 256 := by have := hk.2; omega
  have a : d1 * d2 ≤ 2 ^ 256 * 2 ^ 256 := Nat.mul_le_mul h1.le h2.le
  have b : d1 * d2 * X ≤ 2 ^ 256 * 2 ^ 256 * 2 ^ 256 := Nat.mul_le_mul a hX2.le
  have c : (d1 * d2 * X + z) * kinv ≤ (2 ^ 256 * 2 ^ 256 * 2 ^ 256 + 2 ^ 256) * 2 ^ 256 :=
    Nat.mul_le_mul (by omega) hk2.le
  have e : (2 ^ 256 * 2 ^ 256 * 2 ^ 256 + 2 ^ 256) * 2 ^ 256 < 2 ^ 1025 := by decide +kernel
  have : (d1 * d2 * X + z) * kinv < n := by omega
  exact_mod_cast this

/-- The number s of the joint signature. -/
def jointS (d1 d2 : ℕ) (X : ℤ) (hash : Bytes) (kinv1 kinv2 : ℤ) : ℤ :=
  (((d1 : ℤ) * d2 * X + Ecdsa.hashToInt hash) * kinv1 * kinv2) % N

theorem jointS_range (d1 d2 : ℕ) (X : ℤ) (hash : Bytes) (kinv1 kinv2 : ℤ) :
    0 ≤ jointS d1 d2 X hash kinv1 kinv2 ∧ jointS d1 d2 X hash kinv1 kinv2 < N := mod_range (p := N) _

theorem jointS_cast {d1 d2 : ℕ} {X : ℤ} {hash : Bytes} {kinv1 kinv2 : ℤ} :
    (jointS d1 d2 X hash kinv1 kinv2 : ZMod N) = (d1 * d2 * X + Ecdsa.hashToInt hash) * kinv1 * kinv2 := by
  unfold jointS; rw [Ecdsa.mod_N]; push_cast; rfl

/-- The number s of a nonce: what signing computes. -/
theorem finish_single {d k : ℕ} {s : ℤ} (hk : 1 ≤ k ∧ k < N) (hash : Bytes) (hs : 0 ≤ s ∧ s < N)
    (hX : (coords (k • G)).1 < N) (he : (s : ZMod N) * k = d * (coords (k • G)).1 + Ecdsa.hashToInt hash) :
    finish (scalarOf (k • G)) s =
      (Ecdsa.signWith k (d % N) hash >>= fun rs => .ok (Der.marshal rs.1 rs.2)) := by
  have hR : k • G ≠ 0 := Ecdsa.smul_ne hk.1 hk.2
  have hx0 := (coords_on hR).1.1
  have hxne := x_ne hR
  obtain ⟨kinv, hkinv, a0, a1, a2⟩ := inv_ok hk
  unfold Ecdsa.signWith
  rw [baseMult_coords, natOfBE_natToBE]
  unfold finish scalarOf
  generalize coords (k • G) = c at hX hx0 hxne he
  obtain ⟨x, y⟩ := c
  dsimp only at hX hx0 hxne he ⊢
  have hxm : x % N = x := Int.emod_eq_of_lt hx0 hX
  rw [Res.ok_bind]
  dsimp only
  rw [hxm, if_neg hxne, hkinv]
  dsimp only
  have hs : (((d % N : ℕ) : ℤ) * x + (Ecdsa.hashToInt hash : ℕ)) * kinv % N = s := by
    rw [← Int.emod_eq_of_lt hs.1 hs.2]
    change _ ≡ _ [ZMOD N]
    rw [← ZMod.intCast_eq_intCast_iff]
    push_cast
    linear_combination (s : ZMod N) * a2 - (kinv : ZMod N) * he
  rw [hs]
  by_cases hz : (if s > ((N / 2 : ℕ) : ℤ) then (N : ℤ) - s else s) = 0
  · rw [if_pos hz, if_pos hz]; rfl
  · rw [if_neg hz, if_neg hz]; rfl

/-- What the end of the protocol returns. -/
theorem finish_eq (R : Scalar) {s : ℤ} (hs : 0 ≤ s ∧ s < N) :
    (s = 0 ∧ finish R s = .err Ecdsa.errSZero) ∨
    (s ≠ 0 ∧ finish R s = .ok (Der.marshal R.x (if s > (N / 2 : ℕ) then N - s else s))) := by
  have h2 : ((N / 2 : ℕ) : ℤ) < N := by decide +kernel
  have h3 : (0 : ℤ) < (N / 2 : ℕ) := by decide +kernel
  unfold finish
  dsimp only
  rcases eq_or_ne s 0 with h | h
  · left
    refine ⟨h, ?_⟩
    rw [if_neg (show ¬ s > ((N / 2 : ℕ) : ℤ) by omega), if_pos h]
  · right
    refine ⟨h, ?_⟩
    rw [if_neg]
    split <;> omega

/-! ### The scriptless exchange -/

theorem phase2From_ok (t : ℕ) (party party' : EcdsaParty) (c : ℤ) (pk : Paillier.PubKey) (r : Pt) :
    EcdsaBob.phase2From ⟨t, party⟩ (.ok (party', c, pk, scalarOf r)) = .ok (⟨t, party'⟩, c, pk, scalarOf (t • r)) := by
  unfold EcdsaBob.phase2From
  rw [Res.ok_bind]
  dsimp only
  rw [mult_scalar, Res.ok_bind]
  unfold scalarOf
  generalize coords (t • r) = c
  obtain ⟨x, y⟩ := c
  rfl

theorem bobPhase3_ok (t : ℕ) (prv : Keys.PrvKey) (k : ℕ) (kinv : ℤ) (hash : Bytes) (p q : ℕ) (r : Pt) :
    (⟨t, ready prv k kinv hash p q⟩ : EcdsaBob).phase3 (scalarOf r) = .ok (scalarOf (t • k • r)) := by
  unfold EcdsaBob.phase3
  dsimp only
  rw [phase3_ok, Res.ok_bind, mult_scalar, Res.ok_bind]
  unfold scalarOf
  generalize coords (t • k • r) = c
  obtain ⟨x, y⟩ := c
  rfl

theorem bobPhase5_ok {t : ℕ} {tinv : ℤ} (ht : Num.modInverse t N = some tinv) {prv : Keys.PrvKey} {k : ℕ} {kinv : ℤ} {hash : Bytes}
    {p q : ℕ} (h : PaillierPrimes p q) {ct m : ℤ} (hc : Enc (p * q) ct m) (h0 : 0 ≤ m) (h1 : m < (p * q : ℕ)) :
    (⟨t, ready prv k kinv hash p q⟩ : EcdsaBob).phase5 (some ct) = .ok ((m * kinv * tinv) % N) := by
  unfold EcdsaBob.phase5 ready decryptNil
  dsimp only
  rw [decrypt_enc h hc, Int.emod_eq_of_lt h0 h1, Res.ok_bind, ht]
  rfl

end Toku.Mpc
