import Verif.Proof.Nonce
import Verif.Proof.DerSpec
import Verif.Props.Keys
/-
Properties C62 to C65: ECDSA signatures, nonces and the DER form of signatures.
-/
namespace Toku.Props
open Toku Toku.Spec Toku.Curve Toku.Keys Toku.Ecdsa

/-! ### C62 -/

/-- Verification is the textbook test, for every point as public key and all numbers. -/
theorem C62_verify (q : Pt) (hash : Bytes) (r s : ℤ) :
    verify (keyOf q) hash r s = .ok true ∧ Signature q hash r s ∨ verify (keyOf q) hash r s = .ok false ∧ ¬ Signature q hash r s := by
  by_cases hr : 1 ≤ r ∧ r < N
  swap
  · right
    refine ⟨?_, fun h => hr h.1⟩
    unfold verify
    split
    · rfl
    · rw [if_pos (by omega)]
  by_cases hs : 1 ≤ s ∧ s < N
  swap
  · right
    refine ⟨?_, fun h => hs h.2.1⟩
    unfold verify
    split
    · rfl
    · rw [if_pos (by omega)]
  obtain ⟨w, u1, u2, hw, hwN, e1, e2, hv⟩ := verify_num q hash hr hs
  have hu : ∀ w' : ℕ, (w' * s) % N = 1 → w' < N → w' = w := fun w' => inverse_unique hw hwN
  have main : Signature q hash r s ↔ u1 • G + u2 • q ≠ 0 ∧ (coords (u1 • G + u2 • q)).1 % N = r := by
    constructor
    · rintro ⟨_, _, w', v1, v2, hw', hwN', f1, f2, g, hg, h1, h2⟩
      rw [hu w' hw' hwN'] at f1 f2
      rw [← coords_G] at hg
      have hg := coords_inj hg
      have hv1 : v1 = u1 := by rw [f1, e1]
      have hv2 : v2 = u2 := by
        have : (v2 : ℤ) = u2 := by rw [f2, e2]
        exact_mod_cast this
      rw [hg, hv1, hv2] at h1 h2
      exact ⟨h1, h2⟩
    · rintro ⟨h1, h2⟩
      exact ⟨hr, hs, w, u1, u2, hw, hwN, e1, e2, G, coords_G, h1, h2⟩
  rw [main]
  unfold keyOf
  rw [hv]
  by_cases h : u1 • G + u2 • q ≠ 0 ∧ (coords (u1 • G + u2 • q)).1 % N = r
  · left
    refine ⟨?_, h⟩
    rw [decide_eq_true h.1, Bool.true_and, h.2]
    simp
  · right
    refine ⟨?_, h⟩
    congr 1
    rw [Bool.and_eq_false_iff]
    by_cases h1 : u1 • G + u2 • q ≠ 0
    · right
      have : ¬ (coords (u1 • G + u2 • q)).1 % N = r := fun h2 => h ⟨h1, h2⟩
      simpa using this
    · left; simpa using h1

/-- **C62**, for every source of nonces: with any nonce in range the signature is accepted under the public key, and is
a signature by the textbook. -/
theorem C62_sign_any_nonce (k d : ℕ) (hk : 1 ≤ k ∧ k < N) (hash : Bytes) (r s : ℤ) (h : signWith k d hash = .ok (r, s)) :
    verify (keyOf (d • G)) hash r s = .ok true ∧ Signature (d • G) hash r s := by
  have hv := verify_sign hk.1 hk.2 h
  refine ⟨hv, ?_⟩
  rcases C62_verify (d • G) hash r s with h | h
  · exact h.2
  · unfold keyOf at h
    rw [hv] at h
    cases h.1

/-- **C62**, with the numbers: every private key made from bytes signs to what its public key accepts. -/
theorem C62_sign [Hashes] (fuel : ℕ) (key hash : Bytes) (prv : PrvKey) (hp : prvFromBytes key = .ok prv) (r s : ℤ)
    (h : sign fuel prv.d hash = .ok (r, s)) : verify prv.pub hash r s = .ok true := by
  obtain ⟨k, _, hk, hs⟩ := sign_ok h
  rw [C61_prvFromBytes] at hp
  cases hp
  exact (C62_sign_any_nonce k _ hk hash r s hs).1

/-- **C63.** Signing with any nonce in range returns numbers in range with a low s, or one of the two errors. -/
theorem C63_range_any_nonce (k d : ℕ) (hk : 1 ≤ k ∧ k < N) (hash : Bytes) :
    signWith k d hash = .err errRZero ∨ signWith k d hash = .err errSZero ∨
    ∃ r s : ℤ, signWith k d hash = .ok (r, s) ∧ (1 ≤ r ∧ r < N) ∧ (1 ≤ s ∧ 2 * s < N) := by
  rcases signWith_cases (d := d) (hash := hash) hk.1 hk.2 with h | h | ⟨⟨r, s⟩, h⟩
  · exact Or.inl h
  · exact Or.inr (Or.inl h)
  · obtain ⟨_, hr, hs, _⟩ := signWith_ok hk.1 hk.2 h
    refine Or.inr (Or.inr ⟨r, s, h, hr, hs.1, ?_⟩)
    have h2 : 2 * ((N / 2 : ℕ) : ℤ) < N := by decide +kernel
    have := hs.2
    omega

/-- **C63.** Signing, when the nonce function has returned: numbers in range with a low s, or one of the two errors. -/
theorem C63_range [Hashes] (fuel d : ℕ) (hash : Bytes) :
    sign fuel d hash = .err errRunning ∧ nonce N fuel d hash = none ∨
    sign fuel d hash = .err errRZero ∨ sign fuel d hash = .err errSZero ∨
    ∃ r s : ℤ, sign fuel d hash = .ok (r, s) ∧ (1 ≤ r ∧ r < N) ∧ (1 ≤ s ∧ 2 * s < N) := by
  unfold sign
  cases e : nonce N fuel d hash with
  | none => exact Or.inl ⟨rfl, rfl⟩
  | some k => exact Or.inr (C63_range_any_nonce k d (nonce_range e) hash)

/-- **C63**, what the numbers are: r is the x coordinate of kG modulo N and `s k = ±(e + d r)`, for the nonce k. -/
theorem C63_equation (k d : ℕ) (hk : 1 ≤ k ∧ k < N) (hash : Bytes) (r s : ℤ) (h : signWith k d hash = .ok (r, s)) :
    r = (coords (k • G)).1 % N ∧
    (s * k ≡ hashNum hash + d * r [ZMOD N] ∨ s * k ≡ -(hashNum hash + d * r) [ZMOD N]) := by
  obtain ⟨hr, _, _, hs⟩ := signWith_ok hk.1 hk.2 h
  refine ⟨hr, ?_⟩
  rw [← ZMod.intCast_eq_intCast_iff, ← ZMod.intCast_eq_intCast_iff]
  push_cast
  rw [hashToInt_eq] at hs
  rcases hs with hs | hs
  · left; rw [hs]; ring
  · right; rw [hs]; ring

/-! ### C64 -/

/-- **C64.** For every group order the nonce is in range. -/
theorem C64_range [Hashes] (q fuel x : ℕ) (hash : Bytes) (k : ℕ) (h : nonce q fuel x hash = some k) : 1 ≤ k ∧ k < q :=
  nonce_range h

/-- **C64.** The nonce is the first candidate of the RFC 6979 recurrence that is in range; the loop runs on exactly if
none of the candidates so far is. -/
theorem C64_rfc6979 [Hashes] (fuel x : ℕ) (hash : Bytes) (k : ℕ) :
    nonce N fuel x hash = some k ↔
    ∃ j, j < fuel ∧ k = rfcCandidate N x hash j ∧ (1 ≤ k ∧ k < N) ∧
      ∀ m, m < j → ¬ (1 ≤ rfcCandidate N x hash m ∧ rfcCandidate N x hash m < N) :=
  nonce_spec fuel x hash k

/-- The loop is still running after `fuel` rounds exactly if no candidate so far is in range. -/
theorem C64_running [Hashes] (fuel x : ℕ) (hash : Bytes) :
    nonce N fuel x hash = none ↔ ∀ m, m < fuel → ¬ (1 ≤ rfcCandidate N x hash m ∧ rfcCandidate N x hash m < N) := by
  constructor
  · intro h m hm hc
    have : ∃ m, m < fuel ∧ (1 ≤ rfcCandidate N x hash m ∧ rfcCandidate N x hash m < N) := ⟨m, hm, hc⟩
    classical
    have hf := Nat.find_spec this
    have hmin := fun j hj => Nat.find_min this (m := j) hj
    have := (C64_rfc6979 fuel x hash _).mpr ⟨Nat.find this, hf.1, rfl, hf.2, fun j hj hjc => hmin j hj ⟨by omega, hjc⟩⟩
    rw [h] at this
    cases this
  · intro h
    cases e : nonce N fuel x hash with
    | none => rfl
    | some k =>
      obtain ⟨j, hj, rfl, hr, _⟩ := (C64_rfc6979 fuel x hash k).mp e
      exact absurd hr (h j hj)

/-! ### C65 -/

/-- **C65.** What is written is the DER form, which is unique. -/
theorem C65_marshal (r s : ℤ) (bs : Bytes) (h : bs.length < 2 ^ 31) : DerSignature r s bs ↔ bs = Der.marshal r s :=
  Der.derSignature_iff r s bs h

/-- **C65.** What is written is read back, below 2 GiB. -/
theorem C65_round_trip (r s : ℤ) (h : (Der.marshal r s).length < 2 ^ 31) : Der.unmarshal (Der.marshal r s) = .ok (r, s) := by
  rw [Der.unmarshal_iff]
  have l1 := Der.tlv_length 0x30 (Der.tlv 2 (Der.intContent r) ++ Der.tlv 2 (Der.intContent s))
  refine ⟨[], [], ?_, ?_⟩
  · rw [List.append_nil]
    unfold Der.marshal at h
    omega
  · rw [List.append_nil, List.append_nil]; rfl

/-- **C65 (partial).** Full statement: `DerSignature r s bs`. Proved: an accepted string begins with a SEQUENCE that
begins with the two integers in DER; what follows in the sequence and after it can be anything. -/
theorem C65_accepted_partial (bs : Bytes) (r s : ℤ) (h : Der.unmarshal bs = .ok (r, s)) :
    ∃ rc sc re se extra whole trailing, IsInt r rc ∧ IsInt s sc ∧ Element 0x02 rc re ∧ Element 0x02 sc se ∧
      Element 0x30 (re ++ se ++ extra) whole ∧ bs = whole ++ trailing := by
  obtain ⟨extra, trailing, hl, e⟩ := (Der.unmarshal_iff bs r s).mp h
  have l1 := Der.tlv_length 2 (Der.intContent r)
  have l2 := Der.tlv_length 2 (Der.intContent s)
  have hl' := hl
  rw [List.length_append, List.length_append] at hl'
  rw [← List.append_assoc] at hl e
  exact ⟨_, _, _, _, extra, _, trailing, (Der.isInt_iff r _).mpr rfl, (Der.isInt_iff s _).mpr rfl,
    (Der.element_iff (by omega) _).mpr rfl, (Der.element_iff (by omega) _).mpr rfl, (Der.element_iff hl _).mpr rfl, e⟩

/-- **C65**, the part of strictness that holds: of two accepted strings with the same result, one that is DER is no
longer than the other; an accepted string as short as the DER form is the DER form. -/
theorem C65_shortest (bs : Bytes) (r s : ℤ) (h : Der.unmarshal bs = .ok (r, s)) (hl : bs.length ≤ (Der.marshal r s).length)
    (h31 : bs.length < 2 ^ 31) : DerSignature r s bs := by
  rw [C65_marshal r s bs h31]
  obtain ⟨extra, trailing, _, e⟩ := (Der.unmarshal_iff bs r s).mp h
  have mono : ∀ a b : Bytes, a.length ≤ b.length → (Der.lenBytes a.length).length ≤ (Der.lenBytes b.length).length :=
    fun a b hab => Der.lenBytes_mono hab
  have hm := mono (Der.tlv 2 (Der.intContent r) ++ Der.tlv 2 (Der.intContent s))
    (Der.tlv 2 (Der.intContent r) ++ (Der.tlv 2 (Der.intContent s) ++ extra)) (by simp only [List.length_append]; omega)
  have hlen : extra.length + trailing.length = 0 := by
    rw [e] at hl
    unfold Der.marshal Der.tlv at hl
    unfold Der.tlv at hm
    simp only [List.length_append, List.length_cons] at hl hm
    omega
  have h1 : extra = [] := List.length_eq_zero_iff.mp (by omega)
  have h2 : trailing = [] := List.length_eq_zero_iff.mp (by omega)
  rw [e, h1, h2, List.append_nil, List.append_nil]
  rfl

/-- Parsing never panics. -/
theorem C65_no_panic (bs : Bytes) : Der.unmarshal bs ≠ .panic := Der.unmarshal_no_panic bs

/-- **C65**, negation: trailing bytes after the sequence and in the sequence are accepted. -/
theorem C65_negation :
    (Der.unmarshal [0x30, 6, 2, 1, 1, 2, 1, 1, 0xff] = .ok (1, 1) ∧ ¬ DerSignature 1 1 [0x30, 6, 2, 1, 1, 2, 1, 1, 0xff]) ∧
    (Der.unmarshal [0x30, 7, 2, 1, 1, 2, 1, 1, 0xff] = .ok (1, 1) ∧ ¬ DerSignature 1 1 [0x30, 7, 2, 1, 1, 2, 1, 1, 0xff]) := by
  refine ⟨⟨by decide +kernel, ?_⟩, ⟨by decide +kernel, ?_⟩⟩ <;>
  · rw [C65_marshal 1 1 _ (by decide)]; decide +kernel

/-! ### signatures as bytes -/

/-- **C62**, with bytes: what a private key signs is accepted under its public key. -/
theorem C62_ecdsa [Hashes] (fuel : ℕ) (key hash sig : Bytes) (prv : PrvKey) (hp : prvFromBytes key = .ok prv)
    (h : ecdsaSign fuel prv hash = .ok sig) :
    ecdsaVerify prv.pub hash sig = .ok () ∧ 8 ≤ sig.length ∧ sig.length ≤ 71 ∧
    ∃ r s, DerSignature r s sig ∧ (1 ≤ r ∧ r < N) ∧ (1 ≤ s ∧ 2 * s < N) := by
  unfold ecdsaSign at h
  obtain ⟨⟨r, s⟩, hs, h⟩ := Res.bind_eq_ok.mp h
  cases h
  have hv := C62_sign fuel key hash prv hp r s hs
  have hrs : (1 ≤ r ∧ r < N) ∧ (1 ≤ s ∧ 2 * s < N) := by
    rcases C63_range fuel prv.d hash with ⟨h, _⟩ | h | h | ⟨r', s', h, hr, hs'⟩ <;> rw [hs] at h <;> cases h
    exact ⟨hr, hs'⟩
  have hN : (N : ℤ) < 128 * 256 ^ 32 := by decide +kernel
  have hN2 : (N : ℤ) < 2 * (128 * 256 ^ 31) := by decide +kernel
  have hlen := Der.marshal_length (Der.intContent_length (k := 32) (by omega : 0 ≤ r) (by omega))
    (Der.intContent_length (k := 31) (by omega : 0 ≤ s) (by omega)) (by omega)
  have h31 : (Der.marshal r s).length < 2 ^ 31 := by omega
  refine ⟨?_, hlen.1, hlen.2, r, s, (C65_marshal r s _ h31).mpr rfl, hrs⟩
  unfold ecdsaVerify
  rw [C65_round_trip r s h31]
  simp only [Res.ok_bind]
  rw [hv]
  rfl

/-- Verification with bytes accepts exactly parsed signatures that pass the textbook test. -/
theorem C62_ecdsaVerify (q : Pt) (hash sig : Bytes) :
    ecdsaVerify (keyOf q) hash sig = .ok () ↔ ∃ r s, Der.unmarshal sig = .ok (r, s) ∧ Signature q hash r s := by
  unfold ecdsaVerify
  cases e : Der.unmarshal sig with
  | panic =>
    constructor
    · intro h; cases h
    · rintro ⟨_, _, h, _⟩; cases h
  | err e =>
    constructor
    · intro h; cases h
    · rintro ⟨_, _, h, _⟩; cases h
  | ok rs =>
    obtain ⟨r, s⟩ := rs
    simp only [Res.ok_bind]
    rcases C62_verify q hash r s with ⟨hv, hs⟩ | ⟨hv, hs⟩ <;> rw [hv] <;> simp only [Res.ok_bind]
    · exact ⟨fun _ => ⟨r, s, rfl, hs⟩, fun _ => rfl⟩
    · constructor
      · intro h; cases h
      · rintro ⟨r', s', h, hs'⟩
        cases h
        exact absurd hs' hs

/-- A signature with the key 5 (toy hash function): low s, accepted under the key 5, refused under the key 6 and for
another hash. -/
example : (@ecdsaSign toyHashes 1 ⟨⟨0, 0⟩, 5⟩ [1, 2, 3]).bind (fun sig => do
    let p5 ← prvFromBytes [5]
    let p6 ← prvFromBytes [6]
    .ok (sig.length, ecdsaVerify p5.pub [1, 2, 3] sig, ecdsaVerify p6.pub [1, 2, 3] sig, ecdsaVerify p5.pub [1, 2, 4] sig)) =
    .ok (70, .ok (), .err errVerify, .err errVerify) := by decide +kernel

/-- Negative numbers and long numbers have DER forms too. -/
example : Der.marshal (-129) (2 ^ 1100) = [0x30, 0x81, 0x91, 2, 2, 0xff, 0x7f, 2, 0x81, 0x8a] ++ 0x10 :: List.replicate 137 0 ∧
    Der.unmarshal (Der.marshal (-129) (2 ^ 1100)) = .ok (-129, 2 ^ 1100) := by decide +kernel

end Toku.Props
