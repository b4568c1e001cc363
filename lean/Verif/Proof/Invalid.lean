import Verif.Proof.Validity
/-
What the script rules of Bitcoin ask of the spending of a P2PKH or P2WPKH coin, and that the library accepts every signature that
Bitcoin accepts for the same hash.
-/
namespace Toku.Props
open Toku Toku.Spec Toku.Script Toku.Locking Toku.Tx Toku.Curve Toku.Keys Toku.VM
open Toku.Spec.Bitcoin (In BTx Rules Bip66 Positive checkSig legacyCheck legacyHash IsWitnessProgram ValidInput consensus VerifyLegacy
  VerifyP2WPKH EvalScript Eval ofBool isCond Truthy)

private theorem positive_isInt {c : Bytes} (h : Positive c) : IsInt (beNat c : ℤ) c := by
  obtain ⟨h1, h2, h3⟩ := h
  refine ⟨h1, ?_, ?_⟩
  · cases c with
    | nil => exact absurd rfl h1
    | cons a t =>
      have := h2 a t rfl
      simp only [twosComplement]
      rw [if_neg (by omega), sub_zero]
  · intro a b t e
    refine ⟨fun ⟨ha, hb⟩ => ?_, fun ⟨ha, _⟩ => ?_⟩
    · have := h3 a b t e ha
      omega
    · have := h2 a _ e
      rw [ha] at this
      exact absurd this (by decide)

private theorem isLen_of_short {n : ℕ} (h : n < 128) : IsLen n [UInt8.ofNat n] := Or.inl ⟨h, rfl⟩

/-- A signature of the form of BIP66 is a DER signature of positive numbers and the hash type. -/
theorem der_of_bip66 {der r s : Bytes} {t t' : UInt8} (h : Bip66 (der ++ [t]) r s t') :
    t = t' ∧ DerSignature (beNat r) (beNat s) der ∧ der.length ≤ 72 := by
  obtain ⟨e, hl, hr, hs⟩ := h
  obtain ⟨e1, e2⟩ := List.append_inj' e rfl
  have e2 := (List.cons.inj e2).1
  have hl' : der.length ≤ 72 := by
    rw [List.length_append, List.length_singleton] at hl
    omega
  have hlen := congrArg List.length e1
  simp only [List.length_append, List.length_cons, List.length_nil] at hlen
  refine ⟨e2, ⟨r, s, _, _, positive_isInt hr, positive_isInt hs, ⟨_, isLen_of_short (by omega), rfl⟩, ⟨_, isLen_of_short (by omega), rfl⟩,
    ⟨[UInt8.ofNat (r.length + s.length + 4)], ?_, ?_⟩⟩, hl'⟩
  · have : (2 :: ([UInt8.ofNat r.length] ++ r) ++ 2 :: ([UInt8.ofNat s.length] ++ s)).length = r.length + s.length + 4 := by
      simp only [List.length_append, List.length_cons, List.length_nil]; omega
    rw [this]
    exact isLen_of_short (by omega)
  · rw [e1]
    simp

/-- The library accepts what Bitcoin accepts for the same hash. -/
theorem verify_of_check {hash : UInt32 → Bytes} {der key : Bytes} {t : UInt8} (h : checkSig hash (der ++ [t]) key = some true) :
    Ecdsa.verifyBytes (hash t.toUInt32) der key = .ok () := by
  unfold checkSig at h
  rw [if_neg (by simp)] at h
  split at h
  · have h := @of_decide_eq_true _ (Classical.propDecidable _) (Option.some.inj h)
    obtain ⟨r, s, t', q, hb, hq, hk, hsig⟩ := h
    obtain ⟨rfl, hder, hl⟩ := der_of_bip66 hb
    have e := (C65_marshal _ _ der (by omega)).mp hder
    unfold Ecdsa.verifyBytes
    rw [C59_parse q hq key hk]
    refine (C62_ecdsaVerify q _ der).mpr ⟨_, _, ?_, hsig⟩
    have h31 : (Der.marshal (beNat r : ℤ) (beNat s : ℤ)).length < 2 ^ 31 := by rw [← e]; omega
    rw [e]
    exact C65_round_trip _ _ h31
  · cases h

theorem truthy_nil : ¬ Truthy [] := by
  rintro (⟨b, hb, _⟩ | ⟨l, h, _⟩)
  · cases hb
  · cases h

/-- What the script of P2PKH asks of the stack it is run on. -/
theorem lock_p2pkh {R : Rules} {hash : Bytes → Bytes} {check : Bytes → Bytes → Option Bool} {p : Bytes} {s s' : List Bytes} {x : Bytes}
    (h : EvalScript R hash check (standardTokens .p2pkh p) s (x :: s')) (hx : Truthy x) :
    ∃ key sig, s = key :: sig :: s' ∧ hash key = p ∧ check sig key = some true := by
  obtain ⟨_, n, h⟩ := h
  unfold standardTokens at h
  obtain ⟨_, _, o1, _, h⟩ := eval_op (show ¬ isCond 0x76 by decide) h
  obtain ⟨_, _, o2, _, h⟩ := eval_op (show ¬ isCond 0xa9 by decide) h
  obtain ⟨_, _, o3, _, h⟩ := eval_op (show ¬ isCond 0x14 by decide) h
  obtain ⟨_, _, o4, _, h⟩ := eval_op (show ¬ isCond 0x88 by decide) h
  obtain ⟨_, _, o5, _, h⟩ := eval_op (show ¬ isCond 0xac by decide) h
  have e := congrArg Bitcoin.State.stack (eval_nil h)
  obtain ⟨a, r, rfl, rfl, _⟩ := op_dup o1 rfl
  obtain ⟨b, r', hb, rfl, _⟩ := op_hash o2 rfl
  obtain ⟨rfl, _⟩ := op_push o3 (show (0x14 : UInt8).toNat ≤ 0x4e by decide)
  obtain ⟨c, hc, _⟩ := op_equalVerify o4 rfl
  obtain ⟨key, sig, r2, v, h1, h3, h2, _⟩ := op_checkSig o5 rfl
  dsimp only at e hc
  rw [h2] at e
  obtain ⟨e1, rfl⟩ := List.cons.inj e
  obtain ⟨hb1, rfl⟩ := List.cons.inj hb
  obtain ⟨hc1, hct⟩ := List.cons.inj hc
  obtain ⟨hc2, hc3⟩ := List.cons.inj hct
  rw [← hc3] at h1
  obtain ⟨rfl, rfl⟩ := List.cons.inj h1
  refine ⟨_, _, rfl, by rw [hb1, hc2, hc1], ?_⟩
  cases v with
  | true => exact h3
  | false =>
    rw [e1] at hx
    exact absurd hx truthy_nil

section
variable [Hashes]

/-- What a P2PKH coin asks of an unlocking script of a signature and a key. -/
theorem p2pkh_needs {tx : BTx} {idx : ℕ} {i : In} {v : UInt64} {p sig key : Bytes} (hp : p.length = 20)
    (hi : tx.ins[idx]? = some i) (hs : 2 ≤ sig.length ∧ sig.length ≤ 75) (hk : 2 ≤ key.length ∧ key.length ≤ 75)
    (he : i.scriptSig = [UInt8.ofNat sig.length] ++ sig ++ [UInt8.ofNat key.length] ++ key)
    (h : ValidInput tx idx ⟨v, standardScript .p2pkh p⟩) :
    hash160 key = p ∧ checkSig (legacyHash tx idx (standardScript .p2pkh p)) sig key = some true := by
  obtain ⟨j, hj, h⟩ := h
  rw [hi] at hj
  cases hj
  rcases h with ⟨_, _, u, l, hv, hu, hl, s1, x, s2, h1, h2, hx, _⟩ | ⟨q, _, e, _⟩ | ⟨q, _, _, e, _⟩
  · have hl' : l = standardTokens .p2pkh p := by
      refine tokens_unique (fun t ht => hv t (List.mem_append_right _ ht)) (standard_valid hp) ?_ ?_
      · rw [← hl]; exact standard_short .p2pkh p hp
      · rw [← hl, standard_enc]
    subst hl'
    have tok : ∀ d : Bytes, 2 ≤ d.length ∧ d.length ≤ 75 → IsPush ⟨UInt8.ofNat d.length, d⟩ ∧
        pushValue ⟨UInt8.ofNat d.length, d⟩ = d ∧ (⟨UInt8.ofNat d.length, d⟩ : Token).enc = [UInt8.ofNat d.length] ++ d := by
      intro d hd
      have hn : (UInt8.ofNat d.length).toNat = d.length := by
        rw [UInt8.toNat_ofNat']; omega
      have h1 : Direct (UInt8.ofNat d.length) := ⟨by omega, by omega⟩
      refine ⟨⟨⟨?_, ?_⟩, ?_⟩, ?_, ?_⟩
      · unfold Supported; dsimp only; omega
      · dsimp only; rw [if_pos h1, hn]
      · dsimp only; omega
      · unfold pushValue; dsimp only; rw [if_neg (by omega), if_pos (by omega)]
      · unfold Token.enc lenWidth
        dsimp only
        rw [if_neg, if_neg, if_neg]
        · simp [leBytes]
        all_goals (intro e; rw [e] at hn; have : ∀ a b : ℕ, a = b → 75 < a → b ≤ 75 → False := by omega
                   exact this _ _ hn (by decide) hd.2)
    obtain ⟨p1, v1, e1⟩ := tok sig hs
    obtain ⟨p2, v2, e2⟩ := tok key hk
    have hu' : u = [⟨UInt8.ofNat sig.length, sig⟩, ⟨UInt8.ofNat key.length, key⟩] := by
      refine tokens_unique (fun t ht => hv t (List.mem_append_left _ ht)) ?_ ?_ ?_
      · intro t ht
        rcases List.mem_cons.mp ht with rfl | ht
        · exact p1.1
        · rw [List.mem_singleton.mp ht]; exact p2.1
      · rw [← hu, he]; simp; omega
      · rw [← hu, he]
        simp only [encTokens, List.flatMap_cons, List.flatMap_nil, e1, e2]
        simp
    subst hu'
    obtain ⟨_, n, h1⟩ := h1
    have := congrArg Bitcoin.State.stack (eval_pushes_inv _ _ _ _ (by
      intro t ht
      rcases List.mem_cons.mp ht with rfl | ht
      · exact p1
      · rw [List.mem_singleton.mp ht]; exact p2) h1)
    simp only [List.map_cons, List.map_nil, v1, v2] at this
    obtain ⟨key', sig', e, hh, hc⟩ := lock_p2pkh h2 hx
    rw [this] at e
    cases e
    refine ⟨hh, ?_⟩
    unfold legacyCheck at hc
    split at hc
    · cases hc
    · rw [standard_enc] at hc
      exact hc
  · simp [standardScript] at e
  · simp [standardScript] at e

/-- What a P2WPKH coin asks. -/
theorem p2wpkh_needs {tx : BTx} {idx : ℕ} {i : In} {v : UInt64} {p : Bytes} (hp : p.length = 20)
    (hi : tx.ins[idx]? = some i) (h : ValidInput tx idx ⟨v, standardScript .p2wpkh p⟩) :
    i.scriptSig = [] ∧ ∃ sig key, i.witness = [sig, key] ∧ hash160 key = p ∧
      checkSig (Bitcoin.witnessHash tx idx i v (standardScript .p2pkh p)) sig key = some true := by
  obtain ⟨j, hj, h⟩ := h
  rw [hi] at hj
  cases hj
  rcases h with ⟨hn, _⟩ | ⟨q, hq, e, hss, sig, key, x, hw, _, hev, hx⟩ | ⟨q, _, hq, e, _⟩
  · exact absurd ⟨[0], p, by simp [standardScript, hp], by omega, by omega, Or.inl rfl⟩ hn
  · have : p = q := by simpa [standardScript] using e
    subst this
    obtain ⟨key', sig', e, hh, hc⟩ := lock_p2pkh hev hx
    cases e
    refine ⟨hss, _, _, hw, hh, ?_⟩
    exact hc
  · have := congrArg List.length e
    simp [standardScript, hp, hq] at this

end

end Toku.Props
