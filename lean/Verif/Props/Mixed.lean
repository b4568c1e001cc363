import Verif.Props.Quorum
/-
Properties C126 and C127: hash types of two classes in one transaction. SHA-256, RIPEMD-160 and the curve are the real ones.
-/
namespace Toku.Props
open Toku Toku.Spec Toku.Script Toku.Locking Toku.Tx Toku.Curve Toku.Keys
open Toku.Spec.Bitcoin (In BTx Bip66 Positive ValidScripts legacyHash)

section
attribute [local instance] Sha.realHashes

/-- A transaction that spends two coins with witnesses. -/
private def twoWit (w1 w2 : List Bytes) (outs : List TxOut) : BTx :=
  ⟨1, [⟨List.replicate 32 9, 0, [], 0xffffffff, w1⟩, ⟨List.replicate 32 9, 1, [], 0xffffffff, w2⟩], outs, 0⟩

private def someOut : List TxOut := [⟨4000, standardScript .p2pkh (List.replicate 20 3)⟩]
private def otherOut : List TxOut := [⟨9999, standardScript .p2pkh (List.replicate 20 4)⟩]

private def keyCoins : List TxOut := [⟨5000, standardScript .p2wpkh spendHash⟩, ⟨5000, standardScript .p2wpkh spendHash⟩]

/-- The first input signed with NONE, the second with ALL, by the rules of Bitcoin. -/
private def sig02 : Bytes := [48, 69, 2, 33, 0, 198, 148, 165, 32, 251, 122, 20, 250, 106, 62, 155, 38, 97, 27, 188, 231, 132, 219, 143, 254, 208,
  179, 206, 163, 221, 221, 205, 179, 231, 38, 93, 89, 2, 32, 12, 23, 131, 243, 164, 1, 180, 99, 194, 178, 19, 231, 160,
  73, 229, 156, 249, 249, 226, 26, 170, 11, 53, 237, 120, 171, 1, 99, 15, 238, 91, 185, 2]
private def sig11 : Bytes := [48, 69, 2, 33, 0, 203, 100, 189, 208, 34, 89, 190, 144, 235, 130, 195, 98, 7, 190, 189, 84, 177, 28, 1, 211, 109, 167,
  161, 106, 106, 114, 199, 145, 231, 39, 34, 21, 2, 32, 108, 122, 156, 6, 177, 64, 81, 192, 222, 190, 201, 74, 231, 59,
  195, 195, 56, 62, 123, 254, 11, 246, 255, 42, 79, 8, 237, 254, 20, 206, 188, 112, 1]
/-- The first signed with ALL, the second with NONE, by the rules of Bitcoin. -/
private def sig01 : Bytes := [48, 68, 2, 32, 105, 97, 166, 185, 215, 183, 166, 113, 202, 193, 152, 144, 185, 69, 252, 35, 102, 196, 6, 105, 147, 74,
  116, 42, 174, 35, 77, 220, 69, 20, 131, 149, 2, 32, 87, 200, 84, 239, 71, 178, 45, 147, 94, 74, 192, 135, 231, 55, 36,
  238, 49, 12, 47, 26, 134, 162, 194, 49, 177, 144, 47, 98, 16, 166, 73, 98, 1]
private def sig12 : Bytes := [48, 69, 2, 33, 0, 175, 115, 151, 140, 181, 244, 102, 206, 251, 50, 133, 47, 3, 68, 217, 217, 8, 69, 88, 58, 114, 220,
  89, 169, 6, 0, 14, 249, 0, 141, 118, 4, 2, 32, 42, 168, 60, 227, 16, 7, 58, 30, 23, 163, 189, 111, 12, 54, 99, 236,
  232, 23, 24, 255, 243, 146, 199, 69, 102, 214, 52, 108, 7, 100, 129, 124, 2]
/-- The second signed with ALL by the library after it has signed the first with NONE. -/
private def sigStale : Bytes := [48, 68, 2, 32, 37, 109, 219, 250, 27, 240, 98, 24, 101, 151, 101, 109, 86, 147, 221, 50, 185, 240, 87, 49, 90, 106,
  146, 80, 2, 240, 85, 191, 90, 246, 32, 77, 2, 32, 87, 184, 109, 118, 241, 143, 194, 57, 196, 126, 143, 89, 167, 64,
  155, 9, 239, 224, 98, 170, 192, 160, 222, 127, 113, 227, 64, 157, 143, 175, 101, 16, 1]

private theorem positive_of {c : Bytes} (h : (match c with
    | [] => false
    | a :: l => decide (a.toNat < 128) && (match l with | [] => true | b :: _ => decide (a = 0 → 128 ≤ b.toNat))) = true) : Positive c := by
  cases c with
  | nil => cases h
  | cons a l =>
    rw [Bool.and_eq_true] at h
    refine ⟨by simp, ?_, ?_⟩
    · rintro a' l' e
      cases e
      exact of_decide_eq_true h.1
    · rintro a' b' l' e ha
      cases e
      exact of_decide_eq_true h.2 ha

private theorem bip66_02 : Bip66 (sig02.dropLast ++ [2]) ((sig02.drop 4).take 33) ((sig02.drop 39).take 32) 2 :=
  ⟨by decide, by decide, positive_of (by decide), positive_of (by decide)⟩
private theorem bip66_11 : Bip66 (sig11.dropLast ++ [1]) ((sig11.drop 4).take 33) ((sig11.drop 39).take 32) 1 :=
  ⟨by decide, by decide, positive_of (by decide), positive_of (by decide)⟩
private theorem bip66_01 : Bip66 (sig01.dropLast ++ [1]) ((sig01.drop 4).take 32) ((sig01.drop 38).take 32) 1 :=
  ⟨by decide, by decide, positive_of (by decide), positive_of (by decide)⟩
private theorem bip66_12 : Bip66 (sig12.dropLast ++ [2]) ((sig12.drop 4).take 33) ((sig12.drop 39).take 32) 2 :=
  ⟨by decide, by decide, positive_of (by decide), positive_of (by decide)⟩

/-- A P2WPKH coin of the key, by the rules of Bitcoin. -/
private theorem spent {b : BTx} {idx : ℕ} {i : In} {v : UInt64} {sig : Bytes} {t : UInt8} {r s : Bytes} (hi : b.ins[idx]? = some i)
    (hw : i.witness = [sig, spendPub]) (he : i.scriptSig = []) (hs : 2 ≤ sig.length ∧ sig.length ≤ 75) (hd : sig.dropLast ++ [t] = sig)
    (hb : Bip66 (sig.dropLast ++ [t]) r s t)
    (hv : Ecdsa.verifyBytes (Bitcoin.witnessHash b idx i v (standardScript .p2pkh spendHash) t.toUInt32) sig.dropLast spendPub = .ok ()) :
    Bitcoin.ValidInput b idx ⟨v, standardScript .p2wpkh spendHash⟩ := by
  refine p2wpkh_spent (sig := sig) (key := spendPub) (by decide) hi hw hs (by decide) he (by decide +kernel) ?_
  have := check_of_verify (hash := Bitcoin.witnessHash b idx i v (standardScript .p2pkh spendHash)) hb (key := spendPub) (by rintro _ ⟨⟩) hv
  rw [hd] at this
  exact this

/-- **C127, negation: a type that covers more after one that covers less.** Two P2WPKH coins, the first spent with NONE and the second with
ALL: valid for Bitcoin, and the library refuses it. (In the other order it accepts: the example below.) -/
theorem C127_negation_mixed : ∃ b coins, Sizes b ∧ ValidScripts b coins ∧ verdict 4 b coins = .err errVerifyFailed := by
  refine ⟨twoWit [sig02, spendPub] [sig11, spendPub] someOut, keyCoins, ⟨by decide, by decide +kernel⟩, ⟨rfl, ?_⟩, by decide +kernel⟩
  intro idx coin hc
  match idx with
  | 0 =>
    cases hc
    exact spent rfl rfl rfl (by decide) rfl bip66_02 (by decide +kernel)
  | 1 =>
    cases hc
    exact spent rfl rfl rfl (by decide) rfl bip66_11 (by decide +kernel)
  | n + 2 => cases hc

/-- **C127, negation: a signature for nothing.** The second input has a signature of the type ALL, after a first one of the type NONE. The
library accepts it, although it covers no output: also when the outputs are replaced. Bitcoin takes neither. -/
theorem C127_negation_stale : ∃ b b' coins, Sizes b ∧ b' = { b with outs := otherOut } ∧ b'.outs ≠ b.outs ∧
    verdict 4 b coins = .ok () ∧ verdict 4 b' coins = .ok () ∧ ¬ ValidScripts b coins ∧ ¬ ValidScripts b' coins := by
  refine ⟨twoWit [sig02, spendPub] [sigStale, spendPub] someOut, twoWit [sig02, spendPub] [sigStale, spendPub] otherOut, keyCoins,
    ⟨by decide, by decide +kernel⟩, rfl, by decide, by decide +kernel, by decide +kernel, ?_, ?_⟩
  all_goals
    rintro ⟨_, h⟩
    obtain ⟨_, sig, key, hw, _, h⟩ := p2wpkh_needs (p := spendHash) (v := 5000) (by decide) rfl (h 1 _ rfl)
    have hw : [sigStale, spendPub] = [sig, key] := hw
    cases hw
    exact absurd (verify_of_check (der := sigStale.dropLast) (t := 1) h) (by decide +kernel)

/-- An input made by NewTxIn. -/
private def madeIn (index : UInt32) : TxIn :=
  ⟨List.replicate 32 9, index, 5000, 0xffffffff, none, [], some (standardScript .p2pkh spendHash), standardScript .p2wpkh spendHash,
    standardScript .p2pkh spendHash, []⟩

private def twoTx (w1 w2 : List Bytes) (u1 u2 : Bytes) : Transaction := { Tx.new with
  inputs := [{ madeIn 0 with witness := w1, rawUnlockingScript := u1 }, { madeIn 1 with witness := w2, rawUnlockingScript := u2 }]
  outputs := someOut }

private def prevs : Option Bytes := some [194, 35, 104, 211, 63, 197, 137, 184, 132, 156, 137, 70, 27, 131, 67, 134, 230, 8, 84, 132, 137, 37, 192, 69, 183,
  215, 11, 162, 209, 0, 59, 8]

private def firstSigned : Transaction := { twoTx [sig02, spendPub] [] ([72] ++ sig02 ++ [33] ++ spendPub) [] with
  hashPrevouts := prevs, hashSequence := some (List.replicate 32 0), hashOutputs := some (List.replicate 32 0) }
private def bothSigned : Transaction := { twoTx [sig02, spendPub] [sigStale, spendPub] ([72] ++ sig02 ++ [33] ++ spendPub)
    ([71] ++ sigStale ++ [33] ++ spendPub) with
  hashPrevouts := prevs, hashSequence := some (List.replicate 32 0), hashOutputs := some (List.replicate 32 0) }

/-- **C126, negation: types of two classes.** Two P2WPKH coins, the first signed with NONE and then the second with ALL: the library signs and
verifies, and Bitcoin does not take it. -/
theorem C126_negation_mixed : ∃ a b tx tx', newTxIn (List.replicate 32 9) 0 5000 (standardScript .p2wpkh (hash160 (Ecdsa.pubBytes spendKey true))) none = .ok a ∧
    newTxIn (List.replicate 32 9) 1 5000 (standardScript .p2wpkh (hash160 (Ecdsa.pubBytes spendKey true))) none = .ok b ∧
    signIndex (Ecdsa.scheme 4) { Tx.new with inputs := [a, b], outputs := someOut } 0 true 2 [spendKey] = .ok tx ∧
    signIndex (Ecdsa.scheme 4) tx 1 true 1 [spendKey] = .ok tx' ∧ (verify (Ecdsa.scheme 4) tx').1 = .ok () ∧
    ¬ ValidScripts (wire tx') [coinOf a, coinOf b] := by
  refine ⟨madeIn 0, madeIn 1, firstSigned, bothSigned, by decide +kernel, by decide +kernel, by decide +kernel, by decide +kernel, by decide +kernel, ?_⟩
  rintro ⟨_, h⟩
  obtain ⟨_, sig, key, hw, _, h⟩ := p2wpkh_needs (p := spendHash) (v := 5000) (by decide) rfl (h 1 _ rfl)
  have hw : [sigStale, spendPub] = [sig, key] := hw
  cases hw
  exact absurd (verify_of_check (der := sigStale.dropLast) (t := 1) h) (by decide +kernel)

/-- The first signed with ALL, then the second with NONE. -/
private def orderSigned : Transaction := { twoTx [sig01, spendPub] [sig12, spendPub] ([71] ++ sig01 ++ [33] ++ spendPub)
    ([72] ++ sig12 ++ [33] ++ spendPub) with
  hashPrevouts := prevs, hashSequence := some (List.replicate 32 0), hashOutputs := some (List.replicate 32 0) }

/-- The hypotheses of `C126_signed_partial` with types of two classes, and its conclusion. -/
example : ValidScripts (wire orderSigned) keyCoins ∧ serialize orderSigned = (wire orderSigned).bytes := by
  have hpub : hash160 ((Ecdsa.scheme 4).pub spendKey true) = spendHash := by decide +kernel
  have hp : parse (standardScript .p2wpkh spendHash) = .ok ⟨.p2wpkh, spendHash⟩ := by decide +kernel
  refine C126_signed_partial 4 (twoTx [] [] [] []) orderSigned [⟨0, true, 1, [spendKey]⟩, ⟨1, true, 2, [spendKey]⟩] rfl rfl rfl ?_ ?_ ?_ ?_ ?_
    (by decide +kernel) ⟨by decide, by decide, by decide, by decide, by decide, by decide⟩ ?_
  · intro i hi
    rcases List.mem_cons.mp hi with rfl | hi
    · exact ⟨List.replicate 32 9, 0, 5000, standardScript .p2wpkh spendHash, by decide, by decide +kernel⟩
    · rw [List.mem_singleton.mp hi]
      exact ⟨List.replicate 32 9, 1, 5000, standardScript .p2wpkh spendHash, by decide, by decide +kernel⟩
  · intro idx h
    have h : idx < 2 := h
    interval_cases idx <;> simp
  · intro c hc i s hi hs
    rcases List.mem_cons.mp hc with rfl | hc
    · cases hi
      have hs : parse (standardScript .p2wpkh spendHash) = .ok s := hs
      rw [hp] at hs
      cases hs
      exact ⟨_, _, rfl, hpub⟩
    · cases List.mem_singleton.mp hc
      cases hi
      have hs : parse (standardScript .p2wpkh spendHash) = .ok s := hs
      rw [hp] at hs
      cases hs
      exact ⟨_, _, rfl, hpub⟩
  · intro c hc i hi
    rcases List.mem_cons.mp hc with rfl | hc
    · cases hi
      exact ⟨by decide, by decide⟩
    · cases List.mem_singleton.mp hc
      cases hi
      exact ⟨by decide, by decide⟩
  · refine List.pairwise_cons.mpr ⟨fun b hb => ?_, List.pairwise_singleton _ _⟩
    rw [List.mem_singleton.mp hb]
    intro i j _ _ _ _
    decide
  · intro i hi h hph
    have hraw : i.rawLockingScript = standardScript .p2wpkh spendHash := by
      rcases List.mem_cons.mp hi with rfl | hi
      · rfl
      · rw [List.mem_singleton.mp hi]; rfl
    rw [hraw, hp] at hph
    cases hph

/-- The first spent with ALL, the second with NONE: the hypotheses of `C127_partial` with two classes, and its conclusion. -/
example : (∀ n, Covers (if n = 0 then 1 else 2) (if n + 1 = 0 then 1 else 2)) ∧
    verdict 4 (twoWit [sig01, spendPub] [sig12, spendPub] someOut) keyCoins = .ok () ∧
    ValidScripts (twoWit [sig01, spendPub] [sig12, spendPub] someOut) keyCoins := by
  have hT : ∀ n : ℕ, Covers (if n = 0 then 1 else 2) (if n + 1 = 0 then 1 else 2) := by
    intro n
    rw [if_neg (Nat.succ_ne_zero n)]
    by_cases h : n = 0
    · rw [if_pos h]; decide
    · rw [if_neg h]; decide
  have hv : ValidScripts (twoWit [sig01, spendPub] [sig12, spendPub] someOut) keyCoins := by
    refine ⟨rfl, ?_⟩
    intro idx coin hc
    match idx with
    | 0 =>
      cases hc
      exact spent rfl rfl rfl (by decide) rfl bip66_01 (by decide +kernel)
    | 1 =>
      cases hc
      exact spent rfl rfl rfl (by decide) rfl bip66_12 (by decide +kernel)
    | n + 2 => cases hc
  refine ⟨hT, (C127_partial 4 (fun n => if n = 0 then 1 else 2) hT _ _ ⟨by decide, by decide +kernel⟩ rfl ?_).1 hv, hv⟩
  intro idx i coin hi hc
  match idx with
  | 0 =>
    cases hi; cases hc
    refine ⟨spendHash, sig01, spendPub, by decide, by decide, by decide, Or.inr ⟨rfl, rfl, rfl, ?_⟩⟩
    rintro t ⟨⟩
    exact ⟨by decide, by decide, SameClass.rfl' 1⟩
  | 1 =>
    cases hi; cases hc
    refine ⟨spendHash, sig12, spendPub, by decide, by decide, by decide, Or.inr ⟨rfl, rfl, rfl, ?_⟩⟩
    rintro t ⟨⟩
    exact ⟨by decide, by decide, SameClass.rfl' 2⟩
  | n + 2 => cases hc

end

end Toku.Props
