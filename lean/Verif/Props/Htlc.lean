import Verif.Props.Mixed
import Verif.Props.AnyRedeem
/-
Property C128: a transaction with a hashed timelock contract (without the lock time) and a P2PKH coin, both opened in a form that is not the
one of `KeySpend` or `PolicySpend`. SHA-256, RIPEMD-160 and the curve are the real ones.
-/
namespace Toku.Props
open Toku Toku.Spec Toku.Script Toku.Locking Toku.Tx Toku.Curve Toku.Keys
open Toku.Spec.Bitcoin (In BTx Bip66 Positive ValidScripts legacyHash legacyCheck allCheck checkSig StandardP2SH StandardP2PKH standard Eval Truthy)

section
attribute [local instance] Sha.realHashes

private def r1 : Bytes := [105, 104, 82, 20, 251, 148, 131, 190, 23, 237, 134, 51, 215, 65, 16, 173, 82, 158, 129, 209, 24, 17, 9, 120, 15, 246, 84, 204, 20, 230, 38, 131]
private def s1 : Bytes := [44, 214, 247, 65, 16, 99, 175, 186, 237, 158, 253, 74, 147, 4, 206, 88, 41, 120, 127, 221, 209, 40, 52, 72, 75, 195, 110, 211, 233, 149, 16, 185]
private def r2 : Bytes := [93, 123, 107, 176, 196, 171, 170, 32, 169, 59, 153, 114, 65, 6, 69, 123, 202, 231, 104, 75, 26, 60, 28, 3, 126, 184, 131, 169, 119, 135, 165, 160]
private def s2 : Bytes := [79, 254, 27, 181, 30, 72, 118, 246, 102, 40, 166, 4, 200, 248, 140, 157, 42, 63, 90, 18, 2, 37, 162, 67, 80, 190, 210, 219, 201, 101, 232, 94]

/-- A signature of two numbers of 32 bytes, with the hash type ALL. -/
private def sigAll (r s : Bytes) : Bytes := [0x30, 68, 2, 32] ++ r ++ [2, 32] ++ s ++ [1]

private theorem bip66_all {r s : Bytes} (hr : r.length = 32) (hs : s.length = 32) (pr : ∀ a l, r = a :: l → 0 < a.toNat ∧ a.toNat < 128)
    (ps : ∀ a l, s = a :: l → 0 < a.toNat ∧ a.toNat < 128) : Bip66 (sigAll r s) r s 1 := by
  have pos : ∀ c : Bytes, c.length = 32 → (∀ a l, c = a :: l → 0 < a.toNat ∧ a.toNat < 128) → Positive c := by
    intro c hc hp
    refine ⟨fun e => by rw [e] at hc; simp at hc, fun a l e => (hp a l e).2, fun a b l e ha => ?_⟩
    have := (hp a _ e).1
    rw [ha] at this
    exact absurd this (by decide)
  refine ⟨?_, ?_, pos r hr pr, pos s hs ps⟩
  · unfold sigAll
    rw [hr, hs]
    simp
  · simp [sigAll, hr, hs]

private instance (t : Token) : Decidable t.Valid := by unfold Token.Valid; infer_instance

/-- The hash of the text 1, 2, 3. -/
private def textHash : Bytes := [155, 196, 134, 11, 185, 54, 171, 242, 98, 215, 165, 31, 116, 180, 48, 72, 51, 254, 227, 178]

/-- IF HASH160 `textHash` EQUALVERIFY key ELSE another key ENDIF CHECKSIG -/
private def htlc : List Token :=
  [⟨0x63, []⟩, ⟨0xa9, []⟩, ⟨0x14, textHash⟩, ⟨0x88, []⟩, ⟨33, spendPub⟩, ⟨0x67, []⟩, ⟨33, 3 :: spendPub.tail⟩, ⟨0x68, []⟩, ⟨0xac, []⟩]

/-- Signature, text, the first branch, and the script with PUSHDATA1. -/
private def openHtlc : List Token := [⟨71, sigAll r1 s1⟩, ⟨3, [1, 2, 3]⟩, ⟨0x51, []⟩, ⟨0x4c, encTokens htlc⟩]

/-- Signature and key, both with PUSHDATA1. -/
private def openKey : List Token := [⟨0x4c, sigAll r2 s2⟩, ⟨0x4c, spendPub⟩]

private def redeems : BTx :=
  ⟨2, [⟨List.replicate 32 9, 0, encTokens openHtlc, 0xffffffff, []⟩, ⟨List.replicate 32 8, 1, encTokens openKey, 0xffffffff, []⟩],
    [⟨4000, standardScript .p2pkh (List.replicate 20 3)⟩], 0⟩

private def htlcHash : Bytes := [118, 9, 95, 110, 111, 91, 222, 185, 223, 38, 146, 229, 4, 38, 63, 152, 138, 232, 233, 90]

private theorem check1 : allCheck redeems 0 htlc (sigAll r1 s1) spendPub = some true := by
  unfold allCheck
  rw [if_pos ⟨Or.inr rfl, by decide⟩]
  unfold legacyCheck
  rw [if_neg (by decide)]
  exact check_of_verify (der := [0x30, 68, 2, 32] ++ r1 ++ [2, 32] ++ s1) (bip66_all rfl rfl (by rintro _ _ ⟨⟩; decide) (by rintro _ _ ⟨⟩; decide))
    (by rintro _ ⟨⟩) (by decide +kernel)

private theorem check2 : allCheck redeems 1 (p2pkhTokens spendHash) (sigAll r2 s2) spendPub = some true := by
  unfold allCheck
  rw [if_pos ⟨Or.inr rfl, by decide⟩]
  unfold legacyCheck
  rw [if_neg (by decide)]
  exact check_of_verify (der := [0x30, 68, 2, 32] ++ r2 ++ [2, 32] ++ s2) (bip66_all rfl rfl (by rintro _ _ ⟨⟩; decide) (by rintro _ _ ⟨⟩; decide))
    (by rintro _ ⟨⟩) (by decide +kernel)

private theorem truthy1 : Truthy [1] := Or.inr ⟨1, rfl, by decide, by decide⟩

private theorem spends0 : StandardP2SH redeems 0 ⟨List.replicate 32 9, 0, encTokens openHtlc, 0xffffffff, []⟩
    ⟨5000, [0xa9, 0x14] ++ htlcHash ++ [0x87]⟩ (encTokens htlc) := by
  have hh : hash160 (encTokens htlc) = htlcHash := by decide +kernel
  have ht : hash160 [1, 2, 3] = textHash := by decide +kernel
  refine ⟨rfl, openHtlc, htlcHash, by decide, rfl, rfl, rfl,
    ⟨[encTokens htlc, [1], [1, 2, 3], sigAll r1 s1], [1], [[1], [1, 2, 3], sigAll r1 s1], ⟨fun _ => by decide +kernel, 0, ?_⟩, ⟨fun _ => by decide, 2, ?_⟩, truthy1,
      fun _ => ⟨by decide, htlc, [[1], [1, 2, 3], sigAll r1 s1], [1], [], by decide, rfl, ?_, ⟨fun _ => by decide, 6, ?_⟩, truthy1⟩⟩, ?_⟩
  · refine .cons _ _ _ _ _ _ _ 0 _ (.run _ _ _ _ _ (by decide) (by simp) (.push _ _ (by decide))) (fun _ => by decide) ?_
    refine .cons _ _ _ _ _ _ _ 0 _ (.run _ _ _ _ _ (by decide) (by simp) (.push _ _ (by decide))) (fun _ => by decide) ?_
    refine .cons _ _ _ _ _ _ _ 0 _ (.run _ _ _ _ _ (by decide) (by simp) (.num _ _ (by decide) (by decide))) (fun _ => by decide) ?_
    exact .cons _ _ _ _ _ _ _ 0 _ (.run _ _ _ _ _ (by decide) (by simp) (.push _ _ (by decide))) (fun _ => by decide) (.nil _)
  · refine .cons _ _ _ _ _ [htlcHash, [1], [1, 2, 3], sigAll r1 s1] _ 0 _ (.run _ _ _ _ _ (by decide) (by simp) ?_) (fun _ => by decide) ?_
    · rw [← hh]
      exact .hash _ _ _
    refine .cons _ _ _ _ _ _ _ 0 _ (.run _ _ _ _ _ (by decide) (by simp) (.push _ _ (by decide))) (fun _ => by decide) ?_
    exact .cons _ _ _ _ _ _ _ 0 _ (.run _ _ _ _ _ (by decide) (by simp) (.equal _ _ _ _)) (fun _ => by decide) (.nil _)
  · rintro ⟨w, q, hw, hq2, hq40, hv⟩
    have h0 := congrArg (fun l : Bytes => l[0]?) hw
    rcases hv with rfl | ⟨n, rfl, hn1, hn2⟩
    · simp [htlc, encTokens, Token.enc] at h0
    · simp [htlc, encTokens, Token.enc] at h0
      subst h0
      exact absurd hn2 (by decide)
  · refine .cons _ _ _ _ _ _ _ 0 _ (.ifTrue _ _ _ _ (by simp) (fun _ => Or.inr rfl) truthy1) (fun _ => by decide) ?_
    refine .cons _ _ _ _ _ [textHash, sigAll r1 s1] _ 0 _ (.run _ _ _ _ _ (by decide) (by simp) ?_) (fun _ => by decide) ?_
    · rw [← ht]
      exact .hash _ _ _
    refine .cons _ _ _ _ _ _ _ 0 _ (.run _ _ _ _ _ (by decide) (by simp) (.push _ _ (by decide))) (fun _ => by decide) ?_
    refine .cons _ _ _ _ _ [sigAll r1 s1] _ 0 _ (.run _ _ _ _ _ (by decide) (by simp) (.equalVerify _ textHash _)) (fun _ => by decide) ?_
    refine .cons _ _ _ _ _ _ _ 0 _ (.run _ _ _ _ _ (by decide) (by simp) (.push _ _ (by decide))) (fun _ => by decide) ?_
    refine .cons _ _ _ _ _ _ _ 0 _ (.els _ _ _ _) (fun _ => by decide) ?_
    refine .cons _ _ _ _ _ _ _ 0 _ (.skip _ _ _ (by decide) ⟨false, by simp, rfl⟩) (fun _ => by decide) ?_
    refine .cons _ _ _ _ _ _ _ 0 _ (.endif _ _ _ _) (fun _ => by decide) ?_
    exact .cons _ _ _ _ _ _ _ 0 _ (.run _ _ _ _ _ (by decide) (by simp) (.checkSig _ _ _ _ true check1)) (fun _ => by decide) (.nil _)
  · rintro s ⟨_, n, h⟩
    exact push_top (t := ⟨0x4c, encTokens htlc⟩) (ts := [⟨71, sigAll r1 s1⟩, ⟨3, [1, 2, 3]⟩, ⟨0x51, []⟩]) (by decide) (by decide) h

private theorem spends1 : StandardP2PKH redeems 1 ⟨List.replicate 32 8, 1, encTokens openKey, 0xffffffff, []⟩
    ⟨6000, [0x76, 0xa9, 0x14] ++ spendHash ++ [0x88, 0xac]⟩ := by
  have hh : hash160 spendPub = spendHash := by decide +kernel
  refine ⟨rfl, openKey, spendHash, by decide, by decide, rfl, rfl, rfl, [spendPub, sigAll r2 s2], [1], ⟨fun _ => by decide +kernel, 0, ?_⟩, ⟨fun _ => by decide, 4, ?_⟩,
    truthy1⟩
  · refine .cons _ _ _ _ _ _ _ 0 _ (.run _ _ _ _ _ (by decide) (by simp) (.push _ _ (by decide))) (fun _ => by decide) ?_
    exact .cons _ _ _ _ _ _ _ 0 _ (.run _ _ _ _ _ (by decide) (by simp) (.push _ _ (by decide))) (fun _ => by decide) (.nil _)
  · refine .cons _ _ _ _ _ _ _ 0 _ (.run _ _ _ _ _ (by decide) (by simp) (.dup _ _ _)) (fun _ => by decide) ?_
    refine .cons _ _ _ _ _ [spendHash, spendPub, sigAll r2 s2] _ 0 _ (.run _ _ _ _ _ (by decide) (by simp) ?_) (fun _ => by decide) ?_
    · rw [← hh]
      exact .hash _ _ _
    refine .cons _ _ _ _ _ _ _ 0 _ (.run _ _ _ _ _ (by decide) (by simp) (.push _ _ (by decide))) (fun _ => by decide) ?_
    refine .cons _ _ _ _ _ [spendPub, sigAll r2 s2] _ 0 _ (.run _ _ _ _ _ (by decide) (by simp) (.equalVerify _ spendHash _)) (fun _ => by decide) ?_
    exact .cons _ _ _ _ _ _ _ 0 _ (.run _ _ _ _ _ (by decide) (by simp) (.checkSig _ _ _ _ true check2)) (fun _ => by decide) (.nil _)

/-- The hypotheses of `C128_standard_partial` (and with it of `C128_any_partial`) for this transaction, and its conclusion. -/
example : (∃ i, redeems.ins[0]? = some i ∧ StandardP2SH redeems 0 i ⟨5000, [0xa9, 0x14] ++ htlcHash ++ [0x87]⟩ (encTokens htlc)) ∧
    (∃ i, redeems.ins[1]? = some i ∧ StandardP2PKH redeems 1 i ⟨6000, [0x76, 0xa9, 0x14] ++ spendHash ++ [0x88, 0xac]⟩) ∧
    verdictWith 4 redeems [(⟨5000, [0xa9, 0x14] ++ htlcHash ++ [0x87]⟩, some (encTokens htlc)),
      (⟨6000, [0x76, 0xa9, 0x14] ++ spendHash ++ [0x88, 0xac]⟩, none)] = .ok () := by
  refine ⟨⟨_, rfl, spends0⟩, ⟨_, rfl, spends1⟩, C128_standard_partial 4 redeems _ ⟨by decide, by decide +kernel⟩ rfl ?_⟩
  rintro (_ | _ | n) i c hi hc
  · cases hi
    cases hc
    exact Or.inl ⟨_, rfl, spends0⟩
  · cases hi
    cases hc
    exact Or.inr ⟨rfl, spends1⟩
  · cases hi

end

end Toku.Props
