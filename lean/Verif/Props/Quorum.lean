import Verif.Props.Policies
import Verif.Props.Differ
import Verif.Proof.Items
/-
Property C128: a transaction that spends a P2SH and a P2WSH coin, which the library and Bitcoin accept; and where their verdicts differ.
SHA-256, RIPEMD-160 and the curve are the real ones.
-/
namespace Toku.Props
open Toku Toku.Spec Toku.Script Toku.Locking Toku.Tx Toku.Curve Toku.Keys
open Toku.Spec.Bitcoin (In BTx Bip66 Positive ValidScripts legacyHash)

section
attribute [local instance] Sha.realHashes

/-- A second public key. -/
private def pubB : Bytes := [3, 249, 145, 249, 68, 209, 225, 149, 74, 127, 200, 185, 191, 98, 224, 215, 143, 1, 95, 76, 7, 118, 45, 80, 94, 32, 230,
  196, 82, 96, 163, 102, 27]

/-- 1 of 2, and 2 of 2 -/
private def oneOf : Bytes := policyScript 1 [spendPub, pubB]
private def twoOf : Bytes := policyScript 2 [spendPub, pubB]

private def derOf (r s : Bytes) : Bytes := [0x30, UInt8.ofNat (4 + r.length + s.length), 2, UInt8.ofNat r.length] ++ r ++ [2, UInt8.ofNat s.length] ++ s

private def ra : Bytes := [57, 178, 167, 246, 114, 67, 152, 110, 48, 228, 202, 53, 62, 103, 107, 227, 253, 124, 93, 233, 211, 162, 181, 221, 244, 55, 149, 46, 195, 120, 19, 52]
private def sa : Bytes := [43, 237, 44, 61, 222, 206, 120, 36, 163, 16, 74, 92, 194, 200, 9, 100, 110, 177, 46, 121, 83, 53, 134, 219, 71, 208, 167, 69, 239, 253, 232, 223]
private def rb : Bytes := [0, 206, 103, 70, 41, 119, 209, 234, 100, 19, 168, 79, 218, 132, 237, 111, 224, 70, 20, 149, 228, 162, 208, 96, 21, 6, 236, 6, 155, 140, 233, 122, 216]
private def sb : Bytes := [14, 252, 18, 218, 4, 222, 241, 119, 77, 94, 210, 2, 51, 253, 100, 193, 241, 194, 239, 13, 205, 6, 11, 241, 28, 243, 99, 187, 50, 202, 230, 139]
private def rc : Bytes := [0, 228, 15, 37, 129, 247, 169, 203, 183, 71, 181, 211, 115, 83, 9, 116, 10, 60, 62, 75, 19, 143, 237, 135, 63, 176, 119, 238, 63, 214, 93, 69, 96]
private def sc : Bytes := [36, 148, 22, 64, 102, 228, 149, 111, 169, 61, 123, 63, 153, 65, 190, 7, 49, 61, 45, 54, 233, 117, 129, 94, 100, 205, 57, 84, 149, 90, 116, 50]

private def sigA : Bytes := derOf ra sa ++ [1]
private def sigB : Bytes := derOf rb sb ++ [1]
private def sigC : Bytes := derOf rc sc ++ [1]

/-- A transaction that spends a P2SH coin of 1 of 2 and a P2WSH coin of 2 of 2, with the items `front` before the signatures. -/
private def twoWith (front : List Bytes) : BTx :=
  ⟨1, [⟨List.replicate 32 9, 0, 0 :: [sigA].flatMap pushOf ++ pushOf oneOf, 0xffffffff, []⟩,
      ⟨List.replicate 32 9, 1, [], 0xffffffff, front ++ [sigB, sigC] ++ [twoOf]⟩], [⟨4000, standardScript .p2pkh (List.replicate 20 3)⟩], 0⟩

private def twoIn (dummy : Bytes) : BTx := twoWith [dummy]

private def hashA : Bytes := [149, 236, 86, 154, 160, 85, 97, 223, 7, 246, 80, 103, 23, 100, 148, 163, 181, 156, 249, 135]
private def hashB : Bytes := [141, 186, 142, 191, 123, 91, 166, 27, 221, 48, 177, 235, 13, 227, 37, 111, 185, 200, 163, 180, 211, 212, 177, 37, 239,
  17, 93, 62, 155, 45, 31, 70]

private def coinsOf (p : Bytes) : List (TxOut × Option Bytes) :=
  [(⟨5000, standardScript .p2sh hashA⟩, some oneOf), (⟨6000, standardScript .p2wsh p⟩, some twoOf)]

private theorem policySizes {m : ℕ} (h1 : 1 ≤ m) (h2 : m ≤ 2) : PolicySizes m [spendPub, pubB] :=
  ⟨h1, h2, by decide, by decide⟩

private theorem bip66_a : ∃ r x t, Bip66 sigA r x t :=
  ⟨ra, sa, 1, by decide, by decide, ⟨by decide, by rintro _ _ ⟨⟩; decide, by rintro _ _ _ ⟨⟩ h; exact absurd h (by decide)⟩,
    ⟨by decide, by rintro _ _ ⟨⟩; decide, by rintro _ _ _ ⟨⟩ h; exact absurd h (by decide)⟩⟩

private theorem bip66_b : ∃ r x t, Bip66 sigB r x t :=
  ⟨rb, sb, 1, by decide, by decide, ⟨by decide, by rintro _ _ ⟨⟩; decide, by rintro _ _ _ ⟨⟩ _; decide⟩,
    ⟨by decide, by rintro _ _ ⟨⟩; decide, by rintro _ _ _ ⟨⟩ h; exact absurd h (by decide)⟩⟩

private theorem bip66_c : ∃ r x t, Bip66 sigC r x t :=
  ⟨rc, sc, 1, by decide, by decide, ⟨by decide, by rintro _ _ ⟨⟩; decide, by rintro _ _ _ ⟨⟩ _; decide⟩,
    ⟨by decide, by rintro _ _ ⟨⟩; decide, by rintro _ _ _ ⟨⟩ h; exact absurd h (by decide)⟩⟩

/-- **C128, negation: the program.** The witness has a script that is not the one of the coin's program: the library accepts it, Bitcoin does not. -/
theorem C128_negation_program : ∃ b coins, Sizes b ∧ verdictWith 4 b coins = .ok () ∧ ¬ ValidScripts b (coins.map (·.1)) := by
  refine ⟨twoIn [], coinsOf (List.replicate 32 5), ⟨by decide, by decide +kernel⟩, by decide +kernel, ?_⟩
  rintro ⟨_, h⟩
  obtain ⟨h, _⟩ := p2wsh_needs (policySizes (m := 2) (by decide) (by decide)) (sigs := [sigB, sigC]) (p := List.replicate 32 5) (v := 6000) rfl rfl
    rfl rfl (h 1 _ rfl)
  exact absurd h (by decide +kernel)

/-- **C128, negation: the extra element.** The element that OP_CHECKMULTISIG takes besides the signatures is not empty: the library
accepts it, Bitcoin does not (BIP147). -/
theorem C128_negation_dummy : ∃ b coins, Sizes b ∧ verdictWith 4 b coins = .ok () ∧ ¬ ValidScripts b (coins.map (·.1)) := by
  refine ⟨twoIn [1], coinsOf hashB, ⟨by decide, by decide +kernel⟩, by decide +kernel, ?_⟩
  rintro ⟨_, h⟩
  obtain ⟨_, h, _⟩ := p2wsh_needs (policySizes (m := 2) (by decide) (by decide)) (sigs := [sigB, sigC]) (p := hashB) (v := 6000) rfl rfl
    rfl rfl (h 1 _ rfl)
  cases h

/-- **C128, negation: further items.** The witness has an item too many: the library accepts it, Bitcoin does not. -/
theorem C128_negation_items : ∃ b coins, Sizes b ∧ verdictWith 4 b coins = .ok () ∧ ¬ ValidScripts b (coins.map (·.1)) := by
  refine ⟨twoWith [[7], []], coinsOf hashB, ⟨by decide, by decide +kernel⟩, by decide +kernel, ?_⟩
  rintro ⟨_, h⟩
  have := p2wsh_items (policySizes (m := 2) (by decide) (by decide)) (p := hashB) (v := 6000) rfl rfl rfl (h 1 _ rfl)
  exact absurd this (by decide)

/-- Both accept: the hypotheses of `C128_exact_partial` and its conclusions. -/
example : Sizes (twoIn []) ∧
    (∀ (idx : ℕ) i c, (twoIn []).ins[idx]? = some i → (coinsOf hashB)[idx]? = some c → StrictlySpends 1 i c.1 c.2) ∧
    verdictWith 4 (twoIn []) (coinsOf hashB) = .ok () ∧ ValidScripts (twoIn []) ((coinsOf hashB).map (·.1)) := by
  have hs : Sizes (twoIn []) := ⟨by decide, by decide +kernel⟩
  have hk : ∀ (idx : ℕ) i c, (twoIn []).ins[idx]? = some i → (coinsOf hashB)[idx]? = some c → StrictlySpends 1 i c.1 c.2 := by
    intro idx i c hi hc
    match idx with
    | 0 =>
      cases hi; cases hc
      refine Or.inr ⟨hashA, 1, [spendPub, pubB], [sigA], rfl, ⟨policySizes (by decide) (by decide), rfl, by decide,
        Or.inl ⟨rfl, rfl, by decide, rfl, rfl, by decide⟩⟩, ?_, ?_⟩
      · intro s hs
        rw [List.mem_singleton] at hs
        subst hs
        exact ⟨bip66_a, by decide⟩
      · intro k hk rest e
        subst e
        exact absurd hk (by simp [spendPub, pubB])
    | 1 =>
      cases hi; cases hc
      refine Or.inr ⟨hashB, 2, [spendPub, pubB], [sigB, sigC], rfl, ⟨policySizes (by decide) (by decide), rfl, by decide,
        Or.inr ⟨rfl, rfl, by decide +kernel, rfl, rfl, ?_⟩⟩, ?_, ?_⟩
      · intro s hs t ht
        have : t = 1 := by
          rcases List.mem_cons.mp hs with rfl | hs
          · exact (Option.some.inj ht).symm
          · rw [List.mem_singleton] at hs
            subst hs
            exact (Option.some.inj ht).symm
        subst this
        exact ⟨by decide, by decide, SameClass.rfl' 1⟩
      · intro s hs
        rcases List.mem_cons.mp hs with rfl | hs
        · exact ⟨bip66_b, by decide⟩
        · rw [List.mem_singleton] at hs
          subst hs
          exact ⟨bip66_c, by decide⟩
      · intro k hk rest e
        subst e
        exact absurd hk (by simp [spendPub, pubB])
    | n + 2 => cases hc
  have hv : verdictWith 4 (twoIn []) (coinsOf hashB) = .ok () := by decide +kernel
  exact ⟨hs, hk, hv, (C128_exact_partial 4 (fun _ => 1) (fun _ => Covers.refl 1) _ _ hs rfl hk).mp hv⟩

end

end Toku.Props
