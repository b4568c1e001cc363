import Verif.Props.Receives
import Verif.Props.Invalid
/-
Property C127: where the verdicts of the library and of Bitcoin differ; and a case where they do not. SHA-256, RIPEMD-160 and the curve
are the real ones.
-/
namespace Toku.Props
open Toku Toku.Spec Toku.Script Toku.Locking Toku.Tx Toku.Curve Toku.Keys
open Toku.Spec.Bitcoin (In BTx Bip66 Positive ValidScripts legacyHash)

section
attribute [local instance] Sha.realHashes

/-- A transaction that spends one coin. -/
private def oneIn (scriptSig : Bytes) (witness : List Bytes) : BTx :=
  ⟨1, [⟨List.replicate 32 9, 0, scriptSig, 0xffffffff, witness⟩], [⟨4000, standardScript .p2pkh (List.replicate 20 3)⟩], 0⟩

private def coinFor (k : Locking.Kind) (p : Bytes) : TxOut := ⟨5000, standardScript k p⟩

/-- A signature of two numbers of 32 bytes. -/
private def der64 (r s : Bytes) : Bytes := [0x30, 68, 2, 32] ++ r ++ [2, 32] ++ s

private def r1 : Bytes := [57, 123, 11, 74, 204, 25, 132, 54, 92, 110, 244, 179, 37, 213, 36, 119, 23, 210, 147, 4, 66, 45, 176, 246, 64, 90, 59, 4, 87, 147, 157, 126]
private def s1 : Bytes := [36, 237, 57, 208, 27, 151, 33, 30, 149, 174, 156, 31, 90, 124, 145, 219, 196, 126, 152, 153, 110, 77, 38, 140, 149, 126, 64, 47, 26, 10, 83, 74]
private def r2 : Bytes := [36, 152, 65, 206, 168, 86, 20, 120, 152, 59, 2, 197, 101, 199, 169, 84, 36, 219, 12, 175, 13, 212, 169, 158, 128, 216, 133, 191, 183, 216, 1, 199]
private def s2 : Bytes := [98, 0, 8, 253, 242, 249, 224, 223, 71, 126, 194, 221, 152, 197, 113, 107, 150, 1, 161, 44, 248, 166, 57, 32, 15, 242, 167, 84, 54, 35, 231, 121]
private def r3 : Bytes := [25, 207, 173, 90, 183, 75, 240, 192, 103, 78, 198, 179, 22, 180, 167, 221, 218, 30, 44, 137, 143, 198, 46, 34, 206, 107, 126, 229, 118, 52, 142, 147]
private def s3 : Bytes := [89, 183, 33, 211, 15, 6, 195, 94, 160, 172, 152, 102, 248, 212, 102, 251, 135, 184, 40, 1, 229, 43, 170, 7, 206, 136, 249, 74, 116, 35, 108, 53]
private def r4 : Bytes := [15, 175, 205, 253, 119, 8, 149, 61, 36, 242, 86, 178, 78, 34, 116, 246, 225, 227, 193, 122, 43, 22, 29, 116, 8, 119, 221, 84, 43, 22, 172, 176]
private def s4 : Bytes := [16, 29, 161, 201, 200, 84, 52, 11, 36, 31, 13, 85, 36, 40, 177, 165, 33, 157, 219, 213, 23, 160, 20, 105, 197, 193, 218, 187, 78, 88, 189, 236]

private theorem bip66_64 {r s : Bytes} (t : UInt8) (hr : r.length = 32) (hs : s.length = 32) (pr : ∀ a l, r = a :: l → 0 < a.toNat ∧ a.toNat < 128)
    (ps : ∀ a l, s = a :: l → 0 < a.toNat ∧ a.toNat < 128) : Bip66 (der64 r s ++ [t]) r s t := by
  have pos : ∀ c : Bytes, c.length = 32 → (∀ a l, c = a :: l → 0 < a.toNat ∧ a.toNat < 128) → Positive c := by
    intro c hc hp
    refine ⟨fun e => by rw [e] at hc; simp at hc, fun a l e => (hp a l e).2, fun a b l e ha => ?_⟩
    have := (hp a _ e).1
    rw [ha] at this
    exact absurd this (by decide)
  refine ⟨?_, ?_, pos r hr pr, pos s hs ps⟩
  · unfold der64
    rw [hr, hs]
    simp
  · simp [der64, hr, hs]

/-- The public key with the prefix 5 and its hash. -/
private def pub5 : Bytes := [5, 152, 156, 11, 118, 203, 86, 57, 113, 253, 201, 190, 243, 30, 192, 108, 53, 96, 243, 36, 157, 110, 233, 229, 216, 60,
  87, 98, 85, 150, 224, 95, 111, 99, 31, 77, 5, 179, 174, 81, 135, 118, 238, 8, 117, 90, 119, 3, 230, 75, 46, 188, 50,
  84, 117, 4, 222, 11, 85, 161, 66, 212, 236, 223, 128]
private def hash5 : Bytes := [122, 128, 49, 81, 156, 63, 2, 209, 71, 241, 211, 50, 217, 255, 2, 48, 42, 149, 160, 238]

/-- **C127, negation: legacy hash types.** A P2PKH coin that is spent with the hash type NONE: valid for Bitcoin, and the library refuses it. -/
theorem C127_negation_none : ∃ b coins, Sizes b ∧ ValidScripts b coins ∧ verdict 4 b coins = .err errVerifyFailed := by
  refine ⟨oneIn ([71] ++ (der64 r1 s1 ++ [2]) ++ [33] ++ spendPub) [], [coinFor .p2pkh spendHash], ⟨by decide, by decide +kernel⟩, ⟨rfl, ?_⟩,
    by decide +kernel⟩
  intro idx coin hc
  cases idx with
  | succ n => cases hc
  | zero =>
    cases hc
    refine p2pkh_spent (sig := der64 r1 s1 ++ [2]) (key := spendPub) (by decide) rfl rfl (by decide) (by decide) rfl (by decide) (by decide +kernel) ?_
    exact check_of_verify (bip66_64 2 rfl rfl (by rintro _ _ ⟨⟩; decide) (by rintro _ _ ⟨⟩; decide)) (by rintro _ ⟨⟩) (by decide +kernel)

/-- **C127, negation: SINGLE.** A P2WPKH coin that is spent with the hash type SINGLE: valid for Bitcoin, and the library refuses it. -/
theorem C127_negation_single : ∃ b coins, Sizes b ∧ ValidScripts b coins ∧ verdict 4 b coins = .err errVerifyFailed := by
  refine ⟨oneIn [] [der64 r2 s2 ++ [3], spendPub], [coinFor .p2wpkh spendHash], ⟨by decide, by decide +kernel⟩, ⟨rfl, ?_⟩,
    by decide +kernel⟩
  intro idx coin hc
  cases idx with
  | succ n => cases hc
  | zero =>
    cases hc
    refine p2wpkh_spent (sig := der64 r2 s2 ++ [3]) (key := spendPub) (by decide) rfl rfl (by decide) (by decide) rfl (by decide +kernel) ?_
    exact check_of_verify (bip66_64 3 rfl rfl (by rintro _ _ ⟨⟩; decide) (by rintro _ _ ⟨⟩; decide)) (by rintro _ ⟨⟩) (by decide +kernel)

/-- **C127, negation: the prefix 5.** A coin of the hash of a key with the prefix 5: the library accepts the spending, Bitcoin does not. -/
theorem C127_negation_prefix : ∃ b coins, Sizes b ∧ verdict 4 b coins = .ok () ∧ ¬ ValidScripts b coins := by
  refine ⟨oneIn ([71] ++ (der64 r4 s4 ++ [1]) ++ [65] ++ pub5) [], [coinFor .p2pkh hash5], ⟨by decide, by decide +kernel⟩, by decide +kernel, ?_⟩
  rintro ⟨_, h⟩
  obtain ⟨_, h⟩ := p2pkh_needs (sig := der64 r4 s4 ++ [1]) (key := pub5) (p := hash5) (v := 5000) (by decide) rfl (by decide) (by decide)
    rfl (h 0 _ rfl)
  unfold Bitcoin.checkSig at h
  rw [if_neg (by decide)] at h
  split at h
  · have h := @of_decide_eq_true _ (Classical.propDecidable _) (Option.some.inj h)
    obtain ⟨_, _, _, q, _, _, hk, _⟩ := h
    have he : pub5.head? = some 5 := rfl
    rcases hk with ⟨_, _, e⟩ | ⟨_, _, _, _, e⟩ | ⟨_, _, _, _, e⟩ <;> rw [e] at he <;> simp only [List.head?_cons, Option.some.injEq] at he
    · split_ifs at he <;> exact absurd he (by decide)
    · exact absurd he (by decide)
    · split_ifs at he <;> exact absurd he (by decide)
  · cases h

/-- **C127, negation: a script with a witness.** A P2WPKH coin with a script in the script field of the input: the library accepts it,
Bitcoin does not. -/
theorem C127_negation_script : ∃ b coins, Sizes b ∧ verdict 4 b coins = .ok () ∧ ¬ ValidScripts b coins := by
  refine ⟨oneIn [0x51] [der64 r3 s3 ++ [1], spendPub], [coinFor .p2wpkh spendHash], ⟨by decide, by decide +kernel⟩, by decide +kernel, ?_⟩
  rintro ⟨_, h⟩
  obtain ⟨h, _⟩ := p2wpkh_needs (p := spendHash) (v := 5000) (by decide) rfl (h 0 _ rfl)
  cases h

/-- **C127, negation: bytes after the signature.** A byte between the signature and its hash type: the library accepts it, Bitcoin does
not. -/
theorem C127_negation_trailing : ∃ b coins, Sizes b ∧ verdict 4 b coins = .ok () ∧ ¬ ValidScripts b coins := by
  refine ⟨oneIn [] [der64 r3 s3 ++ [0] ++ [1], spendPub], [coinFor .p2wpkh spendHash], ⟨by decide, by decide +kernel⟩, by decide +kernel, ?_⟩
  rintro ⟨_, h⟩
  obtain ⟨_, sig, key, hw, _, h⟩ := p2wpkh_needs (p := spendHash) (v := 5000) (by decide) rfl (h 0 _ rfl)
  have hw : [der64 r3 s3 ++ [0] ++ [1], spendPub] = [sig, key] := hw
  cases hw
  unfold Bitcoin.checkSig at h
  rw [if_neg (by simp)] at h
  split at h
  · rename_i hb
    obtain ⟨r, s, t, hb⟩ := hb
    obtain ⟨e, _⟩ := hb
    have h1 := congrArg List.length e
    have h2 := congrArg (fun l : Bytes => (l[1]?.getD 0).toNat) e
    simp [der64, r3, s3] at h1 h2
    omega
  · cases h

/-- Both accept: the hypotheses of `C127_partial` and its conclusions. -/
example : (∃ p sig key, KeySpend 1 ⟨List.replicate 32 9, 0, [], 0xffffffff, [der64 r3 s3 ++ [1], spendPub]⟩ (coinFor .p2wpkh spendHash) p sig key ∧
      StrictForm p sig key) ∧ verdict 4 (oneIn [] [der64 r3 s3 ++ [1], spendPub]) [coinFor .p2wpkh spendHash] = .ok () ∧
    ValidScripts (oneIn [] [der64 r3 s3 ++ [1], spendPub]) [coinFor .p2wpkh spendHash] := by
  have hb := bip66_64 (r := r3) (s := s3) 1 rfl rfl (by rintro _ _ ⟨⟩; decide) (by rintro _ _ ⟨⟩; decide)
  have hstrict : StrictForm spendHash (der64 r3 s3 ++ [1]) spendPub := ⟨⟨_, _, _, hb⟩, by rintro _ ⟨⟩, by decide⟩
  have hks : KeySpend 1 ⟨List.replicate 32 9, 0, [], 0xffffffff, [der64 r3 s3 ++ [1], spendPub]⟩ (coinFor .p2wpkh spendHash) spendHash
      (der64 r3 s3 ++ [1]) spendPub := by
    refine ⟨by decide, by decide, by decide, Or.inr ⟨rfl, rfl, rfl, ?_⟩⟩
    intro t ht
    rw [List.getLast?_concat] at ht
    cases ht
    exact ⟨by decide, by decide, SameClass.rfl' 1⟩
  have hv : verdict 4 (oneIn [] [der64 r3 s3 ++ [1], spendPub]) [coinFor .p2wpkh spendHash] = .ok () := by decide +kernel
  refine ⟨⟨_, _, _, hks, hstrict⟩, hv, ?_⟩
  refine ((C127_partial 4 (fun _ => 1) (fun _ => Covers.refl 1) _ _ ⟨by decide, by decide +kernel⟩ rfl ?_).2 ?_).mp hv
  · intro idx i coin hi hc
    cases idx with
    | succ n => cases hc
    | zero => cases hi; cases hc; exact ⟨_, _, _, hks⟩
  · intro idx i coin p sig key hi hc hk
    cases idx with
    | succ n => cases hc
    | zero =>
      cases hi; cases hc
      obtain ⟨_, _, _, ⟨_, hw, _⟩ | ⟨hc, _, hw, _⟩⟩ := hk
      · cases hw
      · cases hw
        have : spendHash = p := by simpa [standardScript] using List.append_cancel_left (as := [0x00, 0x14]) hc
        rw [← this]
        exact hstrict

end

end Toku.Props
