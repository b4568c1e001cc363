import Verif.Props.TxSign
/-
Digest caches when the hash types of the signatures cover less and less: the hashes are still those of the types (helpers of C126, C127 and C128).
-/
namespace Toku.Tx
open Toku Toku.Spec Toku.Props

/-- What the hash type `t` covers (the other inputs, their sequence numbers, the outputs), `t0` covers too. -/
def Covers (t0 t : UInt32) : Prop :=
  (t &&& 0x80 = 0 → t0 &&& 0x80 = 0) ∧
  ((t &&& 0x1f ≠ 3 ∧ t &&& 0x1f ≠ 2) → (t0 &&& 0x1f ≠ 3 ∧ t0 &&& 0x1f ≠ 2)) ∧
  ((t &&& 3 ≠ 3 ∧ t &&& 2 ≠ 2) → (t0 &&& 3 ≠ 3 ∧ t0 &&& 2 ≠ 2))

instance (t0 t : UInt32) : Decidable (Covers t0 t) := by unfold Covers; infer_instance

theorem Covers.refl (t : UInt32) : Covers t t := ⟨id, id, id⟩

theorem Covers.trans {a b c : UInt32} (h : Covers a b) (h' : Covers b c) : Covers a c :=
  ⟨fun q => h.1 (h'.1 q), fun q => h.2.1 (h'.2.1 q), fun q => h.2.2 (h'.2.2 q)⟩

theorem SameClass.covers {a b : UInt32} (h : SameClass a b) : Covers a b := ⟨h.1.mpr, h.2.1.mpr, h.2.2.mpr⟩

theorem SameClass.covers' {a b : UInt32} (h : SameClass a b) : Covers b a := ⟨h.1.mp, h.2.1.mp, h.2.2.mp⟩

variable [Hashes]

/-- The caches are those of a type that covers what `t0` covers. -/
def Up (t0 : UInt32) (tx0 tx : Transaction) : Prop := ∃ t1, Covers t1 t0 ∧ Inv t1 tx0 tx

theorem Up.frozen {t0 : UInt32} {tx0 tx : Transaction} (h : Up t0 tx0 tx) : Frozen tx0 tx := by
  obtain ⟨_, _, h, _⟩ := h
  exact h

theorem Inv.up {t0 : UInt32} {tx0 tx : Transaction} (h : Inv t0 tx0 tx) : Up t0 tx0 tx := ⟨t0, Covers.refl t0, h⟩

theorem Up.mono {t0 t : UInt32} {tx0 tx : Transaction} (h : Up t0 tx0 tx) (hc : Covers t0 t) : Up t tx0 tx := by
  obtain ⟨t1, h1, h2⟩ := h
  exact ⟨t1, h1.trans hc, h2⟩

/-- The hash of a type that covers no more than those before is the one with empty caches. -/
theorem witnessHash_up {t0 t : UInt32} {tx0 tx : Transaction} (h : Up t0 tx0 tx) (hs : SameClass t0 t) {idx : Nat}
    {i0 : TxIn} (hi0 : tx0.inputs[idx]? = some i0) :
    ∃ tx', witnessSignatureHash tx idx t = .ok (refWitness tx0 i0 t, tx') ∧ Up t0 tx0 tx' ∧ tx'.inputs = tx.inputs := by
  obtain ⟨t1, hcov, hf, c1, c2, c3⟩ := h
  obtain ⟨k1, k2, k3⟩ := hcov.trans (SameClass.covers hs)
  have hlt : idx < tx.inputs.length := by
    rw [hf.length]
    by_contra hcc
    rw [List.getElem?_eq_none (by omega)] at hi0
    cases hi0
  have hi : tx.inputs[idx]? = some tx.inputs[idx] := List.getElem?_eq_getElem hlt
  obtain ⟨i1, e1, hb⟩ := hf.get hi
  rw [hi0] at e1
  cases e1
  have w1 : cachePrevouts tx t = cachePrevouts (clear tx) t := by
    unfold cachePrevouts clear at *
    dsimp only at c1 ⊢
    by_cases ha : t &&& 0x80 = 0
    · rw [if_pos ha, if_pos ha]
      cases hx : tx.hashPrevouts with
      | none => rfl
      | some c =>
        have := c1 c hx
        rw [if_pos (k1 ha)] at this
        exact this
    · rw [if_neg ha, if_neg ha]
  have w2 : cacheSequence tx t = cacheSequence (clear tx) t := by
    unfold cacheSequence clear at *
    dsimp only at c2 ⊢
    by_cases ha : t &&& 0x80 = 0 ∧ t &&& 0x1f ≠ 3 ∧ t &&& 0x1f ≠ 2
    · rw [if_pos ha, if_pos ha]
      cases hx : tx.hashSequence with
      | none => rfl
      | some c =>
        have := c2 c hx
        rw [if_pos ⟨k1 ha.1, k2 ha.2⟩] at this
        exact this
    · rw [if_neg ha, if_neg ha]
  have w3 : cacheOutputs tx t = cacheOutputs (clear tx) t := by
    unfold cacheOutputs clear at *
    dsimp only at c3 ⊢
    by_cases ha : t &&& 3 ≠ 3 ∧ t &&& 2 ≠ 2
    · rw [if_pos ha, if_pos ha]
      cases hx : tx.hashOutputs with
      | none => rfl
      | some c =>
        have := c3 c hx
        rw [if_pos (k3 ha)] at this
        exact this
    · rw [if_neg ha, if_neg ha]
  have v1 : cachePrevouts (clear tx) t = cachePrevouts (clear tx0) t := by
    unfold cachePrevouts clear
    dsimp only
    rw [fold_bare_in, hf.inputs, ← fold_bare_in]
  have v2 : cacheSequence (clear tx) t = cacheSequence (clear tx0) t := by
    unfold cacheSequence clear
    dsimp only
    rw [fold_bare_seq, hf.inputs, ← fold_bare_seq]
  have v3 : cacheOutputs (clear tx) t = cacheOutputs (clear tx0) t := by
    unfold cacheOutputs clear
    dsimp only
    rw [hf.outputs]
  refine ⟨updateCaches tx t, ?_, ⟨t, SameClass.covers' hs, ⟨hf.version, hf.lockTime, hf.outputs, hf.inputs⟩, ?_, ?_, ?_⟩, rfl⟩
  · unfold witnessSignatureHash
    rw [hi]
    change Res.ok (_, _) = Res.ok (_, _)
    unfold refWitness
    have hp : witnessPreimage (updateCaches tx t) tx.inputs[idx] t = witnessPreimage (updateCaches (clear tx0) t) i0 t := by
      rw [witnessPreimage_bare, hb, ← witnessPreimage_bare]
      exact witnessPreimage_congr (a := updateCaches tx t) (b := updateCaches (clear tx0) t) hf.version hf.lockTime (congrArg some (w1.trans v1))
        (congrArg some (w2.trans v2)) (congrArg some (w3.trans v3)) _ _
    rw [hp]
  · intro c hc
    exact (Option.some.inj hc).symm.trans w1
  · intro c hc
    exact (Option.some.inj hc).symm.trans w2
  · intro c hc
    exact (Option.some.inj hc).symm.trans w3

open Toku.Locking Toku.Script

variable {κ : Type} {E : Ecdsa κ}

theorem signOne_up {t0 t : UInt32} {tx0 tx tx' : Transaction} {idx : Nat} {i0 i : TxIn} {sc : LockScript} {key : κ} {g : Bytes}
    (hinv : Up t0 tx0 tx) (hi0 : tx0.inputs[idx]? = some i0) (hi : tx.inputs[idx]? = some i)
    (hp : parse i.rawLockingScript = .ok sc)
    (hs : scriptVersion sc = .witnessV0 → SameClass t0 t)
    (h : signOne E tx idx t (decide (scriptVersion sc = .witnessV0)) key = .ok (g, tx')) :
    Up t0 tx0 tx' ∧ tx'.inputs = tx.inputs ∧
      ∃ h sig, refHash tx0 idx i0 t (scriptVersion sc) = .ok h ∧ E.sign key h = .ok sig ∧ g = sig ++ [t.toUInt8] := by
  have hlt : idx < tx.inputs.length := by
    by_contra hcc
    rw [List.getElem?_eq_none (by omega)] at hi
    cases hi
  unfold signOne at h
  cases hv : scriptVersion sc with
  | base =>
    rw [hv] at h
    rw [if_neg (by decide), Res.bind_eq_ok] at h
    obtain ⟨g', h1, h2⟩ := h
    cases h2
    unfold rawSignature at h1
    rw [if_neg (by omega), Res.bind_eq_ok] at h1
    obtain ⟨d, hd, h1⟩ := h1
    rw [Res.bind_eq_ok] at h1
    obtain ⟨sg, hsg, h1⟩ := h1
    cases h1
    rw [rawHash_frozen hinv.frozen] at hd
    exact ⟨hinv, rfl, d, sg, hd, hsg, rfl⟩
  | witnessV0 =>
    rw [hv] at h hs
    rw [if_pos (by decide)] at h
    unfold witnessSignature at h
    rw [if_neg (by omega), hi] at h
    change (parse i.rawLockingScript >>= _) = _ at h
    rw [hp, Res.ok_bind] at h
    rw [hv] at h
    dsimp only at h
    obtain ⟨tx1, e1, hinv1, hin1⟩ := witnessHash_up hinv (hs rfl) hi0
    rw [e1, Res.ok_bind] at h
    dsimp only at h
    rw [Res.bind_eq_ok] at h
    obtain ⟨sg, hsg, h1⟩ := h
    cases h1
    exact ⟨hinv1, hin1, _, sg, rfl, hsg, rfl⟩

theorem signKeys_up {t0 t : UInt32} {tx0 : Transaction} {idx : Nat} {i0 i : TxIn} {sc : LockScript} {c : Bool}
    (hi0 : tx0.inputs[idx]? = some i0)
    (hp : parse i.rawLockingScript = .ok sc)
    (hs : scriptVersion sc = .witnessV0 → SameClass t0 t) (keys : List κ) :
    ∀ (tx tx' : Transaction) (signs : List PubKeySign), Up t0 tx0 tx → tx.inputs[idx]? = some i →
      signKeys E idx c t (decide (scriptVersion sc = .witnessV0)) keys tx = .ok (signs, tx') →
      Up t0 tx0 tx' ∧ tx'.inputs = tx.inputs ∧
        List.Forall₂ (SignedBy E c t (refHash tx0 idx i0 t (scriptVersion sc))) keys signs := by
  induction keys with
  | nil =>
    intro tx tx' signs hinv hi h
    cases h
    exact ⟨hinv, rfl, .nil⟩
  | cons k keys ih =>
    intro tx tx' signs hinv hi h
    simp only [signKeys] at h
    rw [Res.bind_eq_ok] at h
    obtain ⟨⟨g, tx1⟩, h1, h⟩ := h
    dsimp only at h
    rw [Res.bind_eq_ok] at h
    obtain ⟨⟨rest, tx2⟩, h2, h⟩ := h
    cases h
    obtain ⟨hinv1, hin1, hg⟩ := signOne_up hinv hi0 hi hp hs h1
    obtain ⟨hinv2, hin2, hf⟩ := ih tx1 _ rest hinv1 (by rw [hin1]; exact hi) h2
    exact ⟨hinv2, hin2.trans hin1, .cons ⟨rfl, hg⟩ hf⟩

theorem putInput_up {t0 : UInt32} {tx0 tx : Transaction} (h : Up t0 tx0 tx) {idx : Nat} {i : TxIn}
    (hi : tx.inputs[idx]? = some i) (u : Bytes) (w : List Bytes) :
    Up t0 tx0 (putInput tx idx { i with rawUnlockingScript := u, witness := w }) := by
  obtain ⟨t1, hc, h⟩ := h
  exact ⟨t1, hc, putInput_inv h hi u w⟩

end Toku.Tx
