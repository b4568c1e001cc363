import Verif.Spec.Validity
import Verif.Props.Spendable
import Verif.Props.ScriptCode
import Verif.Props.TxEcdsa
import Verif.Proof.Classes
/-
What signing leaves in an input, the signature hashes in the terms of Spec/Validity.lean, and the check of the signatures that are made.
-/
namespace Toku.Props
open Toku Toku.Spec Toku.Script Toku.Locking Toku.Tx Toku.Curve Toku.Keys
open Toku.Spec.Bitcoin (In BTx Rules Multi Bip66 Positive checkSig legacyCheck legacyHash IsWitnessProgram)

/-! ### CHECKMULTISIG -/

private theorem multi_walk {R : Rules} {check : Bytes → Bytes → Option Bool} : ∀ (K S : List Bytes), (∀ s ∈ S, s ≠ []) →
    (∀ s ∈ S, ∀ k ∈ K, check s k ≠ none) → Matching (fun s k => check s k = some true) S K → Multi R check S K true := by
  intro K
  induction K with
  | nil =>
    intro S _ _ ⟨c, hc, hf⟩
    cases List.sublist_nil.mp hc
    cases hf
    exact .done _
  | cons k K ih =>
    intro S hS hn ⟨c, hc, hf⟩
    cases S with
    | nil => exact .done _
    | cons s S =>
      have hl : (s :: S).length ≤ (k :: K).length := hf.length_eq ▸ hc.length_le
      have hS' : ∀ x ∈ S, x ≠ [] := fun x hx => hS x (List.mem_cons_of_mem _ hx)
      cases hb : check s k with
      | none => exact absurd hb (hn s List.mem_cons_self k List.mem_cons_self)
      | some b =>
        cases b with
        | true =>
          refine .hit _ _ _ _ _ hl (fun _ => hS s List.mem_cons_self) hb (ih S hS'
            (fun x hx y hy => hn x (List.mem_cons_of_mem _ hx) y (List.mem_cons_of_mem _ hy)) ?_)
          cases hf with
          | @cons _ a _ c' h1 h2 =>
            refine ⟨c', ?_, h2⟩
            cases hc with
            | cons _ h => exact (List.sublist_cons_self _ _).trans h
            | cons_cons _ h => exact h
        | false =>
          refine .miss _ _ _ _ _ hl (fun _ => hS s List.mem_cons_self) hb (ih _ hS
            (fun x hx y hy => hn x hx y (List.mem_cons_of_mem _ hy)) ⟨c, ?_, hf⟩)
          cases hc with
          | cons _ h => exact h
          | cons_cons _ h =>
            cases hf with
            | cons h1 h2 => rw [hb] at h1; cases h1

/-- Signatures that match keys in order, with a check that comes to a result, satisfy CHECKMULTISIG. -/
theorem multi_of_check {R : Rules} {check : Bytes → Bytes → Option Bool} {S K : List Bytes} (hS : ∀ s ∈ S, s ≠ [])
    (hn : ∀ s ∈ S, ∀ k ∈ K, check s k ≠ none) (hm : Matching (fun s k => check s k = some true) S K) :
    Multi R check S.reverse K.reverse true :=
  multi_walk _ _ (fun s hs => hS s (List.mem_reverse.mp hs))
    (fun s hs k hk => hn s (List.mem_reverse.mp hs) k (List.mem_reverse.mp hk)) (VM.matching_reverse.mpr hm)

/-! ### Signatures -/

private theorem isInt_positive {x : ℤ} {c : Bytes} (h : IsInt x c) (hx : 1 ≤ x) : Positive c ∧ (beNat c : ℤ) = x := by
  obtain ⟨h1, h2, h3⟩ := h
  cases c with
  | nil => exact absurd rfl h1
  | cons a t =>
    have hlt : beNat (a :: t) < 256 ^ (a :: t).length := natOfBE_lt _
    have ha : a.toNat < 128 := by
      by_contra hcc
      simp only [twosComplement] at h2
      rw [if_pos (by omega)] at h2
      have : ((256 ^ (a :: t).length : ℕ) : ℤ) = 256 ^ (a :: t).length := by push_cast; rfl
      omega
    refine ⟨⟨h1, ?_, ?_⟩, ?_⟩
    · intro b u e
      cases e
      exact ha
    · intro b d u e hb
      by_contra hcc
      exact (h3 b d u e).1 ⟨hb, by omega⟩
    · simp only [twosComplement] at h2
      rw [if_neg (by omega)] at h2
      simpa using h2

private theorem isLen_short {n : ℕ} {l : Bytes} (h : IsLen n l) (hn : n < 128) : l = [UInt8.ofNat n] := by
  rcases h with ⟨_, h⟩ | ⟨h, _⟩
  · exact h
  · omega

/-- A short DER signature of positive numbers, with the hash type, is of the form of BIP66. -/
theorem bip66_of_der {r s : ℤ} {sig : Bytes} (t : UInt8) (h : DerSignature r s sig) (hl : sig.length ≤ 71) (hr : 1 ≤ r) (hs : 1 ≤ s) :
    ∃ rc sc, Bip66 (sig ++ [t]) rc sc t ∧ (beNat rc : ℤ) = r ∧ (beNat sc : ℤ) = s := by
  obtain ⟨rc, sc, re, se, h1, h2, ⟨l1, hl1, rfl⟩, ⟨l2, hl2, rfl⟩, ⟨l3, hl3, rfl⟩⟩ := h
  obtain ⟨p1, e1⟩ := isInt_positive h1 hr
  obtain ⟨p2, e2⟩ := isInt_positive h2 hs
  simp only [List.length_cons, List.length_append] at hl
  cases isLen_short hl1 (by omega)
  cases isLen_short hl2 (by omega)
  cases isLen_short hl3 (by simp only [List.length_cons, List.length_append, List.length_nil] at hl ⊢; omega)
  refine ⟨rc, sc, ⟨?_, ?_, p1, p2⟩, e1, e2⟩
  · simp only [List.length_cons, List.length_append, List.cons_append, List.nil_append, List.append_assoc]
    rw [show rc.length + (sc.length + 1 + 1) + 1 + 1 = rc.length + sc.length + 4 by omega]
  · simp only [List.length_cons, List.length_append, List.length_nil] at hl ⊢
    omega

section
variable [Hashes]

/-- The check of a signature made by a key of the scheme: valid under both serialisations of the key, and it comes to a result under
all keys. -/
theorem check_made {fuel : ℕ} {c : Bool} {t : UInt32} {d : Bytes} {k : Ecdsa.Key} {g : PubKeySign}
    (h : SignedBy (Ecdsa.scheme fuel) c t (.ok d) k g) (hash : UInt32 → Bytes) (ht : t < 256) (hd : hash t = d) :
    (∀ c', checkSig hash g.signature ((Ecdsa.scheme fuel).pub k c') = some true) ∧ (∀ key, checkSig hash g.signature key ≠ none) ∧
      9 ≤ g.signature.length ∧ g.signature.length ≤ 72 ∧ ∃ rest, g.signature = 0x30 :: rest := by
  obtain ⟨_, h', sig, e, hs, eg⟩ := h
  cases e
  have ht8 : t.toUInt8.toUInt32 = t := by
    apply UInt32.toNat.inj
    have : t.toNat < 256 := ht
    simp only [UInt8.toNat_toUInt32, UInt32.toNat_toUInt8]
    exact Nat.mod_eq_of_lt this
  obtain ⟨p, hp, hs⟩ := Res.bind_eq_ok.mp hs
  obtain ⟨h1, h2, h3, r, s, hder, hr, hs'⟩ := C62_ecdsa fuel k.val d sig p hp hs
  obtain ⟨rc, sc, hb, er, es⟩ := bip66_of_der t.toUInt8 hder h3 hr.1 hs'.1
  rw [C61_prvFromBytes] at hp
  cases hp
  obtain ⟨r', s', hu, hsig⟩ := (C62_ecdsaVerify (natOfBE k.val • G) d sig).mp h1
  have h31 : (Der.marshal r s).length < 2 ^ 31 := by
    rw [← (C65_marshal r s sig (by omega)).mp hder]; omega
  rw [(C65_marshal r s sig (by omega)).mp hder, C65_round_trip r s h31] at hu
  cases hu
  have hne : g.signature ≠ [] := by rw [eg]; simp
  have hex : ∃ r s t, Bip66 g.signature r s t := ⟨rc, sc, t.toUInt8, by rw [eg]; exact hb⟩
  refine ⟨?_, ?_, ?_, ?_, ?_⟩
  · intro c'
    unfold checkSig
    rw [if_neg hne, if_pos hex]
    have : ∀ {p : Prop} (hp : p), some (@decide p (Classical.propDecidable p)) = some true := fun hp => by simp [hp]
    refine this ?_
    refine ⟨rc, sc, t.toUInt8, natOfBE k.val • G, by rw [eg]; exact hb, pub_finite k, ?_, ?_⟩
    · obtain ⟨hc, hu⟩ := C86_pub k
      cases c' with
      | true => exact Or.inl hc
      | false => exact Or.inr (Or.inl hu)
    · rw [ht8, hd, er, es]
      exact hsig
  · intro key
    unfold checkSig
    rw [if_neg hne, if_pos hex]
    simp
  · rw [eg, List.length_append, List.length_singleton]; omega
  · rw [eg, List.length_append, List.length_singleton]; omega
  · rw [eg, hb.1]
    exact ⟨_, rfl⟩

/-! ### The transaction as Bitcoin sees it -/

/-- The transaction with what it has on the wire. -/
def wire (tx : Transaction) : BTx :=
  ⟨tx.version, tx.inputs.map fun i => ⟨i.hash, i.index, scriptSig i, i.sequence, i.witness⟩, tx.outputs, tx.lockTime⟩

/-- The coin that an input spends. -/
def coinOf (i : TxIn) : TxOut := ⟨i.value, i.rawLockingScript⟩

omit [Hashes] in
theorem flatMap_zipIdx_map {α β γ : Type} (f : α → β) (g : β × ℕ → List γ) : ∀ (l : List α) (n : ℕ),
    ((l.map f).zipIdx n).flatMap g = (l.zipIdx n).flatMap fun p => g (f p.1, p.2) := by
  intro l
  induction l with
  | nil => intro n; rfl
  | cons a l ih => intro n; simp only [List.map_cons, List.zipIdx_cons, List.flatMap_cons, ih]

/-- The original signature hash of type ALL. -/
theorem legacyHash_all (tx : Transaction) (idx : ℕ) (code : Bytes) :
    legacyHash (wire tx) idx code 1 = sha256d (legacyPreimage tx idx code) := by
  unfold legacyHash
  rw [if_neg (by rintro ⟨h, _⟩; exact absurd h (by decide))]
  refine congrArg sha256d ?_
  have h1 : Bitcoin.legacyIns (wire tx) idx code 1 =
      tx.inputs.zipIdx.map fun p => wireIn p.1.hash p.1.index (if p.2 = idx then code else []) p.1.sequence := by
    unfold Bitcoin.legacyIns
    rw [if_neg (by decide)]
    have : ∀ (l : List TxIn) (n : ℕ), ((l.map fun i => (⟨i.hash, i.index, scriptSig i, i.sequence, i.witness⟩ : In)).zipIdx n).map
        (fun p => wireIn p.1.prev p.1.index (if p.2 = idx then code else [])
          (if p.2 ≠ idx ∧ (Bitcoin.base 1 = 2 ∨ Bitcoin.base 1 = 3) then 0 else p.1.sequence)) =
        (l.zipIdx n).map fun p => wireIn p.1.hash p.1.index (if p.2 = idx then code else []) p.1.sequence := by
      intro l
      induction l with
      | nil => intro n; rfl
      | cons a l ih =>
        intro n
        simp only [List.map_cons, List.zipIdx_cons]
        rw [ih, if_neg (fun h : n ≠ idx ∧ (Bitcoin.base 1 = 2 ∨ Bitcoin.base 1 = 3) => absurd h.2 (by decide))]
    exact this tx.inputs 0
  have h2 : Bitcoin.legacyOuts (wire tx) idx 1 = tx.outputs := by
    unfold Bitcoin.legacyOuts
    rw [if_neg (by decide), if_neg (by decide)]
    rfl
  rw [h1, h2]
  unfold legacyPreimage counted
  rw [List.length_map, List.flatMap_map]
  rfl

/-- The signature hash of BIP143. -/
theorem witnessHash_eq (tx : Transaction) (idx : ℕ) (i : TxIn) (code : Bytes) (t : UInt32) (hc : i.witnessScriptCode = some code) :
    Bitcoin.witnessHash (wire tx) idx ⟨i.hash, i.index, scriptSig i, i.sequence, i.witness⟩ i.value code t = sha256d (bip143 tx idx i t) := by
  unfold Bitcoin.witnessHash bip143
  simp only [hc, Option.getD_some, wire, List.flatMap_map, Bitcoin.onlyOwn, Bitcoin.base, decide_eq_true_eq]
  by_cases h3 : t &&& 31 = 3 <;> by_cases h2 : t &&& 31 = 2 <;> by_cases ha : t &&& 128 = 0 <;>
    simp only [h3, h2, ha, ne_eq, not_true_eq_false, not_false_eq_true, true_or, false_or, or_self, or_true, if_true, if_false] <;>
    cases tx.outputs[idx]? <;> rfl

/-! ### What signing leaves in an input -/

variable {κ : Type} {E : Ecdsa κ}

/-- The input `i` was signed by the keys, `i0` being the input before. -/
def Made (E : Ecdsa κ) (tx0 : Transaction) (idx : ℕ) (i0 : TxIn) (s : LockScript) (t : UInt32) (c : Bool) (keys : List κ) (i : TxIn) : Prop :=
  bare i = bare i0 ∧ ∃ signs, List.Forall₂ (SignedBy E c t (refHash tx0 idx i0 t (scriptVersion s))) keys signs ∧
    ((∃ e, rawUnlocking s signs i0.redeemScript = .err e) ∨
      (rawUnlocking s signs i0.redeemScript = .ok i.rawUnlockingScript ∧ witnessUnlocking s signs i0.redeemScript = .ok i.witness))

theorem signIndex_made {t0 t : UInt32} {tx0 tx tx' : Transaction} {idx : Nat} {c : Bool} {keys : List κ} {i0 : TxIn} {s : LockScript}
    (hinv : Up t0 tx0 tx) (hi0 : tx0.inputs[idx]? = some i0) (hp0 : parse i0.rawLockingScript = .ok s)
    (hw : i0.hasWitness = decide (scriptVersion s = .witnessV0)) (hs : i0.hasWitness = true → SameClass t0 t)
    (h : signIndex E tx idx c t keys = .ok tx') :
    Up t0 tx0 tx' ∧ (∀ i, tx'.inputs[idx]? = some i → Made E tx0 idx i0 s t c keys i) ∧
      ∀ k i, k ≠ idx → tx'.inputs[k]? = some i → tx.inputs[k]? = some i := by
  unfold signIndex at h
  cases hi : tx.inputs[idx]? with
  | none => rw [hi] at h; cases h
  | some i =>
    rw [hi] at h
    change (if keys.length > 1 ∧ i.redeemScript = none then _ else _) = _ at h
    obtain ⟨i1, e1, hb⟩ := hinv.frozen.get hi
    rw [hi0] at e1; cases e1
    obtain ⟨b1, b2, b3, b4⟩ := bare_fields hb
    rw [← b2] at hp0
    split at h
    · cases h
    rw [Res.bind_eq_ok] at h
    obtain ⟨⟨signs, tx1⟩, hsk, h⟩ := h
    dsimp only at h
    have hww : i.hasWitness = i0.hasWitness := by unfold TxIn.hasWitness; rw [b4]
    have hs' : scriptVersion s = .witnessV0 → SameClass t0 t := fun hv => hs (by rw [hw, hv]; rfl)
    rw [hww, hw] at hsk
    obtain ⟨hinv1, hin1, hsigned⟩ := signKeys_up hi0 hp0 hs' keys tx tx1 signs hinv hi hsk
    unfold embed at h
    rw [hin1, hi] at h
    change (if signs.length > 1 ∧ i.redeemScript = none then _ else _) = _ at h
    split at h
    · cases h
    rw [hp0, Res.ok_bind] at h
    have final : ∀ u w, tx' = putInput tx1 idx { i with rawUnlockingScript := u, witness := w } →
        ((∃ e, rawUnlocking s signs i0.redeemScript = .err e) ∨
          (rawUnlocking s signs i0.redeemScript = .ok u ∧ witnessUnlocking s signs i0.redeemScript = .ok w)) →
        Up t0 tx0 tx' ∧ (∀ i, tx'.inputs[idx]? = some i → Made E tx0 idx i0 s t c keys i) ∧
          ∀ k i, k ≠ idx → tx'.inputs[k]? = some i → tx.inputs[k]? = some i := by
      intro u w e hu
      rw [e]
      refine ⟨putInput_up hinv1 (by rw [hin1]; exact hi) u w, ?_, ?_⟩
      · intro j hj
        rcases putInput_get hj with ⟨_, rfl⟩ | ⟨q, _⟩
        · exact ⟨hb, signs, hsigned, hu⟩
        · exact absurd rfl q
      · intro n j hn hj
        rcases putInput_get hj with ⟨q, _⟩ | ⟨_, hj⟩
        · exact absurd q hn
        · rw [← hin1]; exact hj
    cases hru : rawUnlocking s signs i.redeemScript with
    | panic => rw [hru] at h; cases h
    | err e =>
      rw [hru] at h
      exact final [] i.witness (Res.ok.inj h).symm (Or.inl ⟨e, by rw [← b1]; exact hru⟩)
    | ok u =>
      rw [hru] at h
      dsimp only at h
      obtain ⟨w, hw', h⟩ := Res.bind_eq_ok.mp h
      exact final u w (Res.ok.inj h).symm (Or.inr ⟨by rw [← b1]; exact hru, by rw [← b1]; exact hw'⟩)

/-- After signing every input, each was left by one of the calls, if the types of the witness inputs cover less and less. -/
theorem signAll_made (tx tx' : Transaction) (calls : List (SignCall κ))
    (h1 : tx.hashPrevouts = none) (h2 : tx.hashSequence = none) (h3 : tx.hashOutputs = none)
    (hall : ∀ idx < tx.inputs.length, ∃ c ∈ calls, c.idx = idx)
    (hpar : ∀ c ∈ calls, ∀ i, tx.inputs[c.idx]? = some i → ∃ s, parse i.rawLockingScript = .ok s ∧
      i.hasWitness = decide (scriptVersion s = .witnessV0))
    (horder : calls.Pairwise fun a b => ∀ i j, tx.inputs[a.idx]? = some i → tx.inputs[b.idx]? = some j → i.hasWitness = true →
      j.hasWitness = true → Covers a.hashType b.hashType)
    (hsign : signAll E tx calls = .ok tx') :
    Frozen tx tx' ∧ ∀ idx i, tx'.inputs[idx]? = some i → ∃ c ∈ calls, c.idx = idx ∧ ∃ i0 s, tx.inputs[idx]? = some i0 ∧
      parse i0.rawLockingScript = .ok s ∧ Made E tx idx i0 s c.hashType c.compressed c.keys i := by
  have main : ∀ (cs : List (SignCall κ)) (txa : Transaction), (∀ c ∈ cs, c ∈ calls) →
      (cs.Pairwise fun a b => ∀ i j, tx.inputs[a.idx]? = some i → tx.inputs[b.idx]? = some j → i.hasWitness = true →
        j.hasWitness = true → Covers a.hashType b.hashType) →
      (∃ t, Up t tx txa) → (∀ c ∈ cs, ∀ i, tx.inputs[c.idx]? = some i → i.hasWitness = true → Up c.hashType tx txa) →
      (∀ idx i, txa.inputs[idx]? = some i → (∃ c ∈ cs, c.idx = idx) ∨ ∃ c ∈ calls, c.idx = idx ∧ ∃ i0 s, tx.inputs[idx]? = some i0 ∧
        parse i0.rawLockingScript = .ok s ∧ Made E tx idx i0 s c.hashType c.compressed c.keys i) →
      signAll E txa cs = .ok tx' → Frozen tx tx' ∧ ∀ idx i, tx'.inputs[idx]? = some i → ∃ c ∈ calls, c.idx = idx ∧
        ∃ i0 s, tx.inputs[idx]? = some i0 ∧ parse i0.rawLockingScript = .ok s ∧ Made E tx idx i0 s c.hashType c.compressed c.keys i := by
    intro cs
    induction cs with
    | nil =>
      intro txa _ _ ⟨_, hup⟩ _ hr h
      cases h
      refine ⟨hup.frozen, fun idx i hi => ?_⟩
      rcases hr idx i hi with ⟨c, hc, _⟩ | h
      · cases hc
      · exact h
    | cons c cs ih =>
      intro txa hsub hord ⟨t1, hup⟩ hups hr h
      simp only [signAll] at h
      rw [Res.bind_eq_ok] at h
      obtain ⟨txb, hb, h⟩ := h
      have hc : c ∈ calls := hsub c (by simp)
      have hi0 : ∃ i0, tx.inputs[c.idx]? = some i0 := by
        unfold signIndex at hb
        cases hi : txa.inputs[c.idx]? with
        | none => rw [hi] at hb; cases hb
        | some i =>
          obtain ⟨i0, e, _⟩ := hup.frozen.get hi
          exact ⟨i0, e⟩
      obtain ⟨i0, hi0⟩ := hi0
      obtain ⟨s, hps, hw⟩ := hpar c hc i0 hi0
      obtain ⟨ho, hord⟩ := List.pairwise_cons.mp hord
      -- what one call keeps, and the input it leaves
      have step : (∃ t, Up t tx txb) ∧ (∀ d ∈ cs, ∀ i, tx.inputs[d.idx]? = some i → i.hasWitness = true → Up d.hashType tx txb) ∧
          (∀ i, txb.inputs[c.idx]? = some i → Made E tx c.idx i0 s c.hashType c.compressed c.keys i) ∧
          ∀ k i, k ≠ c.idx → txb.inputs[k]? = some i → txa.inputs[k]? = some i := by
        cases hww : i0.hasWitness with
        | true =>
          obtain ⟨hupb, hm, ho'⟩ := signIndex_made (hups c (by simp) i0 hi0 hww) hi0 hps hw (fun _ => ⟨Iff.rfl, Iff.rfl, Iff.rfl⟩) hb
          exact ⟨⟨_, hupb⟩, fun d hd i hi hwi => hupb.mono (ho d hd i0 i hi0 hi hww hwi), hm, ho'⟩
        | false =>
          have no : ∀ t, i0.hasWitness = true → SameClass t c.hashType := fun t q => by rw [hww] at q; cases q
          obtain ⟨hupb, hm, ho'⟩ := signIndex_made hup hi0 hps hw (no t1) hb
          refine ⟨⟨_, hupb⟩, fun d hd i hi hwi => ?_, hm, ho'⟩
          exact (signIndex_made (hups d (by simp [hd]) i hi hwi) hi0 hps hw (no _) hb).1
      obtain ⟨s1, s2, hmade, hother⟩ := step
      refine ih txb (fun d hd => hsub d (by simp [hd])) hord s1 s2 ?_ h
      intro idx i hi
      by_cases e : idx = c.idx
      · subst e; exact Or.inr ⟨c, hc, rfl, i0, s, hi0, hps, hmade i hi⟩
      · rcases hr idx i (hother idx i e hi) with ⟨d, hd, e2⟩ | h
        · rcases List.mem_cons.mp hd with rfl | hd
          · exact absurd e2.symm e
          · exact Or.inl ⟨d, hd, e2⟩
        · exact Or.inr h
  have hup : ∀ t, Up t tx tx := by
    intro t
    refine Inv.up ⟨Frozen.refl tx, ?_, ?_, ?_⟩
    · intro c hx; rw [h1] at hx; cases hx
    · intro c hx; rw [h2] at hx; cases hx
    · intro c hx; rw [h3] at hx; cases hx
  exact main calls tx (fun _ h => h) horder ⟨0, hup 0⟩ (fun c _ _ _ _ => hup _) (by
    intro idx i hi
    left
    apply hall
    by_contra hcc
    rw [List.getElem?_eq_none (by omega)] at hi
    cases hi) hsign

/-- The witness hash that is signed, in terms of the signed transaction. -/
theorem refWitness_bip143 {tx tx' : Transaction} (hf : Frozen tx tx') (henc : Encodable tx') {idx : ℕ} {i0 i : TxIn} {t : UInt32}
    (hi0 : tx.inputs[idx]? = some i0) (hi : tx'.inputs[idx]? = some i) (ht : t &&& 0x1f = 0 ∨ t &&& 0x1f = 1 ∨ t &&& 0x1f = 2)
    (hc : ∀ c, i.witnessScriptCode = some c → c.length < 2^62) : refWitness tx i0 t = sha256d (bip143 tx' idx i t) := by
  have hinv : Inv t tx (clear tx') := by
    refine ⟨⟨hf.version, hf.lockTime, hf.outputs, hf.inputs⟩, ?_, ?_, ?_⟩ <;> intro c hx <;> cases hx
  obtain ⟨tx1, e1, _⟩ := witnessHash_frozen hinv ⟨Iff.rfl, Iff.rfl, Iff.rfl⟩ hi0
  obtain ⟨tx2, e2⟩ := C41_bip143_types (clear tx') ⟨henc.ins, henc.outs, henc.hash, henc.script, henc.out, henc.wit⟩ idx i t ht hi hc rfl rfl rfl
  rw [e1] at e2
  have := congrArg Prod.fst (Res.ok.inj e2)
  exact this

end

/-- A script that does not consist of two tokens is not a witness program. -/
theorem not_program {ts : List Token} (hv : ∀ t ∈ ts, t.Valid) (hl : (encTokens ts).length < 2^62) (h2 : ts.length ≠ 2) :
    ¬ IsWitnessProgram (encTokens ts) := by
  rintro ⟨v, p, e, h3, h4, hv'⟩
  obtain ⟨n, rfl, hn⟩ : ∃ n : UInt8, v = [n] ∧ (n = 0 ∨ (0x51 ≤ n.toNat ∧ n.toNat ≤ 0x60)) := by
    rcases hv' with rfl | ⟨n, rfl, h⟩
    · exact ⟨0, rfl, Or.inl rfl⟩
    · exact ⟨n, rfl, Or.inr h⟩
  have hp : (UInt8.ofNat p.length).toNat = p.length := by
    rw [UInt8.toNat_ofNat']; omega
  have hs : ∀ n : UInt8, (n = 0 ∨ (0x51 ≤ n.toNat ∧ n.toNat ≤ 0x60)) → Supported n ∧ ¬ Direct n ∧ lenWidth n = 0 := by
    apply Base58.forall_uint8; decide +kernel
  have hd : ∀ n : UInt8, 1 ≤ n.toNat → n.toNat ≤ 75 → Supported n ∧ Direct n ∧ lenWidth n = 0 := by
    apply Base58.forall_uint8; decide +kernel
  obtain ⟨s1, s2, s3⟩ := hs n hn
  obtain ⟨d1, d2, d3⟩ := hd (UInt8.ofNat p.length) (by omega) (by omega)
  have : ts = [⟨n, []⟩, ⟨UInt8.ofNat p.length, p⟩] := by
    refine tokens_unique hv ?_ hl ?_
    · intro t ht
      simp only [List.mem_cons, List.not_mem_nil, or_false] at ht
      rcases ht with rfl | rfl
      · refine ⟨s1, ?_⟩
        rw [if_neg s2, s3]; simp
      · refine ⟨d1, ?_⟩
        rw [if_pos d2, hp]
    · rw [e]
      simp [encTokens, Token.enc, s3, d3, leBytes]
  rw [this] at h2
  exact h2 rfl

end Toku.Props
