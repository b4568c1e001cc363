import Verif.Proof.Tx
import Mathlib.Logic.Relation
/-
Every accepted encoding is the canonical one up to the length of its integers.
-/
namespace Toku.Tx
open Toku.Spec Toku.Buffer Toku.Wire

/-- `e` is `c`, or is longer than `c`. -/
def Sh (c e : Bytes) : Prop := c.length ≤ e.length ∧ (e.length = c.length → e = c)

theorem Sh.refl (c : Bytes) : Sh c c := ⟨Nat.le_refl _, fun _ => rfl⟩

theorem Sh.append {c e c' e' : Bytes} (h : Sh c e) (h' : Sh c' e') : Sh (c ++ c') (e ++ e') := by
  obtain ⟨h1, h2⟩ := h
  obtain ⟨h3, h4⟩ := h'
  refine ⟨by simp only [List.length_append]; omega, ?_⟩
  intro hl
  simp only [List.length_append] at hl
  rw [h2 (by omega), h4 (by omega)]

theorem leNat_lt' {t : Bytes} : leNat t < 256 ^ t.length := leNat_lt t

theorem le_leNat (t : Bytes) : le t.length (leNat t) = t := by
  apply leNat_inj (by rw [le_length])
  rw [leNat_le, Nat.mod_eq_of_lt (leNat_lt t)]

theorem sh_varInt {e : Bytes} {n : Nat} (h : IsVarInt e n) : Sh (compactSize n) e := by
  rcases h with ⟨b, hb, rfl, rfl⟩ | ⟨t, ht, rfl, rfl⟩ | ⟨t, ht, rfl, rfl⟩ | ⟨t, ht, rfl, rfl⟩
  · unfold compactSize
    rw [if_pos hb, UInt8.ofNat_toNat]
    exact Sh.refl _
  · have hl := leNat_lt t
    have hle := le_leNat t
    rw [ht] at hl hle
    unfold compactSize Sh
    by_cases h1 : leNat t < 0xfd
    · rw [if_pos h1]
      exact ⟨by simp, fun q => by simp [ht] at q⟩
    · rw [if_neg h1, if_pos (show leNat t < 0x10000 by omega), hle]
      exact Sh.refl _
  · have hl := leNat_lt t
    have hle := le_leNat t
    rw [ht] at hl hle
    unfold compactSize Sh
    by_cases h1 : leNat t < 0xfd
    · rw [if_pos h1]
      exact ⟨by simp, fun q => by simp [ht] at q⟩
    · rw [if_neg h1]
      by_cases h2 : leNat t < 0x10000
      · rw [if_pos h2]
        exact ⟨by simp [le_length, ht], fun q => by simp [le_length, ht] at q⟩
      · rw [if_neg h2, if_pos (show leNat t < 0x100000000 by omega), hle]
        exact Sh.refl _
  · have hl := leNat_lt t
    have hle := le_leNat t
    rw [ht] at hl hle
    unfold compactSize Sh
    by_cases h1 : leNat t < 0xfd
    · rw [if_pos h1]
      exact ⟨by simp, fun q => by simp [ht] at q⟩
    · rw [if_neg h1]
      by_cases h2 : leNat t < 0x10000
      · rw [if_pos h2]
        exact ⟨by simp [le_length, ht], fun q => by simp [le_length, ht] at q⟩
      · rw [if_neg h2]
        by_cases h3 : leNat t < 0x100000000
        · rw [if_pos h3]
          exact ⟨by simp [le_length, ht], fun q => by simp [le_length, ht] at q⟩
        · rw [if_neg h3, hle]
          exact Sh.refl _

theorem sh_varStr {e b : Bytes} (h : IsVarStr e b) : Sh (varStr b) e := by
  obtain ⟨p, rfl, hp⟩ := h
  exact (sh_varInt hp).append (Sh.refl _)

theorem sh_seq {α : Type} {R : Bytes → α → Prop} {enc : α → Bytes} (hr : ∀ e x, R e x → Sh (enc x) e) (l : List α) :
    ∀ e, IsSeq R e l → Sh (l.flatMap enc) e := by
  induction l with
  | nil => intro e h; rw [IsSeq] at h; subst h; exact Sh.refl _
  | cons x l ih =>
    intro e ⟨a, t, he, ha, ht⟩
    rw [he, List.flatMap_cons]
    exact (hr a x ha).append (ih t ht)

theorem sh_counted {α : Type} {R : Bytes → α → Prop} {enc : α → Bytes} (hr : ∀ e x, R e x → Sh (enc x) e)
    {l : List α} {e : Bytes} (h : IsCounted R e l) : Sh (counted enc l) e := by
  obtain ⟨p, t, rfl, hp, ht⟩ := h
  exact (sh_varInt hp).append (sh_seq hr l t ht)

theorem sh_in (e : Bytes) (i : TxIn) (h : IsWireIn e i) : Sh (wireIn i.hash i.index (scriptSig i) i.sequence) e := by
  obtain ⟨s, rfl, _, hs⟩ := h
  exact ((Sh.refl _).append (sh_varStr hs)).append (Sh.refl _)

theorem sh_out (e : Bytes) (o : TxOut) (h : IsWireOut e o) : Sh (wireOut o) e := by
  obtain ⟨s, rfl, hs⟩ := h
  exact (Sh.refl _).append (sh_varStr hs)

theorem sh_legacy {e : Bytes} {tx : Transaction} (h : IsLegacy e tx) : Sh (wireLegacy tx) e := by
  obtain ⟨a, b, rfl, ha, hb⟩ := h
  unfold wireLegacy
  have h1 := sh_counted sh_in ha
  have h2 := sh_counted sh_out hb
  generalize le 4 tx.version.toNat = v
  generalize le 4 tx.lockTime.toNat = l
  exact (((Sh.refl v).append h1).append h2).append (Sh.refl l)

theorem sh_segwit {e : Bytes} {tx : Transaction} (h : IsSegwit e tx) : Sh (wireSegwit tx) e := by
  obtain ⟨a, b, c, rfl, ha, hb, hc⟩ := h
  unfold wireSegwit
  have h1 := sh_counted sh_in ha
  have h2 := sh_counted sh_out hb
  have h3 := sh_seq (enc := fun (i : TxIn) => counted varStr i.witness)
    (fun e i (h : IsCounted IsVarStr e i.witness) => sh_counted (enc := varStr) (fun _ _ h => sh_varStr h) h) _ _ hc
  generalize le 4 tx.version.toNat = v
  generalize le 4 tx.lockTime.toNat = l
  exact ((((Sh.refl _).append h1).append h2).append h3).append (Sh.refl l)

theorem parse_legacy {raw rest : Bytes} {tx : Transaction} (hraw : raw.length < 2^62)
    (h : deserializeNoWitness new raw = .ok (tx, rest)) :
    ∃ e, raw = e ++ rest ∧ IsLegacy e tx ∧ ∀ i ∈ tx.inputs, Bare i := by
  unfold deserializeNoWitness at h
  simp only at h
  obtain ⟨⟨v1, b1⟩, e1, h⟩ := bind_ok h
  dsimp only at h
  obtain ⟨⟨v2, b2⟩, e2, h⟩ := bind_ok h
  dsimp only at h
  obtain ⟨⟨v3, b3⟩, e3, h⟩ := bind_ok h
  dsimp only at h
  obtain ⟨⟨v4, b4⟩, e4, h⟩ := bind_ok h
  simp only [Res.pure_eq, Res.ok.injEq, Prod.mk.injEq] at h
  obtain ⟨rfl, rfl⟩ := h
  obtain ⟨a1, t1, hr, rfl, r1⟩ := parses_u32 _ _ v1 b1 (rd_reader raw hraw) e1
  obtain ⟨a2, t2, rfl, ⟨p, q, rfl, hp, hq⟩, r2⟩ := parses_counted parses_input 8 b1 t1 v2 b2 r1 e2
  obtain ⟨a3, t3, rfl, hv, r3⟩ := parses_counted parses_output 8 b2 t2 v3 b3 r2 e3
  obtain ⟨a4, t4, rfl, rfl, r4⟩ := parses_u32 b3 t3 v4 b4 r3 e4
  obtain ⟨hq1, hq2⟩ := isSeq_and _ _ hq
  refine ⟨le 4 v1.toNat ++ (p ++ q) ++ a3 ++ le 4 v4.toNat, ?_, ⟨p ++ q, a3, rfl, ⟨p, q, rfl, hp, hq1⟩, hv⟩, hq2⟩
  rw [r4.remaining, hr]
  simp only [List.append_assoc]

theorem isSeq_zip {α β : Type} {R : Bytes → α → Prop} {R' : Bytes → α → Prop} (f : α → β → α)
    (hf : ∀ e a b, R e a → R' e (f a b)) (l : List α) : ∀ (ws : List β) (e : Bytes), ws.length = l.length →
    IsSeq R e l → IsSeq R' e (List.zipWith f l ws) := by
  induction l with
  | nil => intro ws e _ h; rw [IsSeq] at h; simp [IsSeq, h]
  | cons x l ih =>
    intro ws e hl ⟨a, t, he, ha, ht⟩
    cases ws with
    | nil => simp at hl
    | cons w ws =>
      rw [List.zipWith_cons_cons]
      exact ⟨a, t, he, hf _ _ _ ha, ih ws t (by simpa using hl) ht⟩

theorem parse_segwit {raw rest : Bytes} {tx : Transaction} (hraw : raw.length < 2^62)
    (h : deserialize new raw = .ok (tx, rest)) :
    ∃ e, raw = e ++ rest ∧ IsSegwit e tx ∧ ∀ i ∈ tx.inputs, i.witnessScriptCode = none := by
  unfold deserialize at h
  simp only at h
  obtain ⟨⟨v1, b1⟩, e1, h⟩ := bind_ok h
  dsimp only at h
  obtain ⟨⟨m1, c1⟩, f1, h⟩ := bind_ok h
  dsimp only at h
  by_cases hm : m1 ≠ 0
  · rw [if_pos hm] at h; cases h
  rw [if_neg hm] at h
  obtain ⟨⟨m2, c2⟩, f2, h⟩ := bind_ok h
  dsimp only at h
  by_cases hf : m2 ≠ 1
  · rw [if_pos hf] at h; cases h
  rw [if_neg hf] at h
  obtain ⟨⟨v2, b2⟩, e2, h⟩ := bind_ok h
  dsimp only at h
  obtain ⟨⟨v3, b3⟩, e3, h⟩ := bind_ok h
  dsimp only at h
  obtain ⟨⟨v5, b5⟩, e5, h⟩ := bind_ok h
  dsimp only at h
  obtain ⟨⟨v4, b4⟩, e4, h⟩ := bind_ok h
  simp only [Res.pure_eq, Res.ok.injEq, Prod.mk.injEq] at h
  obtain ⟨rfl, rfl⟩ := h
  have hm : m1 = 0 := by simpa using hm
  have hf : m2 = 1 := by simpa using hf
  subst hm hf
  obtain ⟨a1, t1, hr, rfl, r1⟩ := parses_u32 _ _ v1 b1 (rd_reader raw hraw) e1
  rcases readU8_cases r1 with ⟨_, x⟩ | ⟨w1, s1, d1, ht1, x, k1, _⟩
  · rw [x] at f1; cases f1
  rw [x] at f1
  simp only [Res.ok.injEq, Prod.mk.injEq] at f1
  obtain ⟨y1, y2⟩ := f1
  rw [y2] at k1
  rw [y1] at ht1
  rcases readU8_cases k1 with ⟨_, x⟩ | ⟨w2, s2, d2, ht2, x, k2, _⟩
  · rw [x] at f2; cases f2
  rw [x] at f2
  simp only [Res.ok.injEq, Prod.mk.injEq] at f2
  obtain ⟨y3, y4⟩ := f2
  rw [y4] at k2
  rw [y3] at ht2
  obtain ⟨a2, t2, rfl, ⟨p, q, rfl, hp, hq⟩, r2⟩ := parses_counted parses_input 8 _ _ v2 b2 k2 e2
  obtain ⟨a3, t3, rfl, hv, r3⟩ := parses_counted parses_output 8 b2 t2 v3 b3 r2 e3
  obtain ⟨a5, t5, rfl, ⟨hw, hz, hl⟩, r5⟩ := parses_witnesses v2 b3 t3 v5 b5 r3 e5
  obtain ⟨a4, t4, rfl, rfl, r4⟩ := parses_u32 b5 t5 v4 b4 r5 e4
  have hq' : IsSeq (fun e (i : TxIn) => IsWireIn e i ∧ i.witnessScriptCode = none) q v5 := by
    rw [hz]
    exact isSeq_zip _ (fun e i w hi => ⟨hi.1, hi.2.1⟩) v2 _ q (by simp [hl]) hq
  obtain ⟨hq1, hq2⟩ := isSeq_and _ _ hq'
  refine ⟨le 4 v1.toNat ++ [0, 1] ++ (p ++ q) ++ a3 ++ a5 ++ le 4 v4.toNat, ?_,
    ⟨p ++ q, a3, a5, rfl, ⟨p, q, rfl, by rw [hl]; exact hp, hq1⟩, hv, hw⟩, hq2⟩
  rw [r4.remaining, hr, ht1, ht2]
  simp only [List.append_assoc, List.cons_append, List.nil_append]

theorem isSeq_bound {α : Type} {R : Bytes → α → Prop} (P : α → Nat → Prop) (hR : ∀ e x m, R e x → e.length < m → P x m)
    (l : List α) : ∀ (e : Bytes) (m : Nat), IsSeq R e l → e.length < m → ∀ x ∈ l, P x m := by
  induction l with
  | nil => intro e m _ _ x hx; cases hx
  | cons y l ih =>
    intro e m ⟨a, t, he, ha, ht⟩ hm x hx
    rw [he, List.length_append] at hm
    rcases List.mem_cons.mp hx with rfl | hx
    · exact hR a x m ha (by omega)
    · exact ih t m ht (by omega) x hx

theorem isSeq_length {α : Type} {R : Bytes → α → Prop} (hR : ∀ e x, R e x → 1 ≤ e.length)
    (l : List α) : ∀ (e : Bytes), IsSeq R e l → l.length ≤ e.length := by
  induction l with
  | nil => intro e _; simp
  | cons y l ih =>
    intro e ⟨a, t, he, ha, ht⟩
    have := ih t ht
    have := hR a y ha
    rw [he, List.length_append, List.length_cons]
    omega

theorem varInt_pos {e : Bytes} {n : Nat} (h : IsVarInt e n) : 1 ≤ e.length := by
  rcases h with ⟨b, hb, rfl, rfl⟩ | ⟨t, ht, rfl, rfl⟩ | ⟨t, ht, rfl, rfl⟩ | ⟨t, ht, rfl, rfl⟩ <;> simp

theorem varStr_bound {e b : Bytes} {m : Nat} (h : IsVarStr e b) (hm : e.length < m) : b.length < m := by
  obtain ⟨p, rfl, _⟩ := h
  rw [List.length_append] at hm
  omega

theorem varStr_pos {e b : Bytes} (h : IsVarStr e b) : 1 ≤ e.length := by
  obtain ⟨p, rfl, hp⟩ := h
  have := varInt_pos hp
  rw [List.length_append]
  omega

theorem in_pos (e : Bytes) (i : TxIn) (h : IsWireIn e i) : 1 ≤ e.length := by
  obtain ⟨s, rfl, _, _⟩ := h
  simp [le_length]
  omega

theorem out_pos (e : Bytes) (o : TxOut) (h : IsWireOut e o) : 1 ≤ e.length := by
  obtain ⟨s, rfl, _⟩ := h
  simp [le_length]
  omega

/-- What was parsed without a script code is encodable. -/
theorem legacy_encodable {e : Bytes} {tx : Transaction} (h : IsLegacy e tx) (hl : e.length < 2^62)
    (hb : ∀ i ∈ tx.inputs, Bare i) : Encodable tx := by
  obtain ⟨a, b, rfl, ⟨p, q, rfl, hp, hq⟩, ⟨p', q', rfl, hp', hq'⟩⟩ := h
  simp only [List.length_append] at hl
  have h1 := isSeq_length in_pos _ _ hq
  have h2 := isSeq_length out_pos _ _ hq'
  have h3 := isSeq_bound (fun (i : TxIn) m => i.hash.length = 32 ∧ (i.witnessScriptCode = none → i.rawUnlockingScript.length < m))
    (fun e i m ⟨s, he, h32, hs⟩ hm => ⟨h32, fun hn => by
      have : scriptSig i = i.rawUnlockingScript := by unfold scriptSig; rw [if_pos hn]
      rw [this] at hs
      refine varStr_bound hs ?_
      rw [he] at hm
      simp only [List.length_append] at hm
      omega⟩) _ _ (2^62) hq (by omega)
  have h4 := isSeq_bound (fun (o : TxOut) m => o.script.length < m)
    (fun e o m ⟨s, he, hs⟩ hm => by
      refine varStr_bound hs ?_
      rw [he] at hm
      simp only [List.length_append] at hm
      omega) _ _ (2^62) hq' (by omega)
  refine ⟨by omega, by omega, fun i hi => (h3 i hi).1, fun i hi => (h3 i hi).2 (hb i hi).1, h4, fun i hi => ?_⟩
  rw [(hb i hi).2]
  simp

theorem segwit_encodable {e : Bytes} {tx : Transaction} (h : IsSegwit e tx) (hl : e.length < 2^62)
    (hb : ∀ i ∈ tx.inputs, i.witnessScriptCode = none) : Encodable tx := by
  obtain ⟨a, b, c, rfl, ⟨p, q, rfl, hp, hq⟩, ⟨p', q', rfl, hp', hq'⟩, hc⟩ := h
  simp only [List.length_append] at hl
  have h1 := isSeq_length in_pos _ _ hq
  have h2 := isSeq_length out_pos _ _ hq'
  have h3 := isSeq_bound (fun (i : TxIn) m => i.hash.length = 32 ∧ (i.witnessScriptCode = none → i.rawUnlockingScript.length < m))
    (fun e i m ⟨s, he, h32, hs⟩ hm => ⟨h32, fun hn => by
      have : scriptSig i = i.rawUnlockingScript := by unfold scriptSig; rw [if_pos hn]
      rw [this] at hs
      refine varStr_bound hs ?_
      rw [he] at hm
      simp only [List.length_append] at hm
      omega⟩) _ _ (2^62) hq (by omega)
  have h4 := isSeq_bound (fun (o : TxOut) m => o.script.length < m)
    (fun e o m ⟨s, he, hs⟩ hm => by
      refine varStr_bound hs ?_
      rw [he] at hm
      simp only [List.length_append] at hm
      omega) _ _ (2^62) hq' (by omega)
  have h5 := isSeq_bound (fun (i : TxIn) m => i.witness.length < m ∧ ∀ w ∈ i.witness, w.length < m)
    (fun e i m ⟨s, t, he, hs, ht⟩ hm => by
      rw [he, List.length_append] at hm
      have q1 := isSeq_length (fun e x => varStr_pos) _ _ ht
      exact ⟨by omega, isSeq_bound (fun (w : Bytes) m => w.length < m) (fun e x m h hm => varStr_bound h hm) _ _ m ht
        (by omega)⟩) _ _ (2^62) hc (by omega)
  exact ⟨by omega, by omega, fun i hi => (h3 i hi).1, fun i hi => (h3 i hi).2 (hb i hi), h4, h5⟩

/-! ### SetTxIn does not touch what is on the wire, except unlocking scripts -/

/-- Parts of an input that `SetTxIn` leaves alone. -/
def core (i : TxIn) : Bytes × UInt32 × UInt32 × List Bytes := (i.hash, i.index, i.sequence, i.witness)

theorem setTxIn_core [Hashes] {tx tx' : Transaction} {idx : Nat} {amount : UInt64} {script : Bytes}
    {redeem : Option Bytes} (h : setTxIn tx idx amount script redeem = .ok tx') :
    tx'.version = tx.version ∧ tx'.lockTime = tx.lockTime ∧ tx'.outputs = tx.outputs ∧
    tx'.inputs.map core = tx.inputs.map core ∧ tx'.hashPrevouts = tx.hashPrevouts ∧
    tx'.hashSequence = tx.hashSequence ∧ tx'.hashOutputs = tx.hashOutputs := by
  unfold setTxIn at h
  obtain ⟨i, e1, h⟩ := bind_ok h
  obtain ⟨s, e2, h⟩ := bind_ok h
  obtain ⟨u, e3, h⟩ := bind_ok h
  simp only [Res.pure_eq, Res.ok.injEq] at h
  subst h
  refine ⟨rfl, rfl, rfl, ?_, rfl, rfl, rfl⟩
  unfold putInput
  simp only
  have hi : tx.inputs[idx]? = some i := by
    cases hx : tx.inputs[idx]? with
    | none => rw [hx] at e1; cases e1
    | some j => rw [hx] at e1; cases e1; rfl
  rw [List.map_set]
  apply List.ext_getElem?
  intro k
  rw [List.getElem?_set]
  by_cases hk : idx = k
  · subst hk
    rw [if_pos rfl, List.length_map]
    have hlt : idx < tx.inputs.length := by
      by_contra hc
      rw [List.getElem?_eq_none (by omega)] at hi
      cases hi
    rw [if_pos hlt, List.getElem?_map, hi]
    rfl
  · rw [if_neg hk]

end Toku.Tx
