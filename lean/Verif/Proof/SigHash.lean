import Verif.Proof.TxParse
/-
Signature-hash preimages: their form and what they determine.
-/
namespace Toku.Wire
open Toku.Spec Toku.Buffer

theorem le_inj {k n m : Nat} (hn : n < 256 ^ k) (hm : m < 256 ^ k) (h : le k n = le k m) : n = m := by
  have := congrArg leNat h
  rw [leNat_le, leNat_le, Nat.mod_eq_of_lt hn, Nat.mod_eq_of_lt hm] at this
  exact this

/-- The length of a CompactSize number from its first byte. -/
theorem compactSize_head (n : Nat) : ∃ f t, compactSize n = f :: t ∧ t.length = varIntTail f := by
  unfold compactSize
  by_cases h1 : n < 0xfd
  · rw [if_pos h1]
    refine ⟨_, [], rfl, ?_⟩
    unfold varIntTail
    have hne : ∀ c : UInt8, 0xfd ≤ c.toNat → UInt8.ofNat n ≠ c := by
      intro c hc h
      have := congrArg UInt8.toNat h
      rw [UInt8.toNat_ofNat'] at this
      omega
    rw [if_neg (hne _ (by decide)), if_neg (hne _ (by decide)), if_neg (hne _ (by decide))]
    rfl
  · rw [if_neg h1]
    split
    · exact ⟨_, _, rfl, by rw [le_length]; rfl⟩
    split
    · exact ⟨_, _, rfl, by rw [le_length]; rfl⟩
    · exact ⟨_, _, rfl, by rw [le_length]; rfl⟩

theorem compactSize_prefix {n m : Nat} {s t : Bytes} (hn : n < 2^64) (hm : m < 2^64)
    (h : compactSize n ++ s = compactSize m ++ t) : n = m ∧ s = t := by
  obtain ⟨f, u, e1, l1⟩ := compactSize_head n
  obtain ⟨g, v, e2, l2⟩ := compactSize_head m
  have hf : f = g := by
    rw [e1, e2, List.cons_append, List.cons_append, List.cons.injEq] at h
    exact h.1
  have hl : (compactSize n).length = (compactSize m).length := by
    rw [e1, e2, List.length_cons, List.length_cons, l1, l2, hf]
  obtain ⟨h1, h2⟩ := List.append_inj h hl
  refine ⟨?_, h2⟩
  rw [compactSize_eq hn, compactSize_eq hm] at h1
  have a1 := encVarInt_isVarInt (UInt64.ofNat n)
  have a2 := encVarInt_isVarInt (UInt64.ofNat m)
  rw [h1] at a1
  have hn' : (UInt64.ofNat n).toNat = n := by rw [UInt64.toNat_ofNat']; omega
  have hm' : (UInt64.ofNat m).toNat = m := by rw [UInt64.toNat_ofNat']; omega
  rw [hn'] at a1
  rw [hm'] at a2
  -- the same bytes cannot encode two numbers
  have key : ∀ {e : Bytes} {a b : Nat}, IsVarInt e a → IsVarInt e b → a = b := by
    intro e a b ha hb
    rcases ha with ⟨x, hx, rfl, rfl⟩ | ⟨x, hx, rfl, rfl⟩ | ⟨x, hx, rfl, rfl⟩ | ⟨x, hx, rfl, rfl⟩ <;>
    rcases hb with ⟨y, hy, e, rfl⟩ | ⟨y, hy, e, rfl⟩ | ⟨y, hy, e, rfl⟩ | ⟨y, hy, e, rfl⟩ <;>
    simp_all
  exact key a1 a2

theorem varStr_prefix {a b s t : Bytes} (ha : a.length < 2^64) (hb : b.length < 2^64)
    (h : varStr a ++ s = varStr b ++ t) : a = b ∧ s = t := by
  unfold varStr at h
  rw [List.append_assoc, List.append_assoc] at h
  obtain ⟨h1, h2⟩ := compactSize_prefix ha hb h
  exact List.append_inj h2 h1

theorem le4_prefix {a b : UInt32} {s t : Bytes} (h : le 4 a.toNat ++ s = le 4 b.toNat ++ t) : a = b ∧ s = t := by
  obtain ⟨h1, h2⟩ := List.append_inj h (by rw [le_length, le_length])
  rw [le4, le4] at h1
  exact ⟨le32_inj h1, h2⟩

theorem le8_prefix {a b : UInt64} {s t : Bytes} (h : le 8 a.toNat ++ s = le 8 b.toNat ++ t) : a = b ∧ s = t := by
  obtain ⟨h1, h2⟩ := List.append_inj h (by rw [le_length, le_length])
  rw [le8, le8] at h1
  exact ⟨le64_inj h1, h2⟩

theorem wireIn_prefix {h1 h2 : Bytes} {i1 i2 : UInt32} {s1 s2 : Bytes} {q1 q2 : UInt32} {s t : Bytes}
    (l1 : h1.length = 32) (l2 : h2.length = 32) (m1 : s1.length < 2^64) (m2 : s2.length < 2^64)
    (h : wireIn h1 i1 s1 q1 ++ s = wireIn h2 i2 s2 q2 ++ t) :
    (h1, i1, s1, q1) = (h2, i2, s2, q2) ∧ s = t := by
  unfold wireIn at h
  simp only [List.append_assoc] at h
  obtain ⟨x1, y1⟩ := List.append_inj h (by rw [l1, l2])
  obtain ⟨x2, y2⟩ := le4_prefix y1
  obtain ⟨x3, y3⟩ := varStr_prefix m1 m2 y2
  obtain ⟨x4, y4⟩ := le4_prefix y3
  exact ⟨by rw [x1, x2, x3, x4], y4⟩

theorem wireOut_prefix {o1 o2 : Tx.TxOut} {s t : Bytes} (m1 : o1.script.length < 2^64) (m2 : o2.script.length < 2^64)
    (h : wireOut o1 ++ s = wireOut o2 ++ t) : o1 = o2 ∧ s = t := by
  unfold wireOut at h
  simp only [List.append_assoc] at h
  obtain ⟨h1, h⟩ := le8_prefix h
  obtain ⟨h2, h⟩ := varStr_prefix m1 m2 h
  cases o1; cases o2; simp_all

theorem flatMap_prefix {α β : Type} {enc : α → Bytes} {norm : α → β} {ok : α → Prop}
    (hp : ∀ x y s t, ok x → ok y → enc x ++ s = enc y ++ t → norm x = norm y ∧ s = t) :
    ∀ (l l' : List α) (s t : Bytes), l.length = l'.length → (∀ x ∈ l, ok x) → (∀ x ∈ l', ok x) →
      l.flatMap enc ++ s = l'.flatMap enc ++ t → l.map norm = l'.map norm ∧ s = t
  | [], [], s, t, _, _, _, h => ⟨rfl, by simpa using h⟩
  | x :: l, y :: l', s, t, hl, h1, h2, h => by
    rw [List.flatMap_cons, List.flatMap_cons, List.append_assoc, List.append_assoc] at h
    obtain ⟨e1, h⟩ := hp x y _ _ (h1 x List.mem_cons_self) (h2 y List.mem_cons_self) h
    obtain ⟨e2, h⟩ := flatMap_prefix hp l l' s t (by simpa using hl) (fun z hz => h1 z (List.mem_cons_of_mem _ hz))
      (fun z hz => h2 z (List.mem_cons_of_mem _ hz)) h
    exact ⟨by rw [List.map_cons, List.map_cons, e1, e2], h⟩
  | [], _ :: _, _, _, hl, _, _, _ => by simp at hl
  | _ :: _, [], _, _, hl, _, _, _ => by simp at hl

theorem counted_prefix {α β : Type} {enc : α → Bytes} {norm : α → β} {ok : α → Prop}
    (hp : ∀ x y s t, ok x → ok y → enc x ++ s = enc y ++ t → norm x = norm y ∧ s = t)
    {l l' : List α} {s t : Bytes} (hl : l.length < 2^64) (hl' : l'.length < 2^64) (h1 : ∀ x ∈ l, ok x)
    (h2 : ∀ x ∈ l', ok x) (h : counted enc l ++ s = counted enc l' ++ t) : l.map norm = l'.map norm ∧ s = t := by
  unfold counted at h
  rw [List.append_assoc, List.append_assoc] at h
  obtain ⟨e, h⟩ := compactSize_prefix hl hl' h
  exact flatMap_prefix hp l l' s t e h1 h2 h

end Toku.Wire

namespace Toku.Tx
open Toku.Spec Toku.Buffer Toku.Wire

/-- Two list entries that both differ, or equal, at `idx`. -/
theorem foldRes_sig {idx : Nat} {code : Bytes} (hc : code.length < 2^64) : ∀ (l : List (TxIn × Nat)) (b : Buffer),
    (∀ p ∈ l, p.2 = idx → signedScript p.1 = .ok code) →
    ∃ b', foldRes (writeSigInput idx) b l = .ok b' ∧ b'.data = b.data ++
      l.flatMap (fun p => wireIn p.1.hash p.1.index (if p.2 = idx then code else []) p.1.sequence)
  | [], b, _ => ⟨b, rfl, by simp⟩
  | p :: l, b, h => by
    have hp : ∃ b1, writeSigInput idx b p = .ok b1 ∧ b1.data = b.data ++
        wireIn p.1.hash p.1.index (if p.2 = idx then code else []) p.1.sequence := by
      unfold writeSigInput wireIn
      by_cases hi : p.2 = idx
      · have hs := h p List.mem_cons_self hi
        unfold signedScript at hs
        simp only [if_pos hi]
        cases hr : p.1.redeemScript with
        | some r =>
          rw [hr] at hs
          simp only [Res.ok.injEq] at hs
          subst hs
          simp only [Res.ok_bind]
          refine ⟨_, rfl, ?_⟩
          rw [varStr_eq hc, le4, le4]
          simp
        | none =>
          rw [hr] at hs
          simp only at hs
          simp only [hs, Res.ok_bind]
          refine ⟨_, rfl, ?_⟩
          rw [varStr_eq hc, le4, le4]
          simp
      · simp only [if_neg hi, Res.ok_bind]
        refine ⟨_, rfl, ?_⟩
        rw [varStr_eq (by decide), le4, le4]
        simp
    obtain ⟨b1, e1, d1⟩ := hp
    obtain ⟨b2, e2, d2⟩ := foldRes_sig hc l b1 (fun q hq => h q (List.mem_cons_of_mem _ hq))
    refine ⟨b2, ?_, ?_⟩
    · rw [foldRes, e1, Res.ok_bind, e2]
    · rw [d2, d1, List.flatMap_cons, List.append_assoc]

/-- The script code written for index `idx`: that of the input there, nothing when there is none. -/
theorem rawPreimage_all {tx : Transaction} (h : Encodable tx) {idx : Nat} {code : Bytes} (hc : code.length < 2^64)
    (hs : ∀ i, tx.inputs[idx]? = some i → signedScript i = .ok code) :
    rawPreimage tx idx 1 = .ok (legacyPreimage tx idx code) := by
  have hz : ∀ p ∈ tx.inputs.zipIdx, p.2 = idx → signedScript p.1 = .ok code := by
    intro ⟨i, k⟩ hp hk
    apply hs
    have := List.mem_zipIdx_iff_getElem?.mp hp
    simp only at hk this
    rw [← hk]
    exact this
  obtain ⟨b', e, d⟩ := foldRes_sig hc tx.inputs.zipIdx
    ((Buffer.new.writeU32 tx.version).writeVarInt (UInt64.ofNat tx.inputs.length)) hz
  unfold rawPreimage writeSigAll legacyPreimage
  simp only [if_true]
  rw [e]
  simp only [Res.ok_bind, Res.pure_eq, Res.ok.injEq]
  rw [writeU32_data, writeU32_data, foldl_data _ wireOut _ _ (fun o ho b => writeOutput_data (by have := h.out o ho; omega) b),
    writeVarInt_data, d, writeVarInt_data, writeU32_data, new_data]
  unfold counted
  rw [compactSize_eq (n := tx.outputs.length) (by have := h.outs; omega), List.length_zipIdx,
    compactSize_eq (n := tx.inputs.length) (by have := h.ins; omega), show (1 : Nat) = (1 : UInt32).toNat from rfl, le4, le4, le4]
  simp only [List.append_assoc, List.nil_append]

theorem rawPreimage_other {tx : Transaction} {idx : Nat} {t : UInt32} (ht : t ≠ 1) :
    rawPreimage tx idx t = .ok (le 4 tx.version.toNat ++ le 4 tx.lockTime.toNat ++ le 4 t.toNat) := by
  unfold rawPreimage
  simp only [if_neg ht, Res.ok_bind, Res.pure_eq, Res.ok.injEq]
  rw [writeU32_data, writeU32_data, writeU32_data, new_data, le4, le4, le4]
  simp only [List.append_assoc, List.nil_append]

/-! ### Witness hashes -/

theorem prevouts_data (l : List TxIn) :
    (l.foldl (fun b i => (b.writeBytes i.hash).writeU32 i.index) Buffer.new).data =
      l.flatMap (fun i => i.hash ++ le 4 i.index.toNat) := by
  rw [foldl_data _ (fun i => i.hash ++ le 4 i.index.toNat) _ _ (fun i _ b => by
    rw [writeU32_data, writeBytes_data, le4, List.append_assoc]), new_data, List.nil_append]

theorem sequences_data (l : List TxIn) :
    (l.foldl (fun b i => b.writeU32 i.sequence) Buffer.new).data = l.flatMap (fun i => le 4 i.sequence.toNat) := by
  rw [foldl_data _ (fun (i : TxIn) => le 4 i.sequence.toNat) _ _ (fun i _ b => by
    rw [writeU32_data, le4]), new_data, List.nil_append]

theorem outputs_data {l : List TxOut} (h : ∀ o ∈ l, o.script.length < 2^62) :
    (l.foldl writeOutput Buffer.new).data = l.flatMap wireOut := by
  rw [foldl_data _ wireOut _ _ (fun o ho b => writeOutput_data (by have := h o ho; omega) b), new_data,
    List.nil_append]

theorem witnessPreimage_eq (tx : Transaction) (i : TxIn) (t : UInt32)
    (hc : (i.witnessScriptCode.getD []).length < 2^64) :
    witnessPreimage tx i t = le 4 tx.version.toNat ++ tx.hashPrevouts.getD [] ++ tx.hashSequence.getD [] ++
      i.hash ++ le 4 i.index.toNat ++ varStr (i.witnessScriptCode.getD []) ++ le 8 i.value.toNat ++
      le 4 i.sequence.toNat ++ tx.hashOutputs.getD [] ++ le 4 tx.lockTime.toNat ++ le 4 t.toNat := by
  unfold witnessPreimage
  simp only [writeU32_data, writeBytes_data, writeVarBytes_data, writeU64_data, new_data]
  rw [varStr_eq hc]
  simp only [le4, le8, List.append_assoc, List.nil_append]

end Toku.Tx
