import Verif.Proof.Push
import Verif.Proof.VM2
import Verif.Props.ScriptNum
import Verif.Spec.Locking
/-
Helper lemmas for the standard locking scripts.
-/
namespace Toku.Locking
open Toku.Spec Toku.Script Toku.VM

theorem addData20 {b : Buffer} {h : Bytes} (hh : h.length = 20) : (addData b h).data = b.data ++ (0x14 :: h) := by
  rw [addData_data _ _ (by omega)]
  unfold pushToken
  rw [if_neg (by omega), if_neg (by omega), if_neg (by omega), if_neg (by omega), if_pos (by omega), hh]
  rfl

theorem addData32 {b : Buffer} {h : Bytes} (hh : h.length = 32) : (addData b h).data = b.data ++ (0x20 :: h) := by
  rw [addData_data _ _ (by omega)]
  unfold pushToken
  rw [if_neg (by omega), if_neg (by omega), if_neg (by omega), if_neg (by omega), if_pos (by omega), hh]
  rfl

theorem rawLocking_eq {k : Kind} {h : Bytes} (hh : h.length = hashSize k) :
    rawLocking ⟨k, h⟩ = standardScript k h := by
  cases k <;> simp only [hashSize] at hh <;>
    simp [rawLocking, standardScript, addOp, Buffer.writeU8, Buffer.new, addData20, addData32, hh]

/-- the tokens of a standard script -/
def standardTokens : Kind → Bytes → List Token
  | .p2pkh, h => [⟨0x76, []⟩, ⟨0xa9, []⟩, ⟨0x14, h⟩, ⟨0x88, []⟩, ⟨0xac, []⟩]
  | .p2sh, h => [⟨0xa9, []⟩, ⟨0x14, h⟩, ⟨0x87, []⟩]
  | .p2wpkh, h => [⟨0x00, []⟩, ⟨0x14, h⟩]
  | .p2wsh, h => [⟨0x00, []⟩, ⟨0x20, h⟩]

theorem standard_enc (k : Kind) (h : Bytes) : encTokens (standardTokens k h) = standardScript k h := by
  cases k <;> simp [standardTokens, standardScript, encTokens, Token.enc, lenWidth, leBytes]

theorem standard_valid {k : Kind} {h : Bytes} (hh : h.length = hashSize k) : ∀ t ∈ standardTokens k h, t.Valid := by
  have p : ∀ op : UInt8, Supported op → ¬ Direct op → Token.Valid ⟨op, []⟩ := by
    intro op h1 h2
    refine ⟨h1, ?_⟩
    simp only
    rw [if_neg h2]
    exact Nat.pow_pos (by omega)
  have q14 : h.length = 20 → Token.Valid ⟨0x14, h⟩ := fun e => ⟨by simp only; decide, by
    simp only; rw [if_pos (by decide), e]; rfl⟩
  have q20 : h.length = 32 → Token.Valid ⟨0x20, h⟩ := fun e => ⟨by simp only; decide, by
    simp only; rw [if_pos (by decide), e]; rfl⟩
  cases k <;> simp only [hashSize] at hh <;>
    simp only [standardTokens, List.mem_cons, List.not_mem_nil, or_false, forall_eq_or_imp, forall_eq]
  · exact ⟨p _ (by decide) (by decide), p _ (by decide) (by decide), q14 hh, p _ (by decide) (by decide),
      p _ (by decide) (by decide)⟩
  · exact ⟨p _ (by decide) (by decide), q14 hh, p _ (by decide) (by decide)⟩
  · exact ⟨p _ (by decide) (by decide), q14 hh⟩
  · exact ⟨p _ (by decide) (by decide), q20 hh⟩

theorem plain {t : Token} (hv : t.Valid) {op : UInt8} (h : t.op = op) (hd : ¬ Direct op) (hw : lenWidth op = 0) :
    t = ⟨op, []⟩ := by
  obtain ⟨o, d⟩ := t
  simp only at h; subst h
  have := hv.2
  simp only at this
  rw [if_neg hd, hw] at this
  have : d = [] := List.eq_nil_of_length_eq_zero (by omega)
  rw [this]

theorem direct {t : Token} (hv : t.Valid) {op : UInt8} (h : t.op = op) (hd : Direct op) :
    ∃ d, t = ⟨op, d⟩ ∧ d.length = op.toNat := by
  obtain ⟨o, d⟩ := t
  simp only at h; subst h
  have := hv.2
  simp only at this
  rw [if_pos hd] at this
  exact ⟨d, rfl, this⟩

/-- classification of a parsed script on its tokens -/
def classify (is : List Instruction) : Res LockScript :=
  if isPubkeyHash is then dataAt is 2 >>= fun d => .ok ⟨.p2pkh, d⟩
  else if isScriptHash is then dataAt is 1 >>= fun d => .ok ⟨.p2sh, d⟩
  else if isWitnessV0PubKeyHash is then dataAt is 1 >>= fun d => .ok ⟨.p2wpkh, d⟩
  else if isWitnessV0ScriptHash is then dataAt is 1 >>= fun d => .ok ⟨.p2wsh, d⟩
  else .err errTypeUnknown

theorem parse_eq (s : Bytes) : parse s = (allInstructions s >>= classify) := (rfl)

theorem classify_standard {k : Kind} {h : Bytes} : classify ((standardTokens k h).map instrOf) = .ok ⟨k, h⟩ := by
  cases k <;> rfl

theorem classify_ok {ts : List Token} (hv : ∀ t ∈ ts, t.Valid) {r : LockScript}
    (h : classify (ts.map instrOf) = .ok r) : r.hash.length = hashSize r.kind ∧ ts = standardTokens r.kind r.hash := by
  have hval : ∀ t ∈ ts, (instrOf t).op.value = t.op := fun t ht => instrOf_value (hv t ht).1
  unfold classify at h
  by_cases h1 : isPubkeyHash (ts.map instrOf) = true
  · match ts, hv, hval, h, h1 with
    | [a, b, c, d, e], hv, hval, h, h1 =>
      simp only [List.mem_cons, List.not_mem_nil, or_false, forall_eq_or_imp, forall_eq] at hval hv
      obtain ⟨va, vb, vc, vd, ve⟩ := hval
      obtain ⟨wa, wb, wc, wd, we⟩ := hv
      have h1' := h1
      simp only [isPubkeyHash, List.map_cons, List.map_nil, Bool.and_eq_true, beq_iff_eq, va, vb, vc, vd, ve] at h1'
      obtain ⟨⟨⟨⟨x1, x2⟩, x3⟩, x4⟩, x5⟩ := h1'
      obtain ⟨dd, rfl, hl⟩ := direct wc x3 (by decide)
      rw [if_pos h1] at h
      have hr : r = ⟨.p2pkh, dd⟩ := by
        have : dataAt ([a, b, ⟨0x14, dd⟩, d, e].map instrOf) 2 = .ok dd := rfl
        rw [this, Res.ok_bind] at h; exact (Res.ok.inj h).symm
      subst hr
      rw [plain wa x1 (by decide) (by decide), plain wb x2 (by decide) (by decide), plain wd x4 (by decide) (by decide),
        plain we x5 (by decide) (by decide)]
      exact ⟨hl, rfl⟩
    | [], _, _, _, h1 => simp [isPubkeyHash] at h1
    | [_], _, _, _, h1 => simp [isPubkeyHash] at h1
    | [_, _], _, _, _, h1 => simp [isPubkeyHash] at h1
    | [_, _, _], _, _, _, h1 => simp [isPubkeyHash] at h1
    | [_, _, _, _], _, _, _, h1 => simp [isPubkeyHash] at h1
    | _ :: _ :: _ :: _ :: _ :: _ :: _, _, _, _, h1 => simp [isPubkeyHash] at h1
  rw [if_neg h1] at h
  by_cases h2 : isScriptHash (ts.map instrOf) = true
  · match ts, hv, hval, h, h2 with
    | [a, b, c], hv, hval, h, h1 =>
      simp only [List.mem_cons, List.not_mem_nil, or_false, forall_eq_or_imp, forall_eq] at hval hv
      obtain ⟨va, vb, vc⟩ := hval
      obtain ⟨wa, wb, wc⟩ := hv
      have h1' := h1
      simp only [isScriptHash, List.map_cons, List.map_nil, Bool.and_eq_true, beq_iff_eq, va, vb, vc] at h1'
      obtain ⟨⟨x1, x2⟩, x3⟩ := h1'
      obtain ⟨dd, rfl, hl⟩ := direct wb x2 (by decide)
      rw [if_pos h1] at h
      have hr : r = ⟨.p2sh, dd⟩ := by
        have : dataAt ([a, ⟨0x14, dd⟩, c].map instrOf) 1 = .ok dd := rfl
        rw [this, Res.ok_bind] at h; exact (Res.ok.inj h).symm
      subst hr
      rw [plain wa x1 (by decide) (by decide), plain wc x3 (by decide) (by decide)]
      exact ⟨hl, rfl⟩
    | [], _, _, _, h1 => simp [isScriptHash] at h1
    | [_], _, _, _, h1 => simp [isScriptHash] at h1
    | [_, _], _, _, _, h1 => simp [isScriptHash] at h1
    | _ :: _ :: _ :: _ :: _, _, _, _, h1 => simp [isScriptHash] at h1
  rw [if_neg h2] at h
  by_cases h3 : isWitnessV0PubKeyHash (ts.map instrOf) = true
  · match ts, hv, hval, h, h3 with
    | [a, b], hv, hval, h, h1 =>
      simp only [List.mem_cons, List.not_mem_nil, or_false, forall_eq_or_imp, forall_eq] at hval hv
      obtain ⟨va, vb⟩ := hval
      obtain ⟨wa, wb⟩ := hv
      have h1' := h1
      simp only [isWitnessV0PubKeyHash, List.map_cons, List.map_nil, Bool.and_eq_true, beq_iff_eq, va, vb] at h1'
      obtain ⟨x1, x2⟩ := h1'
      obtain ⟨dd, rfl, hl⟩ := direct wb x2 (by decide)
      rw [if_pos h1] at h
      have hr : r = ⟨.p2wpkh, dd⟩ := by
        have : dataAt ([a, ⟨0x14, dd⟩].map instrOf) 1 = .ok dd := rfl
        rw [this, Res.ok_bind] at h; exact (Res.ok.inj h).symm
      subst hr
      rw [plain wa x1 (by decide) (by decide)]
      exact ⟨hl, rfl⟩
    | [], _, _, _, h1 => simp [isWitnessV0PubKeyHash] at h1
    | [_], _, _, _, h1 => simp [isWitnessV0PubKeyHash] at h1
    | _ :: _ :: _ :: _, _, _, _, h1 => simp [isWitnessV0PubKeyHash] at h1
  rw [if_neg h3] at h
  by_cases h4 : isWitnessV0ScriptHash (ts.map instrOf) = true
  · match ts, hv, hval, h, h4 with
    | [a, b], hv, hval, h, h1 =>
      simp only [List.mem_cons, List.not_mem_nil, or_false, forall_eq_or_imp, forall_eq] at hval hv
      obtain ⟨va, vb⟩ := hval
      obtain ⟨wa, wb⟩ := hv
      have h1' := h1
      simp only [isWitnessV0ScriptHash, List.map_cons, List.map_nil, Bool.and_eq_true, beq_iff_eq, va, vb] at h1'
      obtain ⟨x1, x2⟩ := h1'
      obtain ⟨dd, rfl, hl⟩ := direct wb x2 (by decide)
      rw [if_pos h1] at h
      have hr : r = ⟨.p2wsh, dd⟩ := by
        have : dataAt ([a, ⟨0x20, dd⟩].map instrOf) 1 = .ok dd := rfl
        rw [this, Res.ok_bind] at h; exact (Res.ok.inj h).symm
      subst hr
      rw [plain wa x1 (by decide) (by decide)]
      exact ⟨hl, rfl⟩
    | [], _, _, _, h1 => simp [isWitnessV0ScriptHash] at h1
    | [_], _, _, _, h1 => simp [isWitnessV0ScriptHash] at h1
    | _ :: _ :: _ :: _, _, _, _, h1 => simp [isWitnessV0ScriptHash] at h1
  rw [if_neg h4] at h
  cases h

theorem classify_np {ts : List Token} : classify (ts.map instrOf) ≠ .panic := by
  intro h
  have d : ∀ (is : List Instruction) (i : Nat) (k : Kind), i < is.length →
      (dataAt is i >>= fun d => .ok (⟨k, d⟩ : LockScript)) ≠ .panic := by
    intro is i k hi
    unfold dataAt
    rw [List.getElem?_eq_getElem hi]
    simp [Res.ofIdx]
  unfold classify at h
  by_cases h1 : isPubkeyHash (ts.map instrOf) = true
  · rw [if_pos h1] at h
    refine d _ _ _ ?_ h
    unfold isPubkeyHash at h1; split at h1
    · rename_i e; rw [e]; simp
    · cases h1
  rw [if_neg h1] at h
  by_cases h2 : isScriptHash (ts.map instrOf) = true
  · rw [if_pos h2] at h
    refine d _ _ _ ?_ h
    unfold isScriptHash at h2; split at h2
    · rename_i e; rw [e]; simp
    · cases h2
  rw [if_neg h2] at h
  by_cases h3 : isWitnessV0PubKeyHash (ts.map instrOf) = true
  · rw [if_pos h3] at h
    refine d _ _ _ ?_ h
    unfold isWitnessV0PubKeyHash at h3; split at h3
    · rename_i e; rw [e]; simp
    · cases h3
  rw [if_neg h3] at h
  by_cases h4 : isWitnessV0ScriptHash (ts.map instrOf) = true
  · rw [if_pos h4] at h
    refine d _ _ _ ?_ h
    unfold isWitnessV0ScriptHash at h4; split at h4
    · rename_i e; rw [e]; simp
    · cases h4
  rw [if_neg h4] at h
  cases h

/-! ### multisig -/

theorem pushToken_isPush {d : Bytes} (hl : d.length < 2^32) (h81 : d ≠ [0x81]) : IsPush (pushToken d) := by
  refine ⟨pushToken_valid hl h81, ?_⟩
  unfold pushToken
  split
  · simp
  split
  · simp
  split
  · rename_i h
    exact (by apply Base58.forall_uint8; decide +kernel : ∀ c : UInt8, c ≤ 16 → (0x50 + c : UInt8).toNat ≤ 0x60) _ h.2
  split
  · simp
  split
  · simp; omega
  split
  · simp
  split
  · simp
  · simp

theorem pushToken_value {d : Bytes} (h0 : d ≠ [0x00]) (h81 : d ≠ [0x81]) : pushValue (pushToken d) = d := by
  unfold pushToken
  split
  · rename_i h; rw [List.eq_nil_of_length_eq_zero h]; rfl
  split
  · rename_i h; exact absurd (by rw [getD_single h.1, h.2]) h0
  split
  · rename_i h2 h
    have hc : ∀ c : UInt8, c ≤ 16 → c ≠ 0 → pushValue ⟨0x50 + c, []⟩ = [c] := by
      apply Base58.forall_uint8; decide +kernel
    rw [hc _ h.2 (fun e => h2 ⟨h.1, e⟩)]
    exact (getD_single h.1).symm
  split
  · rename_i h; exact absurd (by rw [getD_single h.1, h.2]) h81
  split
  · rename_i h0' _ _ _ h
    have hn : (UInt8.ofNat d.length).toNat = d.length := by simp; omega
    unfold pushValue
    rw [if_neg (by simp only [hn]; omega), if_pos (by simp only [hn]; omega)]
  split
  · rfl
  split
  · rfl
  · rfl

theorem foldl_addData (ks : List Bytes) (hl : ∀ k ∈ ks, k.length < 2^32) (b : Buffer) :
    (ks.foldl addData b).data = b.data ++ encTokens (ks.map pushToken) := by
  induction ks generalizing b with
  | nil => simp [encTokens]
  | cons k ks ih =>
    rw [List.foldl_cons, ih (fun k h => hl k (by simp [h])), addData_data _ _ (hl k (by simp))]
    simp [encTokens]

/-- the token written for a number -/
theorem addInt64_token (b : Buffer) (n : Nat) (hn : n < 2^31) : ∃ b' t, addInt64 b n = .ok b' ∧
    b'.data = b.data ++ Token.enc t ∧ IsPush t ∧ ScriptNum.make (pushValue t) 4 = .ok (n : Int) := by
  have small : ∀ k : Fin 17, 1 ≤ k.val → (IsPush ⟨0x50 + UInt8.ofNat k.val, []⟩ ∧
      ScriptNum.make (pushValue ⟨0x50 + UInt8.ofNat k.val, []⟩) 4 = .ok (k.val : Int)) ∧
      lenWidth (0x50 + UInt8.ofNat k.val) = 0 := by
    unfold IsPush Token.Valid
    decide +kernel
  unfold addInt64
  by_cases hz : n = 0
  · subst hz
    rw [if_pos (by simp)]
    exact ⟨_, ⟨0, []⟩, rfl, rfl, ⟨⟨by simp only; decide, by simp only; decide⟩, by simp⟩, rfl⟩
  rw [if_neg (by omega)]
  by_cases hs : (n : Int) = -1 ∨ (1 ≤ (n : Int) ∧ (n : Int) ≤ 16)
  · rw [if_pos hs]
    have hk : 1 ≤ n ∧ n ≤ 16 := by omega
    obtain ⟨⟨a1, a2⟩, a3⟩ := small ⟨n, by omega⟩ hk.1
    have e : UInt8.ofNat ((0x51 : Int) + n - 1).toNat = 0x50 + UInt8.ofNat n := by
      have : ((0x51 : Int) + n - 1).toNat = 0x50 + n := by omega
      rw [this, UInt8.ofNat_add]; rfl
    refine ⟨_, ⟨0x50 + UInt8.ofNat n, []⟩, rfl, ?_, a1, a2⟩
    simp only at a3
    rw [e]
    simp only [Token.enc, a3]; simp [leBytes, Buffer.writeU8]
  · rw [if_neg hs]
    obtain ⟨d, e, hmin, h8, hv⟩ := ScriptNum.bytes_spec (n := (n : Int)) (by omega) (by omega)
    rw [e, Res.ok_bind]
    have hl4 : d.length ≤ 4 := by
      rw [ScriptNum.length_le_iff hmin 4 (by omega), hv]; norm_num; omega
    have hmk : ScriptNum.make d 4 = .ok (n : Int) :=
      (Props.C15_accepts_iff d 4 (by omega) n).mpr ⟨hl4, by omega, by omega, e⟩
    have h0 : d ≠ [0x00] := by
      rintro rfl; revert hmin; rw [← ScriptNum.checkMinimal_iff]; decide +kernel
    have h81 : d ≠ [0x81] := by
      rintro rfl
      have : ScriptNum.make [0x81] 4 = .ok (-1) := by decide +kernel
      rw [this] at hmk; have := Res.ok.inj hmk; omega
    refine ⟨_, pushToken d, rfl, addData_data _ _ (by omega), pushToken_isPush (by omega) h81, ?_⟩
    rw [pushToken_value h0 h81, hmk]

/-- the tokens of a generated multisig script -/
theorem genMultiSig_tokens {m : Nat} {keys : List Bytes} (hmn : m ≤ keys.length) (hn : keys.length < 2^31)
    (hk : ∀ k ∈ keys, k.length < 2^32 ∧ k ≠ [0x00] ∧ k ≠ [0x81]) {s : Bytes} (hs : genMultiSig m keys = .ok s) :
    ∃ tm ks tn, s = encTokens (tm :: ks ++ [tn, ⟨0xae, []⟩]) ∧ IsPush tm ∧
      ScriptNum.make (pushValue tm) 4 = .ok (m : Int) ∧ (∀ t ∈ ks, IsPush t) ∧ ks.map pushValue = keys ∧
      IsPush tn ∧ ScriptNum.make (pushValue tn) 4 = .ok (keys.length : Int) ∧
      ∀ t ∈ tm :: ks ++ [tn, ⟨0xae, []⟩], t.Valid := by
  unfold genMultiSig at hs
  rw [if_neg (by omega)] at hs
  obtain ⟨b1, tm, e1, d1, p1, v1⟩ := addInt64_token Buffer.new m (by omega)
  obtain ⟨b2, tn, e2, d2, p2, v2⟩ := addInt64_token (keys.foldl addData b1) keys.length hn
  rw [e1, Res.ok_bind] at hs
  dsimp only at hs
  rw [e2, Res.ok_bind] at hs
  have hse : s = encTokens (tm :: keys.map pushToken ++ [tn, ⟨0xae, []⟩]) := by
    have := (Res.ok.inj hs).symm
    rw [this]
    simp only [addOp, Buffer.writeU8, d2, foldl_addData keys (fun k h => (hk k h).1), d1]
    simp [encTokens, Buffer.new, Token.enc, lenWidth, leBytes]
  have hks : ∀ t ∈ keys.map pushToken, IsPush t := by
    intro t ht
    obtain ⟨k, hk', rfl⟩ := List.mem_map.mp ht
    exact pushToken_isPush (hk k hk').1 (hk k hk').2.2
  refine ⟨tm, keys.map pushToken, tn, hse, p1, v1, hks, ?_, p2, v2, ?_⟩
  · rw [List.map_map]
    conv_rhs => rw [← List.map_id keys]
    apply List.map_congr_left
    intro k hk'
    exact pushToken_value (hk k hk').2.1 (hk k hk').2.2
  · intro t ht
    rw [List.mem_append, List.mem_cons] at ht
    rcases ht with (rfl | ht) | ht
    · exact p1.1
    · exact (hks t ht).1
    · simp only [List.mem_cons, List.not_mem_nil, or_false] at ht
      rcases ht with rfl | rfl
      · exact p2.1
      · exact ⟨by decide, by decide⟩

/-- the opcode of a small number -/
def smallOp (n : Nat) : UInt8 := if n = 0 then 0 else 0x50 + UInt8.ofNat n

theorem addInt64_small (b : Buffer) (n : Nat) (hn : n ≤ 16) : ∃ b', addInt64 b n = .ok b' ∧
    b'.data = b.data ++ Token.enc ⟨smallOp n, []⟩ := by
  have hw : ∀ k : Fin 17, lenWidth (smallOp k.val) = 0 := by decide +kernel
  have h0 : lenWidth (smallOp n) = 0 := hw ⟨n, by omega⟩
  unfold addInt64
  by_cases hz : n = 0
  · subst hz
    rw [if_pos (by simp)]
    exact ⟨_, rfl, rfl⟩
  · rw [if_neg (by omega), if_pos (by omega)]
    have e : UInt8.ofNat ((0x51 : Int) + n - 1).toNat = smallOp n := by
      have : ((0x51 : Int) + n - 1).toNat = 0x50 + n := by omega
      rw [this, UInt8.ofNat_add, smallOp, if_neg hz]; rfl
    refine ⟨_, rfl, ?_⟩
    rw [e]
    simp only [Token.enc, h0]; simp [leBytes, Buffer.writeU8]

theorem genMultiSig_small {m : Nat} {keys : List Bytes} (hmn : m ≤ keys.length) (hn : keys.length ≤ 16)
    (hk : ∀ k ∈ keys, k.length < 2^32) :
    genMultiSig m keys = .ok (encTokens (⟨smallOp m, []⟩ :: keys.map pushToken ++ [⟨smallOp keys.length, []⟩, ⟨0xae, []⟩])) := by
  unfold genMultiSig
  rw [if_neg (by omega)]
  obtain ⟨b1, e1, d1⟩ := addInt64_small Buffer.new m (by omega)
  obtain ⟨b2, e2, d2⟩ := addInt64_small (keys.foldl addData b1) keys.length hn
  rw [e1, Res.ok_bind]
  dsimp only
  rw [e2, Res.ok_bind]
  change Res.ok _ = Res.ok _
  congr 1
  simp only [addOp, Buffer.writeU8, d2, foldl_addData keys hk, d1]
  simp [encTokens, Buffer.new, Token.enc, lenWidth, leBytes]

theorem isMultiSig_shape (a c e : Instruction) (ks : List Instruction) :
    isMultiSig (a :: ks ++ [c, e]) = true ↔ ks ≠ [] ∧ isSmallInt a ∧ isSmallInt c ∧ e.op.value = 0xae ∧
      asSmallInt c = ks.length ∧ ∀ k ∈ ks, k.data.length = 33 ∨ k.data.length = 65 := by
  have hl : (a :: ks ++ [c, e]).length = ks.length + 3 := by simp
  unfold isMultiSig
  rw [hl]
  dsimp only
  have e2 : (a :: ks ++ [c, e])[ks.length + 3 - 2]? = some c := by
    rw [show ks.length + 3 - 2 = ks.length + 1 by omega, List.cons_append, List.getElem?_cons_succ,
      List.getElem?_append_right (by omega)]; simp
  have e3 : (a :: ks ++ [c, e])[ks.length + 3 - 1]? = some e := by
    rw [show ks.length + 3 - 1 = (ks.length + 1) + 1 by omega, List.cons_append, List.getElem?_cons_succ,
      List.getElem?_append_right (by omega)]; simp
  have e4 : ((a :: ks ++ [c, e]).take (ks.length + 3 - 2)).drop 1 = ks := by
    rw [show ks.length + 3 - 2 = ks.length + 1 by omega, List.cons_append, List.take_succ_cons, List.drop_succ_cons,
      List.drop_zero, List.take_left]
  rw [e2, e3, e4]
  by_cases h0 : ks = []
  · subst h0; simp
  · have hpos : 0 < ks.length := List.length_pos_iff.mpr h0
    rw [if_neg (by omega)]
    simp only [List.cons_append, List.getElem?_cons_zero]
    have hc : ((ks.length + 3 : Nat) : Int) - 2 - 1 = ks.length := by omega
    rw [hc]
    cases ha : isSmallInt a <;> cases hcc : isSmallInt c <;> simp [h0]
    by_cases he : e.op.value = 174
    · simp only [he]
      by_cases hd : asSmallInt c = ks.length
      · simp [hd]
      · have hd' : ¬ (ks.length : Int) = asSmallInt c := fun h => hd h.symm
        simp [hd, hd']
    · simp [he]

end Toku.Locking
