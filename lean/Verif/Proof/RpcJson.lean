import Verif.Proof.Rpc
/-
Helper lemmas about the RPC client: decoding what a node writes, and base64.
-/
namespace Toku.Rpc
open Spec

theorem intVal_num (i : Int) : intVal (decide (i < 0)) i.natAbs = i := by
  unfold intVal
  by_cases h : i < 0
  · simp [h]; omega
  · simp [h]; omega

theorem asInt_num {b : Nat} {o i : Int} (h : Fits b i) : asInt b o (num i) = .ok i := by
  unfold num asInt
  simp only [intVal_num]
  exact if_pos h

theorem asInt_num_bad {b : Nat} {o i : Int} (h : ¬ Fits b i) : asInt b o (num i) = .err errType := by
  unfold num asInt
  simp only [intVal_num]
  exact if_neg h

theorem asUint_nat {b o n : Nat} (h : n < 2 ^ b) : asUint b o (nat n) = .ok n := by
  unfold nat asUint
  exact if_pos ⟨rfl, h⟩

theorem asUint_num {b o n : Nat} (h : n < 2 ^ b) : asUint b o (num n) = .ok n := by
  simp only [num, asUint]
  rw [if_pos] <;> simp [h]

theorem asUint_neg {b o : Nat} {i : Int} (h : i < 0) : asUint b o (num i) = .err errType := by
  simp only [num, asUint]
  rw [if_neg] ; simp [h]

theorem asFloat_json (o l : Lit) : asFloat o l.json = .ok l := by cases l <;> rfl

theorem elems_map {α : Type} {f : Json → Res α} {g : α → Json} {xs : List α} (h : ∀ x ∈ xs, f (g x) = .ok x) :
    elems f (xs.map g) = .ok xs := by
  induction xs with
  | nil => rfl
  | cons x xs ih =>
    simp only [List.map_cons, elems]
    rw [h x (by simp), Res.ok_bind, ih fun y hy => h y (by simp [hy])]
    rfl

theorem fields_append {σ : Type} {step : σ → String → Json → Res σ} (fs gs : List (String × Json)) :
    ∀ s, fields step s (fs ++ gs) = fields step s fs >>= fun s => fields step s gs := by
  induction fs with
  | nil => intro s; rfl
  | cons p fs ih =>
    intro s
    obtain ⟨k, v⟩ := p
    simp only [List.cons_append, fields]
    cases step s k v with
    | ok a => simp only [Res.ok_bind]; exact ih a
    | err e => rfl
    | panic => rfl

/-- The header without the hashes of its neighbours. -/
theorem header_fields (h : Header) (hf : HeaderFits h) :
    fields Header.step {} [("hash", .str h.hash), ("confirmations", num h.confirmations), ("height", num h.height),
      ("version", num h.version), ("versionHex", .str h.versionHex), ("merkleroot", .str h.merkleRoot), ("time", nat h.time),
      ("mediantime", num h.medianTime), ("nonce", num h.nonce), ("bits", .str h.bits), ("difficulty", h.difficulty.json),
      ("chainwork", .str h.chainWork)] = .ok { h with previous := [], next := [] } := by
  simp only [fields, Header.step, String.reduceEq, if_true, if_false, asStr, asInt_num hf.confirmations, asInt_num hf.height,
    asInt_num hf.version, asUint_nat hf.time, asInt_num hf.medianTime, asInt_num hf.nonce, asFloat_json, Res.ok_bind, Res.pure_eq]

theorem asStruct_obj {σ : Type} {step : σ → String → Json → Res σ} {s : σ} {fs : List (String × Json)} :
    asStruct step s (.obj fs) = fields step s fs := rfl

theorem scriptSig_ok (s : ScriptSig) : asStruct ScriptSig.step {} (scriptSig s) = .ok s := by
  simp only [scriptSig, asStruct_obj, fields, ScriptSig.step, String.reduceEq, if_true, if_false, asStr, Res.ok_bind, Res.pure_eq]

theorem vin_ok (i : Vin) (h : VinFits i) : asStruct Vin.step {} (vin i) = .ok i := by
  unfold vin
  split
  · next hc =>
    obtain ⟨_, h2, h3, h4⟩ := hc
    cases i
    simp only at h2 h3 h4
    subst h2 h3 h4
    simp only [asStruct_obj, fields, Vin.step, String.reduceEq, if_true, if_false, asStr, Res.ok_bind, Res.pure_eq,
      asUint_nat h.sequence]
  · by_cases hc : i.coinbase = []
    · simp only [hc, if_true, List.nil_append, asStruct_obj, fields, Vin.step, String.reduceEq, if_false, asStr, Res.ok_bind, Res.pure_eq,
        asUint_nat h.sequence, asInt_num h.vout, scriptSig_ok]
      cases i; simp_all
    · simp only [hc, if_true, List.cons_append, List.nil_append, asStruct_obj, fields, Vin.step, String.reduceEq, if_false, asStr,
        Res.ok_bind, Res.pure_eq, asUint_nat h.sequence, asInt_num h.vout, scriptSig_ok]

theorem strs_ok (xs : List Bytes) : asList (asStr []) (.arr (xs.map .str)) = .ok xs :=
  elems_map fun _ _ => rfl

theorem scriptPubKey_ok (s : ScriptPubKey) (h : Fits 64 s.reqSigs) : asStruct ScriptPubKey.step {} (scriptPubKey s) = .ok s := by
  unfold scriptPubKey
  by_cases h1 : s.reqSigs = 0 <;> by_cases h2 : s.addresses = [] <;>
    simp only [h1, h2, if_true, List.nil_append, List.cons_append, List.append_nil, asStruct_obj, fields, ScriptPubKey.step,
      String.reduceEq, if_false, asStr, Res.ok_bind, Res.pure_eq, asInt_num h, strs_ok] <;> cases s <;> simp_all

theorem vout_ok (o : Vout) (h : VoutFits o) : asStruct Vout.step {} (vout o) = .ok o := by
  simp only [vout, asStruct_obj, fields, Vout.step, String.reduceEq, if_true, if_false, asFloat_json, Res.ok_bind, Res.pure_eq,
    asInt_num h.n, scriptPubKey_ok _ h.reqSigs]

theorem transaction_ok (t : Transaction) (h : TransactionFits t) : asStruct Transaction.step {} (transaction t) = .ok t := by
  have h1 : asList (asStruct Vin.step {}) (.arr (t.vin.map vin)) = .ok t.vin := elems_map fun i hi => vin_ok i (h.vin i hi)
  have h2 : asList (asStruct Vout.step {}) (.arr (t.vout.map vout)) = .ok t.vout := elems_map fun i hi => vout_ok i (h.vout i hi)
  simp only [transaction, asStruct_obj, fields, Transaction.step, String.reduceEq, if_true, if_false, asStr, Res.ok_bind, Res.pure_eq,
    asInt_num h.version, asUint_nat h.size, asUint_nat h.vsize, asUint_nat h.weight, asUint_nat h.lockTime, h1, h2]

theorem block_ok (b : Block) (h : BlockFits b) (hc : b.confirmations < 2 ^ 64) :
    asStruct Block.step {} (block b b.confirmations) = .ok b := by
  have h1 : asList (asStruct Transaction.step {}) (.arr (b.tx.map transaction)) = .ok b.tx :=
    elems_map fun i hi => transaction_ok i (h.tx i hi)
  unfold block
  by_cases hp : b.previous = [] <;> by_cases hn : b.next = [] <;>
    simp only [hp, hn, if_true, List.nil_append, List.cons_append, List.append_nil, asStruct_obj, fields, Block.step, String.reduceEq,
      if_false, asStr, Res.ok_bind, Res.pure_eq, asUint_num hc, asInt_num h.strippedSize, asInt_num h.size, asInt_num h.weight,
      asInt_num h.height, asInt_num h.version, asUint_nat h.nTx, asInt_num h.time, asUint_nat h.nonce, asFloat_json, h1] <;>
    cases b <;> simp_all

/-! ### base64 -/

theorem all_u8 {P : UInt8 → Prop} (h : ∀ n : Fin 256, P (UInt8.ofNat n)) (c : UInt8) : P c := by
  have := h ⟨c.toNat, c.toNat_lt⟩
  rwa [UInt8.ofNat_toNat] at this

theorem val64_lt {c : UInt8} {x : Nat} (h : val64 c = some x) : x < 64 ∧ char64 x = c := by
  have key : ∀ c : UInt8, ∀ x ∈ val64 c, x < 64 ∧ char64 x = c := all_u8 (by decide +kernel)
  exact key c x h

theorem char64_val {n : Nat} (h : n < 64) : val64 (char64 n) = some n ∧ char64 n ≠ 0x3d ∧ char64 n ≠ 0x0a ∧ char64 n ≠ 0x0d := by
  have key : ∀ n : Fin 64, val64 (char64 n) = some n.1 ∧ char64 n ≠ 0x3d ∧ char64 n ≠ 0x0a ∧ char64 n ≠ 0x0d := by decide +kernel
  exact key ⟨n, h⟩

/-- Whole groups of letters decode, three bytes for four letters, and encoding gives the letters back. -/
theorem groups64_letters (n : Nat) : ∀ s : Bytes, s.length = 4 * n → (∀ c ∈ s, (val64 c).isSome) →
    ∃ b, groups64 s = some b ∧ b.length = 3 * n ∧ encode64 b = s := by
  induction n with
  | zero => intro s hs _; rw [List.length_eq_zero_iff.1 (by omega : s.length = 0)]; exact ⟨[], by simp [groups64, encode64]⟩
  | succ n ih =>
    intro s hs hc
    match s, hs, hc with
    | a :: b :: c :: d :: rest, hs, hc =>
      simp only [List.length_cons] at hs
      simp only [List.mem_cons, forall_eq_or_imp] at hc
      obtain ⟨ha, hb, hcc, hd, hr⟩ := hc
      obtain ⟨x, hx⟩ := Option.isSome_iff_exists.1 ha
      obtain ⟨y, hy⟩ := Option.isSome_iff_exists.1 hb
      obtain ⟨z, hz⟩ := Option.isSome_iff_exists.1 hcc
      obtain ⟨w, hw⟩ := Option.isSome_iff_exists.1 hd
      obtain ⟨r, h1, h2, h3⟩ := ih rest (by omega) hr
      have c1 : c ≠ 0x3d := by rintro rfl; rw [show val64 0x3d = none by decide +kernel] at hz; simp at hz
      have d1 : d ≠ 0x3d := by rintro rfl; rw [show val64 0x3d = none by decide +kernel] at hw; simp at hw
      obtain ⟨x1, x2⟩ := val64_lt hx
      obtain ⟨y1, y2⟩ := val64_lt hy
      obtain ⟨z1, z2⟩ := val64_lt hz
      obtain ⟨w1, w2⟩ := val64_lt hw
      refine ⟨UInt8.ofNat (x * 4 + y / 16) :: UInt8.ofNat (y % 16 * 16 + z / 4) :: UInt8.ofNat (z % 4 * 64 + w) :: r,
        by rw [groups64]; simp only [hx, hy, hz, hw, h1, if_neg c1, if_neg d1], by simp [h2]; omega, ?_⟩
      have t1 : (UInt8.ofNat (x * 4 + y / 16)).toNat = x * 4 + y / 16 := by simp [UInt8.toNat_ofNat']; omega
      have t2 : (UInt8.ofNat (y % 16 * 16 + z / 4)).toNat = y % 16 * 16 + z / 4 := by simp [UInt8.toNat_ofNat']; omega
      have t3 : (UInt8.ofNat (z % 4 * 64 + w)).toNat = z % 4 * 64 + w := by simp [UInt8.toNat_ofNat']; omega
      rw [encode64, t1, t2, t3, h3]
      rw [show (x * 4 + y / 16) / 4 = x by omega, show (x * 4 + y / 16) % 4 * 16 + (y % 16 * 16 + z / 4) / 16 = y by omega,
        show (y % 16 * 16 + z / 4) % 16 * 4 + (z % 4 * 64 + w) / 64 = z by omega, show (z % 4 * 64 + w) % 64 = w by omega,
        x2, y2, z2, w2]

theorem hex_letter {c : UInt8} (h : HexDigit c) : (val64 c).isSome ∧ c ≠ 0x0a ∧ c ≠ 0x0d := by
  have key : ∀ c : UInt8, (0x30 ≤ c ∧ c ≤ 0x39) ∨ (0x61 ≤ c ∧ c ≤ 0x66) → (val64 c).isSome ∧ c ≠ 0x0a ∧ c ≠ 0x0d :=
    all_u8 (by decide +kernel)
  exact key c h

/-- The text of a hash is taken for base64. -/
theorem decode64_hash {s : Bytes} (h : HashText s) : ∃ b, decode64 s = some b ∧ b.length = 48 ∧ encode64 b = s := by
  have hf : s.filter (fun c => c ≠ 0x0a ∧ c ≠ 0x0d) = s := by
    rw [List.filter_eq_self]
    intro c hc
    simpa using (hex_letter (h.2 c hc)).2
  unfold decode64
  rw [hf]
  exact groups64_letters 16 s h.1 fun c hc => (hex_letter (h.2 c hc)).1

/-- Decoding undoes encoding. -/
theorem groups64_encode (b : Bytes) : groups64 (encode64 b) = some b := by
  match b with
  | [] => rfl
  | [a] =>
    have ha := a.toNat_lt
    rw [encode64, groups64]
    simp only [(char64_val (show a.toNat / 4 < 64 by omega)).1, (char64_val (show a.toNat % 4 * 16 < 64 by omega)).1, if_true, true_and]
    rw [show a.toNat / 4 * 4 + a.toNat % 4 * 16 / 16 = a.toNat by omega, UInt8.ofNat_toNat]
  | [a, b] =>
    have ha := a.toNat_lt
    have hb := b.toNat_lt
    have c3 := char64_val (show b.toNat % 16 * 4 < 64 by omega)
    rw [encode64, groups64]
    simp only [(char64_val (show a.toNat / 4 < 64 by omega)).1, (char64_val (show a.toNat % 4 * 16 + b.toNat / 16 < 64 by omega)).1,
      c3.1, if_neg c3.2.1, if_true]
    rw [show a.toNat / 4 * 4 + (a.toNat % 4 * 16 + b.toNat / 16) / 16 = a.toNat by omega,
      show (a.toNat % 4 * 16 + b.toNat / 16) % 16 * 16 + b.toNat % 16 * 4 / 4 = b.toNat by omega, UInt8.ofNat_toNat, UInt8.ofNat_toNat]
  | a :: b :: c :: rest =>
    have ha := a.toNat_lt
    have hb := b.toNat_lt
    have hc := c.toNat_lt
    have c3 := char64_val (show b.toNat % 16 * 4 + c.toNat / 64 < 64 by omega)
    have c4 := char64_val (show c.toNat % 64 < 64 by omega)
    rw [encode64, groups64]
    simp only [(char64_val (show a.toNat / 4 < 64 by omega)).1, (char64_val (show a.toNat % 4 * 16 + b.toNat / 16 < 64 by omega)).1,
      c3.1, if_neg c3.2.1, c4.1, if_neg c4.2.1, groups64_encode rest]
    rw [show a.toNat / 4 * 4 + (a.toNat % 4 * 16 + b.toNat / 16) / 16 = a.toNat by omega,
      show (a.toNat % 4 * 16 + b.toNat / 16) % 16 * 16 + (b.toNat % 16 * 4 + c.toNat / 64) / 4 = b.toNat by omega,
      show (b.toNat % 16 * 4 + c.toNat / 64) % 4 * 64 + c.toNat % 64 = c.toNat by omega,
      UInt8.ofNat_toNat, UInt8.ofNat_toNat, UInt8.ofNat_toNat]

theorem encode64_no_lines (b : Bytes) : ∀ c ∈ encode64 b, c ≠ 0x0a ∧ c ≠ 0x0d := by
  match b with
  | [] => simp [encode64]
  | [a] =>
    have ha := a.toNat_lt
    simp only [encode64, List.mem_cons, forall_eq_or_imp, List.not_mem_nil, false_implies, implies_true, and_true]
    exact ⟨(char64_val (by omega)).2.2, (char64_val (by omega)).2.2, by decide, by decide⟩
  | [a, b] =>
    have ha := a.toNat_lt
    have hb := b.toNat_lt
    simp only [encode64, List.mem_cons, forall_eq_or_imp, List.not_mem_nil, false_implies, implies_true, and_true]
    exact ⟨(char64_val (by omega)).2.2, (char64_val (by omega)).2.2, (char64_val (by omega)).2.2, by decide⟩
  | a :: b :: c :: rest =>
    have ha := a.toNat_lt
    have hb := b.toNat_lt
    have hc := c.toNat_lt
    simp only [encode64, List.mem_cons, forall_eq_or_imp]
    exact ⟨(char64_val (by omega)).2.2, (char64_val (by omega)).2.2, (char64_val (by omega)).2.2, (char64_val (by omega)).2.2,
      encode64_no_lines rest⟩

theorem decode64_encode (b : Bytes) : decode64 (encode64 b) = some b := by
  unfold decode64
  rw [List.filter_eq_self.2 (by intro c hc; simpa using encode64_no_lines b c hc)]
  exact groups64_encode b

end Toku.Rpc
