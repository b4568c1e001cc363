import Verif.Model.Script
import Verif.Spec.Script
import Verif.Proof.BufferInv
import Verif.Proof.BufferFields
import Verif.Proof.ScriptNum
/-
The reader of xvm/scriptreader.go refines the token grammar.
-/
namespace Toku.Script
open Toku.Spec Toku.Buffer

theorem opcodes_none : ∀ op : UInt8, opcodes op = none ↔ ¬ Supported op := by
  apply Base58.forall_uint8; decide +kernel

/-- what the table says about a supported opcode -/
theorem opcodes_some : ∀ op : UInt8, Supported op → ∃ o, opcodes op = some o ∧ o.value = op ∧
    o.length = (if Direct op then (op.toNat : Int) + 1 else if lenWidth op = 0 then 1 else -(lenWidth op : Int)) := by
  have : ∀ op : UInt8, Supported op → ((opcodes op).any fun o => decide (o.value = op) &&
      decide (o.length = (if Direct op then (op.toNat : Int) + 1 else if lenWidth op = 0 then 1 else -(lenWidth op : Int)))) = true := by
    apply Base58.forall_uint8; decide +kernel
  intro op h
  have := this op h
  rw [Option.any_eq_true] at this
  obtain ⟨o, ho, hp⟩ := this
  simp only [Bool.and_eq_true, decide_eq_true_eq] at hp
  exact ⟨o, ho, hp⟩

/-- the instruction read for a token -/
def instrOf (t : Token) : Instruction := ⟨(opcodes t.op).getD ⟨t.op, 1, .opReturn⟩, t.data⟩

theorem instrOf_value {t : Token} (h : Supported t.op) : (instrOf t).op.value = t.op := by
  obtain ⟨o, ho, hv, _⟩ := opcodes_some t.op h
  simp [instrOf, ho, hv]

theorem leBytes_length (k n : Nat) : (leBytes k n).length = k := by
  induction k generalizing n with
  | zero => rfl
  | succ k ih => simp [leBytes, ih]

theorem leNat_leBytes (k n : Nat) : leNat (leBytes k n) = n % 256 ^ k := by
  induction k generalizing n with
  | zero => simp [leBytes, leNat, Nat.mod_one]
  | succ k ih =>
    simp only [leBytes, leNat, ih]
    have e : (UInt8.ofNat (n % 256)).toNat = n % 256 := by simp
    rw [e, Nat.pow_succ, Nat.mul_comm (256 ^ k) 256, Nat.mod_mul]

theorem leBytes_leNat (b : Bytes) : leBytes b.length (leNat b) = b := by
  apply Buffer.leNat_inj (leBytes_length _ _)
  rw [leNat_leBytes, Nat.mod_eq_of_lt (Buffer.leNat_lt b)]

theorem enc_length (t : Token) : t.enc.length = 1 + lenWidth t.op + t.data.length := by
  simp [Token.enc, leBytes_length]; omega

theorem declaredLen_enc {t : Token} (h : t.Valid) (rest : Bytes) :
    declaredLen t.op (leBytes (lenWidth t.op) t.data.length ++ t.data ++ rest) = t.data.length := by
  unfold declaredLen
  obtain ⟨_, h2⟩ := h
  by_cases hd : Direct t.op
  · rw [if_pos hd] at h2 ⊢; exact h2.symm
  · rw [if_neg hd] at h2 ⊢
    rw [List.append_assoc, List.take_left' (leBytes_length _ _), leNat_leBytes, Nat.mod_eq_of_lt h2]

theorem not_stuck_enc {t : Token} (h : t.Valid) (rest : Bytes) : ¬ Stuck (t.enc ++ rest) := by
  rintro ⟨op, r, e, hs⟩
  unfold Token.enc at e
  rw [List.cons_append] at e
  obtain ⟨rfl, rfl⟩ := List.cons.inj e
  rw [declaredLen_enc h] at hs
  simp only [List.length_append, leBytes_length] at hs
  rcases hs with hs | hs | hs
  · exact hs h.1
  · omega
  · omega

theorem not_stuck_nil : ¬ Stuck [] := by rintro ⟨_, _, e, _⟩; cases e

theorem enc_inj {t t' : Token} (h : t.Valid) (h' : t'.Valid) {a a' : Bytes} (e : t.enc ++ a = t'.enc ++ a') :
    t = t' ∧ a = a' := by
  have d1 := declaredLen_enc h a
  have d2 := declaredLen_enc h' a'
  unfold Token.enc at e
  rw [List.cons_append, List.cons_append] at e
  obtain ⟨hop, hr⟩ := List.cons.inj e
  rw [← hr, ← hop, d1] at d2
  rw [← hop, d2, List.append_assoc, List.append_assoc] at hr
  have h3 := List.append_cancel_left hr
  have h4 := List.append_inj h3 d2
  refine ⟨?_, h4.2⟩
  cases t; cases t'
  simp_all

/-- every non-empty byte string starts with a token or is stuck -/
theorem token_or_stuck (r : Bytes) (h : r ≠ []) (hs : ¬ Stuck r) : ∃ t rest, t.Valid ∧ r = Token.enc t ++ rest := by
  cases r with
  | nil => exact absurd rfl h
  | cons op rest =>
    have h1 : Supported op := by
      by_contra hc; exact hs ⟨op, rest, rfl, Or.inl hc⟩
    have h2 : lenWidth op ≤ rest.length := by
      by_contra hc; exact hs ⟨op, rest, rfl, Or.inr (Or.inl (by omega))⟩
    have h3 : lenWidth op + declaredLen op rest ≤ rest.length := by
      by_contra hc; exact hs ⟨op, rest, rfl, Or.inr (Or.inr (by omega))⟩
    set data := (rest.drop (lenWidth op)).take (declaredLen op rest) with hdata
    have hlen : data.length = declaredLen op rest := by rw [hdata, List.length_take, List.length_drop]; omega
    have htl : (rest.take (lenWidth op)).length = lenWidth op := by rw [List.length_take]; omega
    have hdl : ∀ hnd : ¬ Direct op, leNat (rest.take (lenWidth op)) = data.length := by
      intro hnd; rw [hlen]; unfold declaredLen; rw [if_neg hnd]
    refine ⟨⟨op, data⟩, (rest.drop (lenWidth op)).drop (declaredLen op rest), ⟨h1, ?_⟩, ?_⟩
    · simp only
      by_cases hd : Direct op
      · rw [if_pos hd, hlen]; unfold declaredLen; rw [if_pos hd]
      · rw [if_neg hd, ← hdl hd]
        have := Buffer.leNat_lt (rest.take (lenWidth op))
        rwa [htl] at this
    · have e1 : leBytes (lenWidth op) data.length = rest.take (lenWidth op) := by
        by_cases hd : Direct op
        · have : lenWidth op = 0 := by
            unfold Direct at hd; unfold lenWidth
            rw [if_neg (by omega), if_neg (by omega), if_neg (by omega)]
          rw [this]; simp [leBytes]
        · rw [← hdl hd]
          have := leBytes_leNat (rest.take (lenWidth op))
          rwa [htl] at this
      simp only [Token.enc, e1, List.cons_append, List.append_assoc]
      rw [hdata, List.take_append_drop, List.take_append_drop]

theorem lenWidth_le (op : UInt8) : lenWidth op ≤ 4 := by unfold lenWidth; split_ifs <;> omega

theorem declaredLen_lt (op : UInt8) (rest : Bytes) : declaredLen op rest < 2^32 := by
  unfold declaredLen
  split
  · have := op.toNat_lt; omega
  · have := Buffer.leNat_lt (rest.take (lenWidth op))
    have h2 : (rest.take (lenWidth op)).length ≤ 4 := by
      rw [List.length_take]; have := lenWidth_le op; omega
    have := Nat.pow_le_pow_right (n := 256) (by omega) h2
    omega

theorem onErr_ok {α : Type} {e : Err} {r : Res α} {a : α} (h : r = .ok a) : onErr e r = .ok a := by rw [h]; rfl
theorem onErr_err {α : Type} {e e' : Err} {r : Res α} (h : r = .err e') : onErr e r = .err e := by rw [h]; rfl

theorem le16_eq (v : UInt32) : le16 v = leBytes 2 v.toNat := by
  apply Buffer.leNat_inj (by simp [leBytes_length])
  rw [leNat_le16, leNat_leBytes]; norm_num

theorem le32_eq (v : UInt32) : le32 v = leBytes 4 v.toNat := by
  apply Buffer.leNat_inj (by simp [leBytes_length])
  rw [leNat_le32, leNat_leBytes, Nat.mod_eq_of_lt]; have := v.toNat_lt; norm_num; omega

/-- the length field reader -/
theorem readPushLen_cases {b : Buffer} {r : Bytes} (h : Rd b r) (w : Nat) (hw : w = 1 ∨ w = 2 ∨ w = 4) :
    (r.length < w ∧ readPushLen (-(w : Int)) b = .err errOpRead) ∨
    ∃ (l : UInt32) (b' : Buffer) (t : Bytes), r = r.take w ++ t ∧ (r.take w).length = w ∧ leNat (r.take w) = l.toNat ∧
      readPushLen (-(w : Int)) b = .ok (l, b') ∧ Rd b' t := by
  unfold readPushLen
  rcases hw with rfl | rfl | rfl
  · rw [if_pos (by norm_num)]
    rcases readU8_cases h with ⟨rfl, e⟩ | ⟨v, t, b', rfl, e, hr, _⟩
    · left; refine ⟨by simp, ?_⟩; rw [onErr_err e]; rfl
    · right
      refine ⟨v.toUInt32, b', t, by simp, by simp, by simp [leNat], ?_, hr⟩
      rw [onErr_ok e]; rfl
  · rw [if_neg (by norm_num), if_pos (by norm_num)]
    rcases readU16_cases h with ⟨hl, e⟩ | ⟨v, t, b', rfl, hv, e, hr, _⟩
    · left; exact ⟨hl, onErr_err e⟩
    · right
      refine ⟨v, b', t, ?_, ?_, ?_, onErr_ok e, hr⟩
      · rw [List.take_left' (le16_length v)]
      · rw [List.take_left' (le16_length v)]; simp
      · rw [List.take_left' (le16_length v), leNat_le16, Nat.mod_eq_of_lt hv]
  · rw [if_neg (by norm_num), if_neg (by norm_num), if_pos (by norm_num)]
    rcases readU32_cases h with ⟨hl, e⟩ | ⟨v, t, b', rfl, e, hr, _⟩
    · left; exact ⟨hl, onErr_err e⟩
    · right
      refine ⟨v, b', t, ?_, ?_, ?_, onErr_ok e, hr⟩
      · rw [List.take_left' (le32_length v)]
      · rw [List.take_left' (le32_length v)]; simp
      · rw [List.take_left' (le32_length v), leNat_le32]

/-- the reader, completely -/
theorem nextInstruction_cases {b : Buffer} {r : Bytes} (h : Rd b r) :
    (r = [] ∧ nextInstruction b = .ok (none, b)) ∨
    (Stuck r ∧ ∃ e, nextInstruction b = .err e) ∨
    ∃ t rest b', t.Valid ∧ r = Token.enc t ++ rest ∧ nextInstruction b = .ok (some (instrOf t), b') ∧ Rd b' rest := by
  by_cases hr : r = []
  · left
    refine ⟨hr, ?_⟩
    unfold nextInstruction
    rw [if_pos (h.atEnd_iff.mpr hr)]
  · right
    have hne : ¬ b.atEnd = true := fun hh => hr (h.atEnd_iff.mp hh)
    unfold nextInstruction
    rw [if_neg hne]
    rcases readU8_cases h with ⟨hh, _⟩ | ⟨op, rest, b1, rfl, e1, h1, _⟩
    · exact absurd hh hr
    rw [onErr_ok e1, Res.ok_bind]
    dsimp only
    by_cases hs : Supported op
    · obtain ⟨o, ho, hv, hlen⟩ := opcodes_some op hs
      rw [ho]
      dsimp only
      by_cases hd : Direct op
      · rw [if_pos hd] at hlen
        have hd' := hd
        unfold Direct at hd'
        rw [if_neg (by omega), if_pos (by omega), hlen, show ((op.toNat : Int) + 1 - 1) = (op.toNat : Int) by omega]
        have hsk := h1.seek_lt
        rcases readBytes_cases h1 op.toNat (by omega) with ⟨hl, e2⟩ | ⟨x, t, b2, rfl, hx, e2, h2, _⟩
        · left
          rw [onErr_err e2]
          refine ⟨⟨op, rest, rfl, Or.inr (Or.inr ?_)⟩, _, rfl⟩
          unfold declaredLen; rw [if_pos hd]; omega
        · right
          rw [onErr_ok e2]
          refine ⟨⟨op, x⟩, t, b2, ⟨hs, ?_⟩, ?_, ?_, h2⟩
          · simp only; rw [if_pos hd]; exact hx
          · have : lenWidth op = 0 := by
              unfold lenWidth; rw [if_neg (by omega), if_neg (by omega), if_neg (by omega)]
            simp [Token.enc, this, leBytes]
          · simp [instrOf, ho]
      · rw [if_neg hd] at hlen
        by_cases hw : lenWidth op = 0
        · rw [if_pos hw] at hlen
          rw [if_pos hlen]
          right
          refine ⟨⟨op, []⟩, rest, b1, ⟨hs, ?_⟩, ?_, ?_, h1⟩
          · simp only; rw [if_neg hd, hw]; simp
          · simp [Token.enc, hw, leBytes]
          · simp [instrOf, ho]
        · rw [if_neg hw] at hlen
          rw [if_neg (by omega), if_neg (by omega), hlen]
          have hw' : lenWidth op = 1 ∨ lenWidth op = 2 ∨ lenWidth op = 4 := by
            unfold lenWidth at hw ⊢; split_ifs at hw ⊢ <;> simp_all
          rcases readPushLen_cases h1 (lenWidth op) hw' with ⟨hl, e2⟩ | ⟨l, b2, t, ht, htl, hln, e2, h2⟩
          · left
            rw [e2, Res.err_bind]
            exact ⟨⟨op, rest, rfl, Or.inr (Or.inl hl)⟩, _, rfl⟩
          · rw [e2, Res.ok_bind]
            dsimp only
            have hsk := h2.seek_lt
            have hl32 := l.toNat_lt
            have hdec : declaredLen op rest = l.toNat := by unfold declaredLen; rw [if_neg hd, hln]
            have hrl := congrArg List.length ht
            rw [List.length_append, htl] at hrl
            rcases readBytes_cases h2 l.toNat (by omega) with ⟨hl, e3⟩ | ⟨x, t', b3, rfl, hx, e3, h3, _⟩
            · left
              rw [onErr_err e3, Res.err_bind]
              refine ⟨⟨op, rest, rfl, Or.inr (Or.inr ?_)⟩, _, rfl⟩
              rw [hdec]; omega
            · right
              rw [onErr_ok e3]
              refine ⟨⟨op, x⟩, t', b3, ⟨hs, ?_⟩, ?_, ?_, h3⟩
              · simp only; rw [if_neg hd, hx, ← hln]
                have := Buffer.leNat_lt (rest.take (lenWidth op))
                rwa [htl] at this
              · have : leBytes (lenWidth op) x.length = rest.take (lenWidth op) := by
                  rw [hx, ← hln]
                  have := leBytes_leNat (rest.take (lenWidth op))
                  rwa [htl] at this
                simp only [Token.enc, this, List.cons_append, List.append_assoc]
                rw [← ht]
              · simp [instrOf, ho]
    · left
      rw [(opcodes_none op).mpr hs]
      exact ⟨⟨op, rest, rfl, Or.inl hs⟩, _, rfl⟩

/-- decomposition of any byte string into tokens and an end that is empty or stuck -/
theorem tokens_exist (r : Bytes) : ∃ ts tail, (∀ t ∈ ts, Token.Valid t) ∧ r = encTokens ts ++ tail ∧
    (tail = [] ∨ Stuck tail) := by
  induction hn : r.length using Nat.strong_induction_on generalizing r with
  | _ n ih =>
    by_cases h0 : r = []
    · exact ⟨[], [], by simp, by simp [h0, encTokens], Or.inl rfl⟩
    · by_cases hs : Stuck r
      · exact ⟨[], r, by simp, by simp [encTokens], Or.inr hs⟩
      · obtain ⟨t, rest, hv, rfl⟩ := token_or_stuck r h0 hs
        have hl := enc_length t
        obtain ⟨ts, tail, h1, h2, h3⟩ := ih rest.length (by rw [List.length_append] at hn; omega) rest rfl
        refine ⟨t :: ts, tail, ?_, ?_, h3⟩
        · intro x hx
          rcases List.mem_cons.mp hx with rfl | hx
          · exact hv
          · exact h1 x hx
        · rw [h2]; simp [encTokens]

theorem tokens_unique {ts ts' : List Token} {a a' : Bytes} (h : ∀ t ∈ ts, t.Valid) (h' : ∀ t ∈ ts', t.Valid)
    (ha : a = [] ∨ Stuck a) (ha' : a' = [] ∨ Stuck a') (e : encTokens ts ++ a = encTokens ts' ++ a') :
    ts = ts' ∧ a = a' := by
  induction ts generalizing ts' with
  | nil =>
    cases ts' with
    | nil => simpa [encTokens] using e
    | cons t' ts' =>
      simp only [encTokens, List.flatMap_nil, List.nil_append, List.flatMap_cons, List.append_assoc] at e
      subst e
      rcases ha with h0 | h0
      · simp [Token.enc] at h0
      · exact absurd h0 (not_stuck_enc (h' t' (by simp)) _)
  | cons t ts ih =>
    cases ts' with
    | nil =>
      simp only [encTokens, List.flatMap_nil, List.nil_append, List.flatMap_cons, List.append_assoc] at e
      subst e
      rcases ha' with h0 | h0
      · simp [Token.enc] at h0
      · exact absurd h0 (not_stuck_enc (h t (by simp)) _)
    | cons t' ts' =>
      simp only [encTokens, List.flatMap_cons, List.append_assoc] at e
      obtain ⟨rfl, e2⟩ := enc_inj (h t (by simp)) (h' t' (by simp)) e
      obtain ⟨rfl, rfl⟩ := ih (fun x hx => h x (by simp [hx])) (fun x hx => h' x (by simp [hx])) e2
      exact ⟨rfl, rfl⟩

/-- the parser on a decomposed input -/
theorem instructionsLoop_tokens (ts : List Token) (hv : ∀ t ∈ ts, t.Valid) (tail : Bytes) (ht : tail = [] ∨ Stuck tail) :
    ∀ (b : Buffer) (fuel : Nat), Rd b (encTokens ts ++ tail) → ts.length < fuel →
    (tail = [] ∧ instructionsLoop fuel b = .ok (ts.map instrOf)) ∨
    (Stuck tail ∧ ∃ e, instructionsLoop fuel b = .err e) := by
  induction ts with
  | nil =>
    intro b fuel h hf
    obtain ⟨f, rfl⟩ : ∃ f, fuel = f + 1 := ⟨fuel - 1, by simp at hf; omega⟩
    simp only [encTokens, List.flatMap_nil, List.nil_append] at h
    unfold instructionsLoop
    rcases ht with rfl | ht
    · left
      rcases nextInstruction_cases h with ⟨_, e⟩ | ⟨hs, _⟩ | ⟨t, rest, b', _, e, _⟩
      · rw [e]; exact ⟨rfl, rfl⟩
      · exact absurd hs not_stuck_nil
      · simp [Token.enc] at e
    · right
      rcases nextInstruction_cases h with ⟨rfl, _⟩ | ⟨_, er, e⟩ | ⟨t, rest, b', hv, rfl, _⟩
      · exact absurd ht not_stuck_nil
      · rw [e]; exact ⟨ht, _, rfl⟩
      · exact absurd ht (not_stuck_enc hv _)
  | cons t ts ih =>
    intro b fuel h hf
    obtain ⟨f, rfl⟩ : ∃ f, fuel = f + 1 := ⟨fuel - 1, by simp at hf; omega⟩
    simp only [encTokens, List.flatMap_cons, List.append_assoc] at h
    have hvt := hv t (by simp)
    rcases nextInstruction_cases h with ⟨e, _⟩ | ⟨hs, _⟩ | ⟨t', rest, b', hv', e, e1, h1⟩
    · simp [Token.enc] at e
    · exact absurd hs (not_stuck_enc hvt _)
    · obtain ⟨rfl, rfl⟩ := enc_inj hvt hv' e
      unfold instructionsLoop
      rw [e1, Res.ok_bind]
      dsimp only
      rcases ih (fun x hx => hv x (by simp [hx])) b' f h1 (by simp at hf; omega) with ⟨h2, e2⟩ | ⟨h2, er, e2⟩
      · left; refine ⟨h2, ?_⟩; rw [e2]; rfl
      · right; refine ⟨h2, er, ?_⟩; rw [e2]; rfl

theorem encTokens_length_ge (ts : List Token) : ts.length ≤ (encTokens ts).length := by
  induction ts with
  | nil => simp [encTokens]
  | cons t ts ih =>
    simp only [encTokens, List.flatMap_cons, List.length_append, List.length_cons] at ih ⊢
    have := enc_length t
    omega

theorem allInstructions_tokens {ts : List Token} (hv : ∀ t ∈ ts, t.Valid) {tail : Bytes} (ht : tail = [] ∨ Stuck tail)
    (hl : (encTokens ts ++ tail).length < 2^62) :
    (tail = [] ∧ allInstructions (encTokens ts ++ tail) = .ok (ts.map instrOf)) ∨
    (Stuck tail ∧ ∃ e, allInstructions (encTokens ts ++ tail) = .err e) := by
  apply instructionsLoop_tokens ts hv tail ht _ _ (rd_reader _ hl)
  have := encTokens_length_ge ts
  rw [List.length_append]; omega

theorem instrOf_bytes {t : Token} (h : t.Valid) : (instrOf t).bytes = t.enc := by
  obtain ⟨o, ho, hv, hlen⟩ := opcodes_some t.op h.1
  have hi : instrOf t = ⟨o, t.data⟩ := by simp [instrOf, ho]
  unfold Instruction.bytes
  rw [hi]
  simp only [hlen, hv, Token.enc]
  obtain ⟨_, h2⟩ := h
  by_cases hd : Direct t.op
  · rw [if_pos hd] at h2
    have hd' := hd
    unfold Direct at hd'
    rw [if_pos hd, if_neg (by omega), if_neg (by omega)]
    have : lenWidth t.op = 0 := by
      unfold lenWidth; rw [if_neg (by omega), if_neg (by omega), if_neg (by omega)]
    simp [this, leBytes]
  · rw [if_neg hd] at h2
    rw [if_neg hd]
    by_cases hw : lenWidth t.op = 0
    · rw [hw] at h2 ⊢
      have : t.data = [] := by
        apply List.eq_nil_of_length_eq_zero; simpa using h2
      simp [this, leBytes]
    · have hw' : lenWidth t.op = 1 ∨ lenWidth t.op = 2 ∨ lenWidth t.op = 4 := by
        unfold lenWidth at hw ⊢; split_ifs at hw ⊢ <;> simp_all
      rcases hw' with hw' | hw' | hw' <;> rw [hw'] at h2 ⊢
      · rw [pow_one] at h2; simp [leBytes, Nat.mod_eq_of_lt h2]
      · have e : (UInt32.ofNat t.data.length).toNat = t.data.length := by
          simp; omega
        norm_num
        rw [le16_eq, e]
      · have e : (UInt32.ofNat t.data.length).toNat = t.data.length := by
          simp; omega
        norm_num
        rw [le32_eq, e]

end Toku.Script
