import Verif.Proof.AssembleLoad
import Verif.Proof.Script
/-
Lemmas about the disassembler.
-/
namespace Toku.Assemble
open Toku.Spec Toku.Spec.Asm Toku.Script

/-- the table of names, seen from the opcode -/
theorem opName_table : ∀ op : UInt8, Supported op → ∃ n, (n, op) ∈ table.take 114 ∧ opName op = some (ascii n.toList) := by
  have h : ∀ op : UInt8, Supported op → ((table.take 114).any fun q => decide (q.2 = op) && decide (opName op = some (ascii q.1.toList))) = true := by
    apply Base58.forall_uint8; decide +kernel
  intro op hs
  have := h op hs
  rw [List.any_eq_true] at this
  obtain ⟨⟨n, o⟩, hm, hp⟩ := this
  simp only [Bool.and_eq_true, decide_eq_true_eq] at hp
  obtain ⟨rfl, hp⟩ := hp
  exact ⟨n, hm, hp⟩

theorem table_values : ((table.take 114).map (·.2)).Nodup := by decide +kernel

theorem table_take (q : String × UInt8) (h : q ∈ table.take 114) : q ∈ table := List.mem_of_mem_take h

/-- pushes are the opcodes whose instructions have data -/
theorem push_iff {op : UInt8} {o : Opcode} (h : Supported op) (ho : opcodes op = some o) :
    o.length = 1 ↔ ¬ (1 ≤ op.toNat ∧ op.toNat ≤ 0x4e) := by
  have key : ∀ op : UInt8, Supported op → ((opcodes op).all fun o => decide (o.length = 1 ↔ ¬ (1 ≤ op.toNat ∧ op.toNat ≤ 0x4e))) = true := by
    apply Base58.forall_uint8; decide +kernel
  have := key op h
  rw [ho, Option.all_some, decide_eq_true_eq] at this
  exact this

theorem hexDigit_char (n : Nat) (h : n < 16) : Id.hexDigit n = UInt8.ofNat (Nat.digitChar n).toNat := by
  have : ∀ n : Fin 16, Id.hexDigit n.val = UInt8.ofNat (Nat.digitChar n.val).toNat := by decide +kernel
  exact this ⟨n, h⟩

theorem hexEncode_shown (d : Bytes) : Id.hexEncode d = d.flatMap fun b =>
    ascii [Nat.digitChar (b.toNat / 16), Nat.digitChar (b.toNat % 16)] := by
  induction d with
  | nil => rfl
  | cons b d ih =>
    have hb := b.toNat_lt
    rw [Id.hexEncode, ih, hexDigit_char _ (by omega), hexDigit_char _ (by omega)]
    rfl

theorem hexEncode_inj {a b : Bytes} (h : Id.hexEncode a = Id.hexEncode b) : a = b := by
  have := Id.hexDecode_encode a
  rw [h, Id.hexDecode_encode] at this
  exact (Res.ok.inj this).symm

theorem line_eq {t : Token} (h : Supported t.op) : line (instrOf t) = (opName t.op).getD [] ::
    (if 1 ≤ t.op.toNat ∧ t.op.toNat ≤ 0x4e then [Id.hexEncode t.data] else []) := by
  obtain ⟨o, h1, h2, _⟩ := opcodes_some t.op h
  have hp := push_iff h h1
  unfold line instrOf
  rw [h1]
  simp only [Option.getD_some, h2]
  by_cases hc : 1 ≤ t.op.toNat ∧ t.op.toNat ≤ 0x4e
  · rw [if_pos hc, if_neg (fun e => (hp.mp e) hc)]
  · rw [if_neg hc, if_pos (hp.mpr hc)]

theorem line_shown {t : Token} (h : Supported t.op) : Shown t (line (instrOf t)) := by
  obtain ⟨n, hn, e⟩ := opName_table t.op h
  refine ⟨n, hn, ?_⟩
  rw [line_eq h, e, hexEncode_shown]
  rfl

theorem shown_unique {t : Token} {ws ws' : List Bytes} (h : Shown t ws) (h' : Shown t ws') : ws = ws' := by
  obtain ⟨n, hn, rfl⟩ := h
  obtain ⟨n', hn', rfl⟩ := h'
  have := List.inj_on_of_nodup_map table_values hn hn' rfl
  rw [(Prod.mk.inj this).1]

theorem join_intercalate (ws : List Bytes) : join ws = List.intercalate [0x20] ws := by
  induction ws with
  | nil => rfl
  | cons w ws ih =>
    cases ws with
    | nil => simp [join, List.intercalate]
    | cons v vs =>
      rw [join, ih]
      · simp [List.intercalate]
      · simp

def isSep (c : UInt8) : Bool := c = 0x20 || c = 0x0a || c = 0x09

theorem words_join (ws : List Bytes) (hne : ws ≠ []) (hs : ∀ w ∈ ws, ∀ c ∈ w, isSep c = false) : words (join ws) = ws := by
  induction ws with
  | nil => exact absurd rfl hne
  | cons w ws ih =>
    cases ws with
    | nil => exact List.splitOnP_eq_singleton (hs w (by simp))
    | cons v vs =>
      have e : join (w :: v :: vs) = w ++ 0x20 :: join (v :: vs) := by rw [join]; simp
      rw [e]
      change List.splitOnP isSep _ = _
      change _ → _ → List.splitOnP isSep _ = _ at ih
      rw [List.splitOnP_append_cons_of_forall_mem (hs w (by simp)) 0x20 (by decide), ih (by simp) (fun x hx => hs x (by simp [hx]))]

theorem name_no_sep : ∀ q ∈ table, ∀ c ∈ ascii q.1.toList, isSep c = false := by decide +kernel

theorem hex_no_sep (d : Bytes) : ∀ c ∈ Id.hexEncode d, isSep c = false := by
  have h16 : ∀ n : Fin 16, isSep (Id.hexDigit n.val) = false := by decide +kernel
  induction d with
  | nil => simp [Id.hexEncode]
  | cons b d ih =>
    intro c hc
    have hb := b.toNat_lt
    rw [Id.hexEncode] at hc
    rcases List.mem_cons.mp hc with rfl | hc
    · exact h16 ⟨b.toNat / 16, by omega⟩
    rcases List.mem_cons.mp hc with rfl | hc
    · exact h16 ⟨b.toNat % 16, by omega⟩
    · exact ih c hc

theorem line_no_sep {t : Token} (h : Supported t.op) : ∀ w ∈ line (instrOf t), ∀ c ∈ w, isSep c = false := by
  obtain ⟨n, hn, e⟩ := opName_table t.op h
  rw [line_eq h, e]
  intro w hw
  rcases List.mem_cons.mp hw with rfl | hw
  · exact name_no_sep _ (table_take _ hn)
  · split_ifs at hw with hc
    · rw [List.mem_singleton] at hw
      rw [hw]
      exact hex_no_sep _
    · simp at hw

theorem disasm_tokens {ts : List Token} (hv : ∀ t ∈ ts, t.Valid) (hl : (encTokens ts).length < 2^62) :
    disasm (encTokens ts) = .ok (join (ts.flatMap fun t => line (instrOf t))) := by
  have := allInstructions_tokens hv (.inl rfl) (tail := []) (by simpa using hl)
  rw [List.append_nil] at this
  rcases this with ⟨_, e⟩ | ⟨h, _⟩
  · unfold disasm
    rw [e, Res.ok_bind, List.flatMap_map]
    rfl
  · exact absurd h not_stuck_nil

theorem disasm_stuck {s : Bytes} (hl : s.length < 2^62) (h : ¬ ∃ ts, (∀ t ∈ ts, Token.Valid t) ∧ s = encTokens ts) :
    ∃ e, disasm s = .err e := by
  obtain ⟨ts, tail, hv, rfl, ht⟩ := tokens_exist s
  rcases allInstructions_tokens hv ht hl with ⟨rfl, _⟩ | ⟨_, e, he⟩
  · exact absurd ⟨ts, hv, by simp⟩ h
  · exact ⟨e, by unfold disasm; rw [he]; rfl⟩

theorem name_inj {a b : UInt8} (ha : Supported a) (hb : Supported b) (h : (opName a).getD [] = (opName b).getD []) : a = b := by
  obtain ⟨n, hn, e⟩ := opName_table a ha
  obtain ⟨m, hm, e'⟩ := opName_table b hb
  rw [e, e'] at h
  have h1 : Names (ascii n.toList) a := ⟨n, table_take _ hn, rfl⟩
  have h2 : Names (ascii n.toList) b := ⟨m, table_take _ hm, h⟩
  rw [← opByName_iff] at h1 h2
  rw [h1] at h2
  exact Option.some.inj h2

theorem name_ne_nil {a : UInt8} (ha : Supported a) : (opName a).getD [] ≠ [] := by
  obtain ⟨n, hn, e⟩ := opName_table a ha
  have h1 := name_head (ascii n.toList) a ⟨n, table_take _ hn, rfl⟩
  rw [e]
  rintro h
  simp only [Option.getD_some] at h
  rw [h] at h1
  cases h1

theorem lines_inj {ts ts' : List Token} (hv : ∀ t ∈ ts, t.Valid) (hv' : ∀ t ∈ ts', t.Valid)
    (h : (ts.flatMap fun t => line (instrOf t)) = ts'.flatMap fun t => line (instrOf t)) : ts = ts' := by
  induction ts generalizing ts' with
  | nil =>
    cases ts' with
    | nil => rfl
    | cons t ts' =>
      rw [List.flatMap_cons, line_eq (hv' t (by simp)).1] at h
      simp at h
  | cons t ts ih =>
    cases ts' with
    | nil =>
      rw [List.flatMap_cons, line_eq (hv t (by simp)).1] at h
      simp at h
    | cons t' ts' =>
      have v := hv t (by simp)
      have v' := hv' t' (by simp)
      rw [List.flatMap_cons, List.flatMap_cons, line_eq v.1, line_eq v'.1, List.cons_append, List.cons_append] at h
      obtain ⟨h1, h2⟩ := List.cons.inj h
      have ho := name_inj v.1 v'.1 h1
      rw [ho] at h2
      have key : t.data = t'.data ∧ (ts.flatMap fun t => line (instrOf t)) = ts'.flatMap fun t => line (instrOf t) := by
        split_ifs at h2 with hc
        · obtain ⟨h3, h4⟩ := List.cons.inj h2
          exact ⟨hexEncode_inj h3, h4⟩
        · refine ⟨?_, h2⟩
          have len : ∀ u : Token, u.Valid → ¬ (1 ≤ u.op.toNat ∧ u.op.toNat ≤ 0x4e) → u.data = [] := by
            intro u hu hn
            have := hu.2
            have hd : ¬ Direct u.op := fun h => hn ⟨h.1, by have := h.2; omega⟩
            have hw : lenWidth u.op = 0 := by unfold lenWidth; split_ifs <;> omega
            rw [if_neg hd, hw] at this
            exact List.length_eq_zero_iff.mp (by simpa using this)
          rw [len t v (by rw [ho]; exact hc), len t' v' hc]
      have et : t = t' := by
        cases t; cases t'
        simp only at ho key
        rw [ho, key.1]
      rw [et, ih (fun x hx => hv x (by simp [hx])) (fun x hx => hv' x (by simp [hx])) key.2]

theorem lines_no_sep {ts : List Token} (hv : ∀ t ∈ ts, t.Valid) :
    ∀ w ∈ ts.flatMap (fun t => line (instrOf t)), ∀ c ∈ w, isSep c = false := by
  intro w hw
  obtain ⟨t, ht, hw⟩ := List.mem_flatMap.mp hw
  exact line_no_sep (hv t ht).1 w hw

theorem lines_ne {ts : List Token} (hv : ∀ t ∈ ts, t.Valid) (hne : ts ≠ []) : ∃ w r,
    ts.flatMap (fun t => line (instrOf t)) = w :: r ∧ w ≠ [] := by
  cases ts with
  | nil => exact absurd rfl hne
  | cons t ts =>
    have v := hv t (by simp)
    rw [List.flatMap_cons, line_eq v.1]
    exact ⟨_, _, rfl, name_ne_nil v.1⟩

theorem join_lines_inj {ts ts' : List Token} (hv : ∀ t ∈ ts, t.Valid) (hv' : ∀ t ∈ ts', t.Valid)
    (h : join (ts.flatMap fun t => line (instrOf t)) = join (ts'.flatMap fun t => line (instrOf t))) : ts = ts' := by
  have one : ∀ us : List Token, (∀ t ∈ us, t.Valid) → us ≠ [] → words (join (us.flatMap fun t => line (instrOf t))) =
      us.flatMap (fun t => line (instrOf t)) := by
    intro us hu hne
    obtain ⟨w, r, e, _⟩ := lines_ne hu hne
    exact words_join _ (by rw [e]; simp) (lines_no_sep hu)
  have nil : ∀ us : List Token, (∀ t ∈ us, t.Valid) → join (us.flatMap fun t => line (instrOf t)) = [] → us = [] := by
    intro us hu he
    by_contra hne
    have h1 := one us hu hne
    obtain ⟨w, r, e, hw⟩ := lines_ne hu hne
    rw [he, e] at h1
    have : words [] = [[]] := rfl
    rw [this] at h1
    exact hw (List.cons.inj h1).1.symm
  by_cases h0 : ts = []
  · subst h0
    exact (nil ts' hv' (by rw [← h]; rfl)).symm
  by_cases h0' : ts' = []
  · subst h0'
    exact nil ts hv (by rw [h]; rfl)
  apply lines_inj hv hv'
  rw [← one ts hv h0, ← one ts' hv' h0', h]

end Toku.Assemble
