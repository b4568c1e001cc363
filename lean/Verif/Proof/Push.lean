import Verif.Proof.VM
/-
Pushes: the builder emits one token, and what pushing tokens do.
-/
namespace Toku.VM
open Toku.Spec Toku.Buffer Toku.Script

/-- the token the builder writes for some data -/
def pushToken (d : Bytes) : Token :=
  if d.length = 0 then ⟨0x00, []⟩
  else if d.length = 1 ∧ d.getD 0 0 = 0 then ⟨0x00, []⟩
  else if d.length = 1 ∧ d.getD 0 0 ≤ 16 then ⟨0x50 + d.getD 0 0, []⟩
  else if d.length = 1 ∧ d.getD 0 0 = 0x81 then ⟨0x4f, []⟩
  else if d.length < 0x4c then ⟨UInt8.ofNat d.length, d⟩
  else if d.length ≤ 0xff then ⟨0x4c, d⟩
  else if d.length ≤ 0xffff then ⟨0x4d, d⟩
  else ⟨0x4e, d⟩

theorem small_lenWidth : ∀ c : UInt8, c ≤ 16 → lenWidth (0x50 + c) = 0 := by
  apply Base58.forall_uint8; decide +kernel

theorem addData_data (b : Buffer) (d : Bytes) (hl : d.length < 2^32) :
    (addData b d).data = b.data ++ (pushToken d).enc := by
  unfold addData pushToken
  simp only
  split
  · rfl
  split
  · rfl
  split
  · rename_i h; simp only [Token.enc, small_lenWidth _ h.2]; simp [leBytes]
  split
  · rfl
  rename_i h0 _ _ _
  by_cases h4 : d.length < 0x4c
  · rw [if_pos (Or.inr h4), if_pos h4]
    have hn : (UInt8.ofNat d.length).toNat = d.length := by simp; omega
    have : lenWidth (UInt8.ofNat d.length) = 0 := by
      unfold lenWidth; rw [hn, if_neg (by omega), if_neg (by omega), if_neg (by omega)]
    simp [Token.enc, this, leBytes]
  · rw [if_neg (by omega), if_neg h4]
    split
    · rename_i h5
      have hm : d.length % 256 = d.length := Nat.mod_eq_of_lt (by omega)
      simp [Token.enc, lenWidth, leBytes, hm]
    split
    · have hn : (UInt32.ofNat d.length).toNat = d.length := by simp; omega
      simp [Token.enc, le16_eq, hn, show lenWidth 0x4d = 2 from rfl]
    · have hn : (UInt32.ofNat d.length).toNat = d.length := by simp; omega
      simp [Token.enc, le32_eq, hn, show lenWidth 0x4e = 4 from rfl]

theorem small_supported : ∀ c : UInt8, c ≤ 16 → c ≠ 0 → Supported (0x50 + c) ∧ ¬ Direct (0x50 + c) := by
  apply Base58.forall_uint8; decide +kernel

theorem getD_single {d : Bytes} (h : d.length = 1) : d = [d.getD 0 0] := by
  match d, h with
  | [x], _ => rfl

theorem pushToken_valid {d : Bytes} (hl : d.length < 2^32) (h81 : d ≠ [0x81]) : (pushToken d).Valid := by
  unfold pushToken Token.Valid
  split
  · simp only; decide
  split
  · simp only; decide
  split
  · rename_i h1 h2 h3
    have hne : d.getD 0 0 ≠ 0 := fun h => h2 ⟨h3.1, h⟩
    obtain ⟨a, b⟩ := small_supported _ h3.2 hne
    refine ⟨a, ?_⟩
    simp only
    rw [if_neg b, small_lenWidth _ h3.2]; simp
  split
  · rename_i h
    exact absurd (by rw [getD_single h.1, h.2]) h81
  split
  · have hn : (UInt8.ofNat d.length).toNat = d.length := by simp; omega
    refine ⟨by simp only; unfold Supported; rw [hn]; omega, ?_⟩
    simp only
    rw [if_pos (by unfold Direct; rw [hn]; omega), hn]
  split
  · refine ⟨by simp only; decide, ?_⟩
    simp only
    rw [if_neg (by decide)]; simp [lenWidth]; omega
  split
  · refine ⟨by simp only; decide, ?_⟩
    simp only
    rw [if_neg (by decide)]; simp [lenWidth]; omega
  · refine ⟨by simp only; decide, ?_⟩
    simp only
    rw [if_neg (by decide)]; simp [lenWidth]; omega

theorem fn_opN : ∀ c : UInt8, c ≤ 16 → c ≠ 0 → ∃ o, opcodes (0x50 + c) = some o ∧ o.fn = .opN ∧
    o.value = 0x50 + c := by
  have : ∀ c : UInt8, c ≤ 16 → c ≠ 0 → (opcodes (0x50 + c)).any (fun o => o.fn == .opN && o.value == 0x50 + c) = true := by
    apply Base58.forall_uint8; decide +kernel
  intro c h1 h2
  have := this c h1 h2
  rw [Option.any_eq_true] at this
  obtain ⟨o, ho, hp⟩ := this
  simp only [Bool.and_eq_true, beq_iff_eq] at hp
  exact ⟨o, ho, hp⟩

theorem fn_push : ∀ op : UInt8, 1 ≤ op.toNat ∧ op.toNat ≤ 0x4e → ∃ o, opcodes op = some o ∧ o.fn = .opPushData := by
  have : ∀ op : UInt8, 1 ≤ op.toNat ∧ op.toNat ≤ 0x4e → (opcodes op).any (fun o => o.fn == .opPushData) = true := by
    apply Base58.forall_uint8; decide +kernel
  intro op h
  have := this op h
  rw [Option.any_eq_true] at this
  obtain ⟨o, ho, hp⟩ := this
  exact ⟨o, ho, by simpa using hp⟩

theorem bytes_small : ∀ c : UInt8, c ≤ 16 → c ≠ 0 → ScriptNum.bytes (((0x50 + c) - 0x50 : UInt8).toNat : Int) = .ok [c] := by
  apply Base58.forall_uint8; decide +kernel

/-- a token with a push opcode pushes its data -/
theorem push_data (env : Env) {t : Token} (h : 1 ≤ t.op.toNat ∧ t.op.toNat ≤ 0x4e) (s : Stack) :
    dataOp env (instrOf t) s = .ok (t.data :: s) := by
  obtain ⟨o, ho, hf⟩ := fn_push t.op h
  have hi : instrOf t = ⟨o, t.data⟩ := by simp [instrOf, ho]
  rw [hi]; unfold dataOp; simp only [hf]

theorem push_zero (env : Env) (s : Stack) : dataOp env (instrOf ⟨0x00, []⟩) s = .ok ([] :: s) := rfl

theorem push_small (env : Env) {c : UInt8} (h : c ≤ 16) (h0 : c ≠ 0) (s : Stack) :
    dataOp env (instrOf ⟨0x50 + c, []⟩) s = .ok ([c] :: s) := by
  obtain ⟨o, ho, hf, hv⟩ := fn_opN c h h0
  have hi : instrOf ⟨0x50 + c, []⟩ = ⟨o, []⟩ := by simp [instrOf, ho]
  rw [hi]; unfold dataOp; simp only [hf, hv, pushInt, bytes_small c h h0]
  rfl

theorem pushToken_pushes (env : Env) {d : Bytes} (hl : d.length < 2^32) (h0 : d ≠ [0x00]) (h81 : d ≠ [0x81])
    (s : Stack) : dataOp env (instrOf (pushToken d)) s = .ok (d :: s) := by
  unfold pushToken
  split
  · rename_i h
    rw [List.eq_nil_of_length_eq_zero h]
    exact push_zero env s
  split
  · rename_i h
    exact absurd (by rw [getD_single h.1, h.2]) h0
  split
  · rename_i h2 h3
    have hne : d.getD 0 0 ≠ 0 := fun h => h2 ⟨h3.1, h⟩
    rw [push_small env h3.2 hne s, ← getD_single h3.1]
  split
  · rename_i h
    exact absurd (by rw [getD_single h.1, h.2]) h81
  split
  · have hn : (UInt8.ofNat d.length).toNat = d.length := by simp; omega
    exact push_data env (t := ⟨_, d⟩) (by simp only; rw [hn]; omega) s
  split
  · exact push_data env (t := ⟨_, d⟩) (by simp) s
  split
  · exact push_data env (t := ⟨_, d⟩) (by simp) s
  · exact push_data env (t := ⟨_, d⟩) (by simp) s

/-- tokens that are not conditionals, in terms of the value byte -/
theorem not_conditional : ∀ op : UInt8, op.toNat ∉ [0x63, 0x64, 0x67, 0x68] → ∀ o, opcodes op = some o →
    o.value = op ∧ o.fn ≠ .opIf ∧ o.fn ≠ .opNotIf ∧ o.fn ≠ .opElse ∧ o.fn ≠ .opEndIf := by
  have : ∀ op : UInt8, op.toNat ∉ [0x63, 0x64, 0x67, 0x68] → (opcodes op).all (fun o => o.value == op &&
      o.fn != .opIf && o.fn != .opNotIf && o.fn != .opElse && o.fn != .opEndIf) = true := by
    apply Base58.forall_uint8; decide +kernel
  intro op h o ho
  have := this op h
  rw [ho] at this
  simp only [Option.all_some, Bool.and_eq_true, beq_iff_eq, bne_iff_ne] at this
  tauto

/-- the token is a conditional -/
def IsCond (t : Token) : Prop := t.op.toNat ∈ [0x63, 0x64, 0x67, 0x68]

instance : DecidablePred IsCond := fun _ => by unfold IsCond; infer_instance

theorem isConditional_iff {t : Token} (hs : Supported t.op) : (instrOf t).isConditional = true ↔ IsCond t := by
  unfold Instruction.isConditional IsCond
  rw [instrOf_value hs]
  simp only [Bool.or_eq_true, beq_iff_eq, List.mem_cons, List.not_mem_nil, or_false]
  have : ∀ a b : UInt8, a = b ↔ a.toNat = b.toNat := fun a b => UInt8.toNat_inj.symm
  rw [this, this, this, this]
  simp only [show (0x63 : UInt8).toNat = 0x63 from rfl, show (0x64 : UInt8).toNat = 0x64 from rfl,
    show (0x67 : UInt8).toNat = 0x67 from rfl, show (0x68 : UInt8).toNat = 0x68 from rfl]
  tauto

theorem opfunc_data (env : Env) {t : Token} (hv : t.Valid) (h : ¬ IsCond t) (vm : State) :
    opfunc env (instrOf t) vm = (dataOp env (instrOf t) vm.dstack >>= fun s => .ok { vm with dstack := s }) := by
  obtain ⟨o, ho, _⟩ := opcodes_some t.op hv.1
  obtain ⟨h1, h2, h3, h4, h5⟩ := not_conditional t.op h o ho
  have hi : instrOf t = ⟨o, t.data⟩ := by simp [instrOf, ho]
  rw [hi]
  unfold opfunc
  split <;> first | (rename_i hh; exact absurd hh (by assumption)) | rfl

theorem exec_data (env : Env) {t : Token} (hv : t.Valid) (h : ¬ IsCond t) (vm : State)
    (ha : branchShouldSkip vm = false) :
    exec env (instrOf t) vm = (dataOp env (instrOf t) vm.dstack >>= fun s => .ok { vm with dstack := s }) := by
  unfold exec
  rw [ha]
  simp only [Bool.false_and, Bool.false_eq_true, if_false]
  exact opfunc_data env hv h vm

theorem exec_skip (env : Env) {t : Token} (hv : t.Valid) (h : ¬ IsCond t) (vm : State)
    (ha : branchShouldSkip vm = true) : exec env (instrOf t) vm = .ok vm := by
  unfold exec
  have : (instrOf t).isConditional = false := by
    rw [Bool.eq_false_iff, ne_eq, isConditional_iff hv.1]; exact h
  rw [ha, this]
  rfl

theorem exec_cond (env : Env) {t : Token} (hv : t.Valid) (h : IsCond t) (vm : State) :
    exec env (instrOf t) vm = opfunc env (instrOf t) vm := by
  unfold exec
  rw [(isConditional_iff hv.1).mpr h]
  simp

end Toku.VM
