import Verif.Proof.Push
import Verif.Props.ScriptNum
/-
Properties C16 to C20: building and parsing scripts.
-/
namespace Toku.Props
open Toku Toku.Spec

open Script VM in
private theorem run_one {t : Token} (hv : t.Valid) (hl : t.data.length < 2^32) (env : Env) (vm : State)
    (h : ¬ IsCond t) (hc : vm.cstack = []) :
    execute env t.enc false vm = (dataOp env (instrOf t) vm.dstack >>= fun s => .ok { vm with dstack := s }) := by
  have he : t.enc = encTokens [t] := by simp [encTokens]
  have hlen := enc_length t
  have := lenWidth_le t.op
  rw [execute_false, he, run_tokens env (by simpa using hv) (by rw [← he]; omega)]
  simp only [execAll]
  rw [exec_data env hv h vm (by simp [branchShouldSkip, hc])]
  cases dataOp env (instrOf t) vm.dstack <;> rfl

open Script VM in
private theorem push_not_cond {d : Bytes} (h81 : d ≠ [0x81]) (hl : d.length < 2^32) : ¬ IsCond (pushToken d) := by
  intro hc
  have hv := pushToken_valid hl h81
  let env : Env := ⟨fun x => x, none, none⟩
  unfold pushToken IsCond at hc
  revert hc
  split
  · decide
  split
  · decide
  split
  · rename_i h
    exact (by apply Base58.forall_uint8; decide +kernel :
      ∀ c : UInt8, c ≤ 16 → (0x50 + c : UInt8).toNat ∉ [0x63, 0x64, 0x67, 0x68]) _ h.2
  split
  · decide
  split
  · have hn : (UInt8.ofNat d.length).toNat = d.length := by simp; omega
    simp only [hn, List.mem_cons, List.not_mem_nil, or_false]; omega
  split
  · simp
  split
  · simp
  · simp

/-- **C16 (partial).** Full statement: for every `d` shorter than 2^32 the built script is one push
instruction that leaves `d` on top of the stack. Missing: the two one-byte strings 00 and 81, for which
it is false (`C16_push_00_pushes_empty`, `C16_push_81_unreadable`). -/
theorem C16_push_partial (d : Bytes) (hl : d.length < 2^32) (h0 : d ≠ [0x00]) (h81 : d ≠ [0x81]) :
    (∃ i, Script.allInstructions (Script.addData Buffer.new d).data = .ok [i]) ∧
    ∀ (env : VM.Env) (s : VM.Stack),
      VM.execute env (Script.addData Buffer.new d).data false ⟨s, []⟩ = .ok ⟨d :: s, []⟩ := by
  have hv := VM.pushToken_valid hl h81
  have he : (Script.addData Buffer.new d).data = (VM.pushToken d).enc := by
    rw [VM.addData_data _ _ hl]; rfl
  have hd : (VM.pushToken d).data.length < 2^32 := by
    unfold VM.pushToken; split_ifs <;> simp_all
  rw [he]
  constructor
  · have := Script.enc_length (VM.pushToken d)
    have := Script.lenWidth_le (VM.pushToken d).op
    have h := Script.allInstructions_tokens (ts := [VM.pushToken d]) (by simpa using hv) (tail := []) (Or.inl rfl)
      (by simp [encTokens]; omega)
    rcases h with ⟨_, h⟩ | ⟨h, _⟩
    · simp [encTokens] at h
      exact ⟨_, h⟩
    · exact absurd h Script.not_stuck_nil
  · intro env s
    rw [run_one hv hd env ⟨s, []⟩ (push_not_cond h81 hl) rfl]
    simp only
    rw [VM.pushToken_pushes env hl h0 h81 s]
    rfl

/-- **C16, negation.** The one-byte string 00 is not pushed: the empty string is. -/
theorem C16_push_00_pushes_empty (env : VM.Env) :
    VM.execute env (Script.addData Buffer.new [0x00]).data false ⟨[], []⟩ = .ok ⟨[[]], []⟩ := rfl

/-- **C16, negation.** The script built for the one-byte string 81 cannot be parsed or executed. -/
theorem C16_push_81_unreadable (env : VM.Env) (vm : VM.State) :
    (Script.addData Buffer.new [0x81]).data = [0x4f] ∧
    Script.allInstructions [0x4f] = .err Script.errUnknown ∧
    VM.execute env [0x4f] false vm = .err Script.errUnknown := ⟨by decide +kernel, by decide +kernel, rfl⟩

open Script VM in
private theorem fn_alone : ∀ op : UInt8, Supported op → ¬ op.toNat ≤ 0x4e → ¬ (0x51 ≤ op.toNat ∧ op.toNat ≤ 0x60) →
    ∀ o, opcodes op = some o → o.fn ≠ .opFalse ∧ o.fn ≠ .opPushData ∧ o.fn ≠ .opN := by
  have : ∀ op : UInt8, Supported op → ¬ op.toNat ≤ 0x4e → ¬ (0x51 ≤ op.toNat ∧ op.toNat ≤ 0x60) →
    (opcodes op).all (fun o => o.fn != .opFalse && o.fn != .opPushData && o.fn != .opN) = true := by
    apply Base58.forall_uint8; decide +kernel
  intro op h1 h2 h3 o ho
  have := this op h1 h2 h3
  rw [ho] at this
  simpa [Bool.and_eq_true, and_assoc] using this

open VM in
private theorem opCheckSig_nil (env : Env) : ∃ e, opCheckSig env [] = .err e := by
  unfold opCheckSig
  split
  · exact ⟨_, rfl⟩
  · exact ⟨_, rfl⟩

open Script VM in
private theorem alone {env : Env} {i : Instruction} {d : Bytes} {vm : State}
    (h : opfunc env i ⟨[], []⟩ = .ok vm) (hd : vm.dstack = [d]) :
    i.op.fn = .opFalse ∨ i.op.fn = .opPushData ∨ i.op.fn = .opN := by
  unfold opfunc at h
  split at h <;> rename_i hf
  · cases h
  · cases h
  · cases h
  · cases h
  · unfold dataOp at h
    split at h <;> first
      | (left; assumption) | (right; left; assumption) | (right; right; assumption)
      | (exfalso; change Res.err _ = _ at h; cases h)
      | (exfalso; change Res.ok (⟨[], []⟩ : State) = _ at h; cases h; cases hd)
      | (exfalso; obtain ⟨e, he⟩ := opCheckSig_nil env; simp only [he, Res.err_bind] at h; cases h)

open Script VM in
private theorem pushToken_len {d : Bytes} (h : d.length = 0 ∨ (d.length = 1 ∧ d.getD 0 0 ≤ 16)) :
    1 + lenWidth (pushToken d).op + (pushToken d).data.length ≤ 1 := by
  unfold pushToken
  by_cases h0 : d.length = 0
  · rw [if_pos h0]; simp [lenWidth]
  have h1 : d.length = 1 ∧ d.getD 0 0 ≤ 16 := by tauto
  rw [if_neg h0]
  by_cases h2 : d.length = 1 ∧ d.getD 0 0 = 0
  · rw [if_pos h2]; simp [lenWidth]
  · rw [if_neg h2, if_pos h1]
    simp only
    rw [small_lenWidth _ h1.2]; simp

open Script VM in
private theorem pushToken_len_le (d : Bytes) :
    (d.length ≤ 75 → 1 + lenWidth (pushToken d).op + (pushToken d).data.length ≤ 1 + d.length) ∧
    (d.length ≤ 255 → 1 + lenWidth (pushToken d).op + (pushToken d).data.length ≤ 2 + d.length) ∧
    (d.length ≤ 65535 → 1 + lenWidth (pushToken d).op + (pushToken d).data.length ≤ 3 + d.length) ∧
    1 + lenWidth (pushToken d).op + (pushToken d).data.length ≤ 5 + d.length := by
  by_cases h : d.length = 0 ∨ (d.length = 1 ∧ d.getD 0 0 ≤ 16)
  · have := pushToken_len h
    omega
  unfold pushToken
  rw [if_neg (by tauto), if_neg (by rintro ⟨a, b⟩; rw [b] at h; exact h (Or.inr ⟨a, by decide⟩)), if_neg (by tauto)]
  split
  · simp [lenWidth]; omega
  split
  · have hn : (UInt8.ofNat d.length).toNat = d.length := by simp; omega
    have : lenWidth (UInt8.ofNat d.length) = 0 := by
      unfold lenWidth; rw [hn, if_neg (by omega), if_neg (by omega), if_neg (by omega)]
    simp only [this]; omega
  split
  · simp [lenWidth]; omega
  split
  · simp [lenWidth]; omega
  · simp [lenWidth]; omega

open Script VM in
private theorem hcond : ∀ op : UInt8, op.toNat ∈ [0x63, 0x64, 0x67, 0x68] → ∀ o, opcodes op = some o →
    o.length = 1 ∧ o.value = op ∧ (o.fn = .opIf ∨ o.fn = .opNotIf ∨ o.fn = .opElse ∨ o.fn = .opEndIf) ∧ True := by
  have : ∀ op : UInt8, op.toNat ∈ [0x63, 0x64, 0x67, 0x68] → (opcodes op).all (fun o => o.length == 1 &&
      (o.value == op && (o.fn == .opIf || o.fn == .opNotIf || o.fn == .opElse || o.fn == .opEndIf))) = true := by
    apply Base58.forall_uint8; decide +kernel
  intro op h o ho
  have := this op h
  rw [ho] at this
  simp only [Option.all_some, Bool.and_eq_true, Bool.or_eq_true, beq_iff_eq] at this
  tauto

private theorem hsmall : ∀ op : UInt8, 0x51 ≤ op.toNat ∧ op.toNat ≤ 0x60 → ∃ c : UInt8, c ≤ 16 ∧ c ≠ 0 ∧ op = 0x50 + c := by
  intro op h
  refine ⟨op - 0x50, ?_⟩
  revert op
  apply Base58.forall_uint8; decide +kernel

/-- **C16.** The push uses the shortest form: any other one-instruction script that leaves exactly `d` on
an empty stack is at least as long. -/
theorem C16_push_shortest (d : Bytes) (hl : d.length < 2^32) (env : VM.Env) (s : Bytes) (hs : s.length < 2^62)
    (i : Script.Instruction) (hi : Script.allInstructions s = .ok [i])
    (hx : VM.execute env s false ⟨[], []⟩ = .ok ⟨[d], []⟩) :
    (Script.addData Buffer.new d).data.length ≤ s.length := by
  obtain ⟨ts, tail, hv, rfl, ht⟩ := Script.tokens_exist s
  rcases Script.allInstructions_tokens hv ht hs with ⟨rfl, h⟩ | ⟨_, e, h⟩
  · rw [hi] at h
    have h := Res.ok.inj h
    have hone : ts.length = 1 := by have := congrArg List.length h; simpa using this.symm
    obtain ⟨t, rfl⟩ := List.length_eq_one_iff.mp hone
    · have hvt : t.Valid := hv t (by simp)
      have hb : (Script.addData Buffer.new d).data = (VM.pushToken d).enc := by
        rw [VM.addData_data _ _ hl]; rfl
      rw [hb, List.append_nil]
      have he : encTokens [t] = t.enc := by simp [encTokens]
      rw [List.append_nil, VM.execute_false, VM.run_tokens env hv (by simpa using hs)] at hx
      simp only [VM.execAll] at hx
      have hx' : VM.opfunc env (Script.instrOf t) ⟨[], []⟩ = .ok ⟨[d], []⟩ := by
        unfold VM.exec at hx
        simp only [VM.branchShouldSkip, Bool.false_and, Bool.false_eq_true, if_false] at hx
        cases hq : VM.opfunc env (Script.instrOf t) ⟨[], []⟩ <;> rw [hq] at hx <;> simpa using hx
      rw [he, Script.enc_length, Script.enc_length]
      obtain ⟨o, ho, hval, _⟩ := Script.opcodes_some t.op hvt.1
      have hio : Script.instrOf t = ⟨o, t.data⟩ := by simp [Script.instrOf, ho]
      have hc : ¬ VM.IsCond t := by
        intro hc
        have := VM.exec_cond env hvt hc ⟨[], []⟩
        obtain ⟨hlo, hhi, hmid, h5⟩ := hcond t.op hc o ho
        unfold VM.opfunc at hx'
        rw [hio] at hx'
        rcases hmid with e | e | e | e <;> rw [e] at hx' <;> cases hx'
      rw [VM.opfunc_data env hvt hc] at hx'
      by_cases h1 : t.op.toNat ≤ 0x4e
      · by_cases h0 : t.op.toNat = 0
        · have h0' : t.op = 0 := by rw [← UInt8.toNat_inj]; exact h0
          have hf : o.fn = .opFalse := by rw [h0'] at ho; cases ho; rfl
          have hd : d = [] := by
            rw [hio] at hx'
            unfold VM.dataOp at hx'
            simp only [hf] at hx'
            cases hx'; rfl
          have := pushToken_len (d := d) (by rw [hd]; simp)
          omega
        · rw [VM.push_data env (by omega)] at hx'
          have hd : d = t.data := by cases hx'; rfl
          obtain ⟨l1, l2, l3, l4⟩ := pushToken_len_le d
          rw [← hd]
          obtain ⟨_, hlen⟩ := hvt
          rw [← hd] at hlen
          by_cases hdir : Direct t.op
          · rw [if_pos hdir] at hlen
            have := l1 (by unfold Direct at hdir; omega)
            omega
          · rw [if_neg hdir] at hlen
            unfold Direct at hdir
            unfold lenWidth at hlen ⊢
            have h3 : t.op.toNat = 0x4c ∨ t.op.toNat = 0x4d ∨ t.op.toNat = 0x4e := by omega
            rcases h3 with h | h | h
            · simp only [h, if_true] at hlen ⊢
              have := l2 (by omega)
              unfold lenWidth at this
              omega
            · simp only [h, show ¬ (0x4d = 0x4c) by decide, if_true, if_false] at hlen ⊢
              have := l3 (by omega)
              unfold lenWidth at this
              omega
            · simp only [h, show ¬ (0x4e = 0x4c) by decide, show ¬ (0x4e = 0x4d) by decide, if_true, if_false] at hlen ⊢
              unfold lenWidth at l4
              omega
      · have hpos : 1 ≤ 1 + lenWidth t.op + t.data.length := by omega
        refine le_trans (pushToken_len ?_) hpos
        by_cases h2 : 0x51 ≤ t.op.toNat ∧ t.op.toNat ≤ 0x60
        · obtain ⟨c, hc16, hc0, hce⟩ := hsmall t.op h2
          obtain ⟨o', ho', hf, hv'⟩ := VM.fn_opN c hc16 hc0
          rw [← hce, ho] at ho'
          cases ho'
          rw [hio] at hx'
          unfold VM.dataOp at hx'
          simp only [hf, hv', VM.pushInt, VM.bytes_small c hc16 hc0] at hx'
          cases hx'
          right
          exact ⟨rfl, hc16⟩
        · obtain ⟨n1, n2, n3⟩ := fn_alone t.op hvt.1 h1 h2 o ho
          have := alone (env := env) (i := Script.instrOf t) (vm := ⟨[d], []⟩)
            (by rw [VM.opfunc_data env hvt hc]; exact hx') rfl
          rw [hio] at this
          rcases this with e | e | e
          · exact absurd e n1
          · exact absurd e n2
          · exact absurd e n3
  · rw [hi] at h; cases h

example : (Script.addData Buffer.new (List.replicate 300 7)).data.length = 303 := by decide +kernel

/-- **C17 (partial).** Full statement: for every `n` with `|n| < 2^31` the built script leaves an element
that reads back as `n`. Missing: -1, for which it is false (`C17_minus_one_unreadable`). -/
theorem C17_int_partial (n : Int) (h1 : -2^31 < n) (h2 : n < 2^31) (hm : n ≠ -1) :
    ∃ b, Script.addInt64 Buffer.new n = .ok b ∧ ∀ (env : VM.Env) (s : VM.Stack), ∃ x,
      VM.execute env b.data false ⟨s, []⟩ = .ok ⟨x :: s, []⟩ ∧ VM.popInt (x :: s) = .ok (n, s) := by
  have key : ∀ d : Bytes, ScriptNum.bytes n = .ok d → ∀ s, VM.popInt (d :: s) = .ok (n, s) := by
    intro d hd s
    obtain ⟨d', e, hmin, h8, hv⟩ := ScriptNum.bytes_spec (n := n) (by omega) (by omega)
    rw [hd] at e; cases e
    have hl4 : d.length ≤ 4 := by
      rw [ScriptNum.length_le_iff hmin 4 (by omega), hv]; norm_num; omega
    have : ScriptNum.make d 4 = .ok n := (C15_accepts_iff d 4 (by omega) n).mpr ⟨hl4, by omega, by omega, hd⟩
    unfold VM.popInt
    rw [show VM.pop (d :: s) = .ok (d, s) from rfl, Res.ok_bind]
    simp only
    rw [this]
    rfl
  unfold Script.addInt64
  by_cases hz : n = 0
  · subst hz
    rw [if_pos rfl]
    exact ⟨_, rfl, fun env s => ⟨[], rfl, key [] ScriptNum.bytes_zero s⟩⟩
  rw [if_neg hz]
  by_cases hs : n = -1 ∨ (1 ≤ n ∧ n ≤ 16)
  · rw [if_pos hs]
    have hr : 1 ≤ n ∧ n ≤ 16 := by omega
    obtain ⟨k, rfl⟩ : ∃ k : Nat, n = k := ⟨n.toNat, by omega⟩
    have hk : 1 ≤ k ∧ k ≤ 16 := by omega
    refine ⟨_, rfl, fun env s => ⟨[UInt8.ofNat k], ?_, ?_⟩⟩
    · obtain ⟨ha, hb⟩ := hk
      have : UInt8.ofNat ((0x51 : Int) + k - 1).toNat = 0x50 + UInt8.ofNat k := by
        have : ((0x51 : Int) + k - 1).toNat = 0x50 + k := by omega
        rw [this, UInt8.ofNat_add]; rfl
      have hc16 : UInt8.ofNat k ≤ 16 := by
        rw [UInt8.le_iff_toNat_le]; simp; omega
      have hc0 : UInt8.ofNat k ≠ 0 := by
        intro h
        have := congrArg UInt8.toNat h
        simp at this; omega
      obtain ⟨v1, v2⟩ := VM.small_supported _ hc16 hc0
      have hv : Token.Valid ⟨0x50 + UInt8.ofNat k, []⟩ := ⟨v1, by simp only; rw [if_neg v2, VM.small_lenWidth _ hc16]; simp⟩
      have he : (Buffer.new.writeU8 (UInt8.ofNat ((0x51 : Int) + k - 1).toNat)).data = Token.enc ⟨0x50 + UInt8.ofNat k, []⟩ := by
        rw [this]
        simp only [Token.enc, VM.small_lenWidth _ hc16]; simp [leBytes, Buffer.new, Buffer.writeU8]
      rw [he, run_one hv (by simp) env ⟨s, []⟩ ?_ rfl, VM.push_small env hc16 hc0]
      · rfl
      · unfold VM.IsCond
        exact (by apply Base58.forall_uint8; decide +kernel :
          ∀ c : UInt8, c ≤ 16 → (0x50 + c : UInt8).toNat ∉ [0x63, 0x64, 0x67, 0x68]) _ hc16
    · apply key
      have : ∀ k : Fin 17, 1 ≤ k.val → ScriptNum.bytes (k.val : Int) = .ok [UInt8.ofNat k.val] := by decide +kernel
      exact this ⟨k, by omega⟩ hk.1
  · rw [if_neg hs]
    obtain ⟨d, e, hmin, h8, hv⟩ := ScriptNum.bytes_spec (n := n) (by omega) (by omega)
    rw [e, Res.ok_bind]
    refine ⟨_, rfl, fun env s => ⟨d, ?_, key d e s⟩⟩
    apply (C16_push_partial d (by omega) ?_ ?_).2
    · rintro rfl; revert hmin; rw [← ScriptNum.checkMinimal_iff]; decide +kernel
    · rintro rfl
      have : ScriptNum.make [0x81] 8 = .ok (-1) := by decide +kernel
      have h := (C15_accepts_iff [0x81] 8 (by omega) n).mpr ⟨by simp, by omega, by omega, e⟩
      rw [this] at h
      cases h; exact hm rfl

/-- **C17, negation.** The script built for -1 cannot be executed. -/
theorem C17_minus_one_unreadable (env : VM.Env) (vm : VM.State) :
    ∃ b, Script.addInt64 Buffer.new (-1) = .ok b ∧ VM.execute env b.data false vm = .err Script.errUnknown :=
  ⟨_, rfl, rfl⟩

example : (Script.addInt64 Buffer.new (-255)).bind (fun b => .ok b.data) = .ok [0x02, 0xff, 0x80] := by decide +kernel

/-- The opcode byte and data of an instruction. -/
def tokenOf (i : Script.Instruction) : Token := ⟨i.op.value, i.data⟩

open Script in
private theorem tokenOf_instrOf {t : Token} (h : t.Valid) : tokenOf (instrOf t) = t := by
  obtain ⟨o, ho, hv, _⟩ := opcodes_some t.op h.1
  simp [tokenOf, instrOf, ho, hv]

open Script in
private theorem map_tokenOf {ts : List Token} (h : ∀ t ∈ ts, t.Valid) : (ts.map instrOf).map tokenOf = ts := by
  rw [List.map_map]
  conv_rhs => rw [← List.map_id ts]
  apply List.map_congr_left
  intro t ht
  exact tokenOf_instrOf (h t ht)

open Script in
private theorem flat_bytes {ts : List Token} (h : ∀ t ∈ ts, t.Valid) : (ts.map instrOf).flatMap Instruction.bytes = encTokens ts := by
  induction ts with
  | nil => rfl
  | cons t ts ih =>
    simp only [List.map_cons, List.flatMap_cons, encTokens]
    rw [instrOf_bytes (h t (by simp)), ih (fun t ht => h t (by simp [ht]))]
    rfl

/-- **C18.** Re-serialising the parsed instructions gives back the same bytes. -/
theorem C18_lossless (s : Bytes) (hl : s.length < 2^62) (is : List Script.Instruction)
    (h : Script.allInstructions s = .ok is) : is.flatMap Script.Instruction.bytes = s := by
  obtain ⟨ts, tail, hv, rfl, ht⟩ := Script.tokens_exist s
  rcases Script.allInstructions_tokens hv ht hl with ⟨rfl, h'⟩ | ⟨_, e, h'⟩
  · rw [h] at h'; cases h'
    rw [List.append_nil]; exact flat_bytes hv
  · rw [h] at h'; cases h'

/-- **C18.** A byte string parses to the tokens `ts` exactly when it is the encoding of the valid tokens
`ts` (supported opcode, data length expressible). -/
theorem C18_parses_iff (s : Bytes) (hl : s.length < 2^62) (ts : List Token) :
    (∃ is, Script.allInstructions s = .ok is ∧ is.map tokenOf = ts) ↔
      (∀ t ∈ ts, t.Valid) ∧ s = encTokens ts := by
  constructor
  · rintro ⟨is, h, rfl⟩
    obtain ⟨ts, tail, hv, rfl, ht⟩ := Script.tokens_exist s
    rcases Script.allInstructions_tokens hv ht hl with ⟨rfl, h'⟩ | ⟨_, e, h'⟩
    · rw [h] at h'; cases h'
      rw [map_tokenOf hv, List.append_nil]; exact ⟨hv, rfl⟩
    · rw [h] at h'; cases h'
  · rintro ⟨hv, rfl⟩
    rcases Script.allInstructions_tokens hv (tail := []) (Or.inl rfl) (by simpa using hl) with ⟨_, h'⟩ | ⟨h, _⟩
    · rw [List.append_nil] at h'
      exact ⟨_, h', map_tokenOf hv⟩
    · exact absurd h Script.not_stuck_nil

/-- **C18.** A byte string fails to parse exactly when, after some valid tokens, no token can be read:
the opcode is not supported, or the length field or the data is truncated. -/
theorem C18_fails_iff (s : Bytes) (hl : s.length < 2^62) :
    (∃ e, Script.allInstructions s = .err e) ↔
      ∃ ts tail, (∀ t ∈ ts, Token.Valid t) ∧ s = encTokens ts ++ tail ∧ Stuck tail := by
  obtain ⟨ts, tail, hv, rfl, ht⟩ := Script.tokens_exist s
  rcases Script.allInstructions_tokens hv ht hl with ⟨rfl, h'⟩ | ⟨hst, e, h'⟩
  · constructor
    · rintro ⟨e, h⟩; rw [h'] at h; cases h
    · rintro ⟨ts', tail', hv', he, hst⟩
      obtain ⟨_, rfl⟩ := Script.tokens_unique hv hv' (Or.inl rfl) (Or.inr hst) he
      exact absurd hst Script.not_stuck_nil
  · exact ⟨fun _ => ⟨ts, tail, hv, rfl, hst⟩, fun _ => ⟨e, h'⟩⟩

/-- **C18.** Parsing never panics and never runs on without end. -/
theorem C18_total (s : Bytes) (hl : s.length < 2^62) : Script.allInstructions s ≠ .panic := by
  obtain ⟨ts, tail, hv, rfl, ht⟩ := Script.tokens_exist s
  rcases Script.allInstructions_tokens hv ht hl with ⟨rfl, h'⟩ | ⟨hst, e, h'⟩ <;> rw [h'] <;> simp

example : ∃ is, Script.allInstructions [0x76, 0x4c, 0x02, 0xaa, 0xbb, 0x87] = .ok is ∧
    is.map tokenOf = [⟨0x76, []⟩, ⟨0x4c, [0xaa, 0xbb]⟩, ⟨0x87, []⟩] := ⟨_, rfl, rfl⟩
example : Stuck [0x4c, 0x03, 0xaa, 0xbb] := ⟨0x4c, _, rfl, by decide⟩

/-- **C19.** If `a` parses, then `a ++ b` parses exactly when `b` does, to the instructions of `a`
followed by those of `b`. -/
theorem C19_concat (a b : Bytes) (hl : (a ++ b).length < 2^62) (ia : List Script.Instruction)
    (ha : Script.allInstructions a = .ok ia) (is : List Script.Instruction) :
    Script.allInstructions (a ++ b) = .ok is ↔ ∃ ib, Script.allInstructions b = .ok ib ∧ is = ia ++ ib := by
  have hl' : a.length + b.length < 2^62 := by simpa using hl
  obtain ⟨ts, tail, hv, rfl, ht⟩ := Script.tokens_exist a
  rcases Script.allInstructions_tokens hv ht (by omega) with ⟨rfl, h'⟩ | ⟨_, e, h'⟩
  swap
  · rw [ha] at h'; cases h'
  rw [ha] at h'; cases h'
  obtain ⟨tb, tailb, hvb, rfl, htb⟩ := Script.tokens_exist b
  have hvv : ∀ t ∈ ts ++ tb, Token.Valid t := by
    intro t h; rcases List.mem_append.mp h with h | h
    · exact hv t h
    · exact hvb t h
  have he : encTokens ts ++ [] ++ (encTokens tb ++ tailb) = encTokens (ts ++ tb) ++ tailb := by
    simp [encTokens, List.flatMap_append]
  have hab := Script.allInstructions_tokens hvv htb (by rw [← he]; exact hl)
  have hb := Script.allInstructions_tokens hvb htb (by omega)
  rw [he]
  rcases hab with ⟨t0, hab⟩ | ⟨st, e, hab⟩
  · rcases hb with ⟨_, hb⟩ | ⟨st, _⟩
    · rw [hab, hb]
      constructor
      · intro h; cases h; exact ⟨_, rfl, by simp⟩
      · rintro ⟨ib, h, rfl⟩; cases h; simp
    · subst t0; exact absurd st Script.not_stuck_nil
  · rcases hb with ⟨t0, _⟩ | ⟨_, e', hb⟩
    · subst t0; exact absurd st Script.not_stuck_nil
    · rw [hab, hb]; simp

/-- **C20 (partial).** Full statement: every instruction with opcode `op` is removed and the others are
kept, in particular OP_CODESEPARATOR is removed. Proved for scripts that parse; a script with an opcode
the library does not support, OP_CODESEPARATOR among them, is returned unchanged
(`C20_codeseparator_kept`, `C20_unparseable_unchanged`). -/
theorem C20_removes_partial (ts : List Token) (hv : ∀ t ∈ ts, t.Valid) (hl : (encTokens ts).length < 2^62) (op : UInt8) :
    Script.removeOpcode (encTokens ts) op = .ok (encTokens (ts.filter (fun t => t.op ≠ op))) := by
  rcases Script.allInstructions_tokens hv (tail := []) (Or.inl rfl) (by simpa using hl) with ⟨_, h'⟩ | ⟨h, _⟩
  swap
  · exact absurd h Script.not_stuck_nil
  rw [List.append_nil] at h'
  unfold Script.removeOpcode
  rw [h']
  simp only
  have : (ts.map Script.instrOf).filter (fun i => i.op.value ≠ op) = (ts.filter (fun t => t.op ≠ op)).map Script.instrOf := by
    rw [List.filter_map]
    congr 1
    apply List.filter_congr
    intro t ht
    simp [Script.instrOf_value (hv t ht).1]
  rw [this, flat_bytes]
  intro t ht
  exact hv t (List.mem_filter.mp ht).1

/-- **C20.** What happens otherwise: a script that does not parse is returned unchanged. -/
theorem C20_unparseable_unchanged (s : Bytes) (op : UInt8) (e : Err) (h : Script.allInstructions s = .err e) :
    Script.removeOpcode s op = .ok s := by unfold Script.removeOpcode; rw [h]

/-- **C20.** Removing twice is removing once, on every script. -/
theorem C20_idempotent (s : Bytes) (hl : s.length < 2^62) (op : UInt8) (s' : Bytes)
    (h : Script.removeOpcode s op = .ok s') : Script.removeOpcode s' op = .ok s' := by
  obtain ⟨ts, tail, hv, rfl, ht⟩ := Script.tokens_exist s
  rcases Script.allInstructions_tokens hv ht hl with ⟨rfl, h'⟩ | ⟨hst, e, h'⟩
  · rw [List.append_nil] at hl h
    rw [C20_removes_partial ts hv hl] at h
    cases h
    have hlen : (encTokens (ts.filter (fun t => t.op ≠ op))).length ≤ (encTokens ts).length := by
      clear hv hl ht h'
      induction ts with
      | nil => simp
      | cons t ts ih =>
        rw [List.filter_cons]
        split <;> simp [encTokens] at ih ⊢ <;> omega
    rw [C20_removes_partial _ (fun t ht => hv t (List.mem_filter.mp ht).1) (by omega)]
    simp [List.filter_filter]
  · rw [C20_unparseable_unchanged _ op e h'] at h
    cases h
    exact C20_unparseable_unchanged _ op e h'

/-- **C20, negation.** OP_CODESEPARATOR is never removed: every script comes back unchanged. -/
theorem C20_codeseparator_kept (s : Bytes) (hl : s.length < 2^62) : Script.removeOpcode s 0xab = .ok s := by
  obtain ⟨ts, tail, hv, rfl, ht⟩ := Script.tokens_exist s
  rcases Script.allInstructions_tokens hv ht hl with ⟨rfl, h'⟩ | ⟨hst, e, h'⟩
  · rw [List.append_nil] at hl ⊢
    rw [C20_removes_partial ts hv hl]
    congr 2
    rw [List.filter_eq_self]
    intro t ht
    have : ¬ Supported 0xab := by decide
    simp only [ne_eq, decide_not, Bool.not_eq_true', decide_eq_false_iff_not]
    intro h
    exact this (h ▸ (hv t ht).1)
  · exact C20_unparseable_unchanged _ _ e h'

example : Script.removeOpcode [0x76, 0x02, 0x76, 0xaa, 0x76, 0x87] 0x76 = .ok [0x02, 0x76, 0xaa, 0x87] := by decide +kernel

end Toku.Props
