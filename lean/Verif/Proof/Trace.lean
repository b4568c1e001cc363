import Verif.Spec.Trace
import Verif.Proof.VM3
import Verif.Proof.Disasm
/-
The engine with its log: what the log contains, and that it does not matter for the result.
-/
namespace Toku.Trace
open Toku.VM Toku.Script Toku.Spec Toku.Spec.Asm Toku.Buffer

theorem hex_eq (x : Bytes) : Id.hexEncode x = Spec.Trace.hex x := Assemble.hexEncode_shown x

theorem item_eq (x : Bytes) : itemText x = Spec.Trace.item x := by
  unfold itemText Spec.Trace.item
  cases x with
  | nil => rfl
  | cons a x => rw [if_neg (by simp), if_neg (by simp), hex_eq]

theorem stack_eq (s : Stack) : stackText s = Spec.Trace.stack s := by
  unfold stackText Spec.Trace.stack
  cases s with
  | nil => rfl
  | cons a s =>
    rw [if_neg (by simp), if_neg (by simp), List.nil_append, ← List.flatMap_def]
    congr 1
    funext x
    exact item_eq x

/-- the text of the rest of the script -/
def restText (errText : Err → Bytes) (r : Bytes) : Bytes :=
  match Assemble.disasm r with
  | .ok t => t
  | .err e => errText e
  | .panic => []

theorem disasm_cases {r : Bytes} (hl : r.length < 2^62) : (∃ t, Assemble.disasm r = .ok t) ∨ ∃ e, Assemble.disasm r = .err e := by
  by_cases h : ∃ ts, (∀ t ∈ ts, Token.Valid t) ∧ r = encTokens ts
  · obtain ⟨ts, hv, rfl⟩ := h
    exact .inl ⟨_, Assemble.disasm_tokens hv hl⟩
  · exact .inr (Assemble.disasm_stuck hl h)

theorem rd_len {b : Buffer} {r : Bytes} (h : Rd b r) : r.length < 2^62 := by
  obtain ⟨⟨_, _, h3⟩, h4⟩ := h
  rw [← h4, List.length_drop]
  omega

theorem remainingText_eq (errText : Err → Bytes) {b : Buffer} {r : Bytes} (h : Rd b r) :
    remainingText errText b = .ok (restText errText r) := by
  unfold remainingText restText
  rw [h.remaining]
  rcases disasm_cases (rd_len h) with ⟨t, e⟩ | ⟨er, e⟩ <;> rw [e]

/-- the log after a step -/
def recorded (errText : Err → Bytes) (final : Bool) (i : Instruction) (r : Bytes) (vm : State) (g : Log) : Log :=
  { g with
    lastStack := stackText vm.dstack, lastOp := name i,
    traces := if g.debug && final then g.traces ++ [⟨g.pc, name i, stackText vm.dstack, restText errText r⟩] else g.traces }

theorem record_eq (errText : Err → Bytes) (final : Bool) (i : Instruction) {b : Buffer} {r : Bytes} (h : Rd b r) (vm : State)
    (g : Log) : record errText final i b vm g = .ok (recorded errText final i r vm g) := by
  unfold record recorded
  cases hc : (g.debug && final)
  · simp
  · simp only [if_true]
    rw [remainingText_eq errText h, Res.ok_bind]
    rfl

/-- the log does not matter for the result of the loop -/
theorem runLoop_fst (env : Env) (errText : Err → Bytes) (final : Bool) : ∀ (fuel : Nat) (b : Buffer) (r : Bytes) (vm : State) (g : Log),
    Rd b r → (runLoop env errText final fuel b vm g).1 = VM.runLoop env fuel b vm := by
  intro fuel
  induction fuel with
  | zero => intros; rfl
  | succ fuel ih =>
    intro b r vm g h
    unfold runLoop VM.runLoop
    rcases nextInstruction_cases h with ⟨_, e⟩ | ⟨_, er, e⟩ | ⟨t, rest, b', hv, _, e, h'⟩
    · rw [e]; rfl
    · rw [e]; rfl
    · rw [e, Res.ok_bind]
      dsimp only
      cases hx : exec env (instrOf t) vm with
      | err er => rfl
      | panic => rfl
      | ok vm' =>
        dsimp only
        rw [record_eq errText final _ h', Res.ok_bind]
        exact ih b' rest vm' _ h'

theorem execute_fst (env : Env) (errText : Err → Bytes) (p : Bytes) (hl : p.length < 2^62) (final : Bool) (vm : State) (g : Log) :
    (execute env errText p final vm g).1 = VM.execute env p final vm := by
  unfold execute VM.execute
  dsimp only
  rw [runLoop_fst env errText final _ _ _ vm g (rd_reader p hl)]
  rfl

/-- the records of a run of tokens -/
def entries (env : Env) (errText : Err → Bytes) (tail : Bytes) : UInt64 → State → List Token → List Entry
  | _, _, [] => []
  | pc, vm, t :: ts =>
    match exec env (instrOf t) vm with
    | .ok vm' => ⟨pc + 1, name (instrOf t), stackText vm'.dstack, restText errText (encTokens ts ++ tail)⟩ ::
        entries env errText tail (pc + 1) vm' ts
    | _ => []

theorem runLoop_log (env : Env) (errText : Err → Bytes) (final : Bool) (ts : List Token) (hv : ∀ t ∈ ts, t.Valid) (tail : Bytes)
    (ht : tail = [] ∨ Stuck tail) : ∀ (b : Buffer) (fuel : Nat) (vm : State) (g : Log), Rd b (encTokens ts ++ tail) →
    ts.length < fuel →
    (runLoop env errText final fuel b vm g).2.debug = g.debug ∧
    (runLoop env errText final fuel b vm g).2.traces =
      g.traces ++ (if g.debug && final then entries env errText tail g.pc vm ts else []) ∧
    ∀ vm', (runLoop env errText final fuel b vm g).1 = .ok vm' →
      (runLoop env errText final fuel b vm g).2.pc = g.pc + UInt64.ofNat ts.length + 1 := by
  induction ts with
  | nil =>
    intro b fuel vm g h hf
    obtain ⟨f, rfl⟩ : ∃ f, fuel = f + 1 := ⟨fuel - 1, by simp at hf; omega⟩
    simp only [encTokens, List.flatMap_nil, List.nil_append] at h
    unfold runLoop
    rcases nextInstruction_cases h with ⟨_, e⟩ | ⟨_, er, e⟩ | ⟨t, rest, b', hv', e', _⟩
    · rw [e]; simp [entries]
    · rw [e]; simp [entries]
    · rcases ht with rfl | ht
      · simp [Token.enc] at e'
      · rw [e'] at ht; exact absurd ht (not_stuck_enc hv' _)
  | cons t ts ih =>
    intro b fuel vm g h hf
    obtain ⟨f, rfl⟩ : ∃ f, fuel = f + 1 := ⟨fuel - 1, by simp at hf; omega⟩
    simp only [encTokens, List.flatMap_cons, List.append_assoc] at h
    have hvt := hv t (by simp)
    rcases nextInstruction_cases h with ⟨e, _⟩ | ⟨hs, _⟩ | ⟨t', rest, b', hv', e, e1, h1⟩
    · simp [Token.enc] at e
    · exact absurd hs (not_stuck_enc hvt _)
    · obtain ⟨rfl, rfl⟩ := enc_inj hvt hv' e
      unfold runLoop
      rw [e1]
      dsimp only
      unfold entries
      cases hx : exec env (instrOf t) vm with
      | err er => simp
      | panic => simp
      | ok vm' =>
        dsimp only
        rw [record_eq errText final _ h1]
        dsimp only
        obtain ⟨i1, i2, i3⟩ := ih (fun x hx => hv x (by simp [hx])) b' f vm'
          (recorded errText final (instrOf t) (List.flatMap Token.enc ts ++ tail) vm' { g with pc := g.pc + 1 }) h1
          (by simp at hf; omega)
        refine ⟨i1, ?_, ?_⟩
        · rw [i2]
          unfold recorded
          dsimp only
          cases hc : (g.debug && final)
          · simp
          · simp [encTokens]
        · intro vm'' h2
          rw [i3 vm'' h2]
          unfold recorded
          dsimp only
          rw [List.length_cons, show UInt64.ofNat (ts.length + 1) = UInt64.ofNat ts.length + 1 from by simp]
          ac_rfl

theorem entries_get (env : Env) (errText : Err → Bytes) (tail : Bytes) (ts : List Token) : ∀ (pc : UInt64) (vm : State) (k : Nat)
    (e : Entry), (entries env errText tail pc vm ts)[k]? = some e ↔ ∃ t vm', ts[k]? = some t ∧
      execAll env (ts.take (k + 1)) vm = .ok vm' ∧ e = ⟨pc + UInt64.ofNat (k + 1), name (instrOf t), stackText vm'.dstack,
        restText errText (encTokens (ts.drop (k + 1)) ++ tail)⟩ := by
  induction ts with
  | nil => intro pc vm k e; simp [entries]
  | cons t ts ih =>
    intro pc vm k e
    unfold entries
    cases hx : exec env (instrOf t) vm with
    | err er => simp [execAll, hx]
    | panic => simp [execAll, hx]
    | ok vm' =>
      dsimp only
      cases k with
      | zero => simp [execAll, hx, eq_comm]
      | succ k =>
        rw [List.getElem?_cons_succ, ih]
        simp only [List.getElem?_cons_succ, List.take_succ_cons, execAll, hx, Res.ok_bind, List.drop_succ_cons]
        rw [show pc + 1 + UInt64.ofNat (k + 1) = pc + UInt64.ofNat (k + 1 + 1) from by
          rw [UInt64.ofNat_add (k + 1) 1, show UInt64.ofNat 1 = 1 from rfl]; ac_rfl]

/-- with debugging, a final execution appends records that tell the run -/
theorem execute_tells (env : Env) (errText : Err → Bytes) (p : Bytes) (hl : p.length < 2^62) (vm : State) (g : Log) :
    (execute env errText p true vm g).2.debug = g.debug ∧
    ∃ T, (execute env errText p true vm g).2.traces = g.traces ++ T ∧
      (g.debug = false → T = []) ∧ (g.debug = true → Spec.Trace.Tells env errText p vm g.pc.toNat T) := by
  obtain ⟨ts, tail, hv, rfl, ht⟩ := tokens_exist p
  have hge := encTokens_length_ge ts
  obtain ⟨h1, h2, _⟩ := runLoop_log env errText true ts hv tail ht _ ((encTokens ts ++ tail).length + 1) vm g (rd_reader _ hl)
    (by rw [List.length_append]; omega)
  refine ⟨h1, _, h2, fun h => by simp [h], fun h => ?_⟩
  rw [h]
  simp only [Bool.and_self, if_true]
  refine ⟨ts, tail, hv, rfl, ht, fun k e => ?_⟩
  rw [entries_get]
  refine exists_congr fun t => exists_congr fun vm' => and_congr_right fun hk => and_congr_right fun hx => ?_
  have hvt : t.Valid := hv t (List.mem_of_getElem? hk)
  have hr : (encTokens (ts.drop (k + 1)) ++ tail).length < 2^62 := by
    have e1 : encTokens ts = encTokens (ts.take (k + 1)) ++ encTokens (ts.drop (k + 1)) := by
      unfold encTokens
      rw [← List.flatMap_append, List.take_append_drop]
    rw [e1] at hl
    simp only [List.length_append] at hl ⊢
    omega
  have hn : ∀ x : Bytes, x = name (instrOf t) ↔ ∃ n, (n, t.op) ∈ table.take 114 ∧ x = ascii n.toList := by
    intro x
    obtain ⟨n, hn, en⟩ := Assemble.opName_table t.op hvt.1
    have : name (instrOf t) = ascii n.toList := by unfold name; rw [instrOf_value hvt.1, en]; rfl
    rw [this]
    constructor
    · rintro rfl; exact ⟨n, hn, rfl⟩
    · rintro ⟨m, hm, rfl⟩
      have hnd := Assemble.table_values
      have : m = n := by
        have := List.inj_on_of_nodup_map hnd hm hn rfl
        exact congrArg Prod.fst this
      rw [this]
  have hrt : ∀ x : Bytes, x = restText errText (encTokens (ts.drop (k + 1)) ++ tail) ↔
      (Assemble.disasm (encTokens (ts.drop (k + 1)) ++ tail) = .ok x ∨
      ∃ er, Assemble.disasm (encTokens (ts.drop (k + 1)) ++ tail) = .err er ∧ x = errText er) := by
    intro x
    unfold restText
    rcases disasm_cases hr with ⟨t, e⟩ | ⟨er, e⟩ <;> rw [e] <;> simp [eq_comm]
  have hp : g.pc + UInt64.ofNat (k + 1) = UInt64.ofNat (g.pc.toNat + (k + 1)) := by
    rw [UInt64.ofNat_add g.pc.toNat, UInt64.ofNat_toNat]
  rw [← hn, ← hrt, ← hp, ← stack_eq]
  cases e
  simp

/-- the unlocking pass is not recorded -/
theorem execute_first (env : Env) (errText : Err → Bytes) (p : Bytes) (hl : p.length < 2^62) (vm : State) (g : Log) :
    (execute env errText p false vm g).2.debug = g.debug ∧ (execute env errText p false vm g).2.traces = g.traces ∧
    ∀ vm', (execute env errText p false vm g).1 = .ok vm' → ∃ n, Spec.Trace.Count p n ∧
      (execute env errText p false vm g).2.pc = UInt64.ofNat (g.pc.toNat + n + 1) := by
  have hfst := execute_fst env errText p hl false vm g
  obtain ⟨ts, tail, hv, rfl, ht⟩ := tokens_exist p
  have hge := encTokens_length_ge ts
  obtain ⟨h1, h2, h3⟩ := runLoop_log env errText false ts hv tail ht _ ((encTokens ts ++ tail).length + 1) vm g (rd_reader _ hl)
    (by rw [List.length_append]; omega)
  refine ⟨h1, ?_, fun vm' h => ?_⟩
  · rw [Bool.and_false, if_neg (by simp), List.append_nil] at h2
    exact h2
  have hrun := h
  rw [hfst, VM.execute_false] at hrun
  obtain ⟨ts', hv', e', _⟩ := run_ok hl hrun
  have htail : tail = [] := by
    rcases ht with h | h
    · exact h
    · exfalso
      rw [← List.append_nil (encTokens ts')] at e'
      obtain ⟨_, e2⟩ := tokens_unique hv hv' (.inr h) (.inl rfl) e'
      rw [e2] at h
      exact not_stuck_nil h
  subst htail
  refine ⟨ts.length, ⟨ts, hv, by simp, rfl⟩, ?_⟩
  have hr : (runLoop env errText false ((encTokens ts ++ []).length + 1) (Buffer.reader (encTokens ts ++ [])) vm g).1 = .ok vm' := by
    unfold execute at h
    dsimp only at h
    rw [Res.bind_eq_ok] at h
    obtain ⟨vm1, h5, h6⟩ := h
    rw [h5]
    exact h6
  have := h3 vm' hr
  unfold execute
  dsimp only
  rw [this, UInt64.ofNat_add, UInt64.ofNat_add, UInt64.ofNat_toNat]
  rfl

end Toku.Trace
