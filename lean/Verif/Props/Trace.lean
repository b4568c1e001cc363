import Verif.Proof.Trace
import Verif.Props.VM
/-
C101: tracing.
-/
namespace Toku.Props
open Toku.VM Toku.Spec Toku.Spec.Trace Toku.Trace

private theorem run_small {env : Env} (hh : ∀ x, (env.hash160 x).length < 2^62) {s : Bytes} (hl : s.length < 2^62)
    {vm vm' : State} (hs : SmallStack vm.dstack) (h : run env s vm = .ok vm') : SmallStack vm'.dstack := by
  obtain ⟨ts, hv, rfl, h'⟩ := run_ok hl h
  exact execAll_small hh hv (fun t ht => by have := data_le_enc ht; omega) hs h'

/-- **C101.** Whatever the log, debugging on or off, and whatever the texts of errors: the result of Verify is that of the engine
without any log. -/
theorem C101_verdict (env : Env) (hh : ∀ x, (env.hash160 x).length < 2^62) (errText : Err → Bytes) (u l : Bytes)
    (hl : (u ++ l).length < 2^62) (vm : State) (hs : SmallStack vm.dstack) (g : Log) :
    (Trace.verify env errText u l vm g).1 = VM.verify env u l vm := by
  have hu : u.length < 2^62 := by rw [List.length_append] at hl; omega
  have f1 := execute_fst env errText u hu false vm g
  unfold Trace.verify VM.verify
  revert f1
  rcases Trace.execute env errText u false vm g with ⟨r1, g1⟩
  rintro f1
  dsimp only at f1
  rw [← f1]
  cases r1 with
  | err e => rfl
  | panic => rfl
  | ok vm1 =>
    rw [Res.ok_bind]
    dsimp only
    have f2 := execute_fst env errText (u ++ l) hl true (reset vm1) g1
    revert f2
    rcases Trace.execute env errText (u ++ l) true (reset vm1) g1 with ⟨r2, g2⟩
    rintro f2
    dsimp only at f2
    rw [← f2]
    cases r2 with
    | err e => rfl
    | panic => rfl
    | ok vm2 =>
      rw [Res.ok_bind]
      dsimp only
      unfold Trace.redeem
      split
      · cases hd : vm1.dstack with
        | nil => rfl
        | cons a r =>
          have hp : VM.pop (a :: r) = .ok (a, r) := rfl
          rw [hp, Res.ok_bind]
          dsimp only
          rw [execute_false] at f1
          have hsm := run_small hh hu hs f1.symm
          rw [hd] at hsm
          exact execute_fst env errText a (hsm a (by simp)) true _ g2
      · rfl

/-- **C101.** Without debugging nothing is recorded. -/
theorem C101_off (env : Env) (hh : ∀ x, (env.hash160 x).length < 2^62) (errText : Err → Bytes) (u l : Bytes)
    (hl : (u ++ l).length < 2^62) (vm : State) (hs : SmallStack vm.dstack) (g : Log) (hg : g.debug = false) :
    (Trace.verify env errText u l vm g).2.traces = g.traces := by
  have hu : u.length < 2^62 := by rw [List.length_append] at hl; omega
  have f1 := execute_fst env errText u hu false vm g
  obtain ⟨d1, t1, _⟩ := execute_first env errText u hu vm g
  unfold Trace.verify
  revert f1 d1 t1
  rcases Trace.execute env errText u false vm g with ⟨r1, g1⟩
  rintro f1 d1 t1
  dsimp only at f1 d1 t1
  cases r1 with
  | err e => exact t1
  | panic => exact t1
  | ok vm1 =>
    dsimp only
    obtain ⟨d2, T2, e2, n2, _⟩ := execute_tells env errText (u ++ l) hl (reset vm1) g1
    rw [n2 (by rw [d1, hg]), List.append_nil] at e2
    revert d2 e2
    rcases Trace.execute env errText (u ++ l) true (reset vm1) g1 with ⟨r2, g2⟩
    intro d2 e2
    dsimp only at d2 e2
    cases r2 with
    | err e => exact e2.trans t1
    | panic => exact e2.trans t1
    | ok vm2 =>
      dsimp only
      unfold Trace.redeem
      split
      · cases hd : vm1.dstack with
        | nil => exact e2.trans t1
        | cons a r =>
          have hp : VM.pop (a :: r) = .ok (a, r) := rfl
          rw [hp]
          dsimp only
          rw [execute_false] at f1
          have hsm := run_small hh hu hs f1.symm
          rw [hd] at hsm
          obtain ⟨_, T3, e3, n3, _⟩ := execute_tells env errText a (hsm a (by simp)) { vm2 with dstack := r } g2
          rw [n3 (by rw [d2, d1, hg]), List.append_nil] at e3
          exact e3.trans (e2.trans t1)
      · exact e2.trans t1

/-- **C101.** With debugging, Verify appends to the records those that tell the run of unlocking script and locking script, then
those that tell the run of a redeem script if there is one. If the unlocking script fails by itself nothing is recorded. The
steps are counted from the start of the unlocking script, and reading its end counts as one. -/
theorem C101_records (env : Env) (hh : ∀ x, (env.hash160 x).length < 2^62) (errText : Err → Bytes) (u l : Bytes)
    (hl : (u ++ l).length < 2^62) (vm : State) (hs : SmallStack vm.dstack) (g : Log) (hg : g.debug = true) :
    ((∀ vm1, VM.execute env u false vm ≠ .ok vm1) ∧ (Trace.verify env errText u l vm g).2.traces = g.traces) ∨
    ∃ vm1 n T, VM.execute env u false vm = .ok vm1 ∧ Count u n ∧
      Tells env errText (u ++ l) ⟨[], vm1.cstack⟩ (UInt64.ofNat (g.pc.toNat + n + 1)).toNat T ∧
      ((∃ vm2 r rest pc T', VM.execute env (u ++ l) true ⟨[], vm1.cstack⟩ = .ok vm2 ∧ vm2.dstack.length > 1 ∧
          vm1.dstack = r :: rest ∧ Tells env errText r ⟨rest, vm2.cstack⟩ pc T' ∧
          (Trace.verify env errText u l vm g).2.traces = g.traces ++ T ++ T') ∨
       ((∀ vm2, VM.execute env (u ++ l) true ⟨[], vm1.cstack⟩ = .ok vm2 → vm2.dstack.length > 1 → vm1.dstack = []) ∧
          (Trace.verify env errText u l vm g).2.traces = g.traces ++ T)) := by
  have hu : u.length < 2^62 := by rw [List.length_append] at hl; omega
  have f1 := execute_fst env errText u hu false vm g
  obtain ⟨d1, t1, c1⟩ := execute_first env errText u hu vm g
  unfold Trace.verify
  revert f1 d1 t1 c1
  rcases Trace.execute env errText u false vm g with ⟨r1, g1⟩
  rintro f1 d1 t1 c1
  dsimp only at f1 d1 t1 c1
  cases r1 with
  | err e => left; rw [← f1]; exact ⟨by simp, t1⟩
  | panic => left; rw [← f1]; exact ⟨by simp, t1⟩
  | ok vm1 =>
    right
    dsimp only
    obtain ⟨n, hn, hpc⟩ := c1 vm1 rfl
    obtain ⟨d2, T2, e2, _, n2⟩ := execute_tells env errText (u ++ l) hl (reset vm1) g1
    have n2 := n2 (by rw [d1, hg])
    rw [t1] at e2
    rw [hpc] at n2
    refine ⟨vm1, n, T2, f1.symm, hn, n2, ?_⟩
    have f2 := execute_fst env errText (u ++ l) hl true (reset vm1) g1
    change _ = VM.execute env (u ++ l) true ⟨[], vm1.cstack⟩ at f2
    revert d2 e2 f2
    rcases Trace.execute env errText (u ++ l) true (reset vm1) g1 with ⟨r2, g2⟩
    intro d2 e2 f2
    dsimp only at d2 e2 f2
    rw [← f2]
    cases r2 with
    | err e => right; exact ⟨by simp, e2⟩
    | panic => right; exact ⟨by simp, e2⟩
    | ok vm2 =>
      dsimp only
      unfold Trace.redeem
      split
      · next hlen =>
        cases hd : vm1.dstack with
        | nil => right; exact ⟨fun _ _ _ => rfl, e2⟩
        | cons a r =>
          left
          have hp : VM.pop (a :: r) = .ok (a, r) := rfl
          rw [hp]
          dsimp only
          rw [execute_false] at f1
          have hsm := run_small hh hu hs f1.symm
          rw [hd] at hsm
          obtain ⟨_, T3, e3, _, n3⟩ := execute_tells env errText a (hsm a (by simp)) { vm2 with dstack := r } g2
          exact ⟨vm2, a, r, _, T3, rfl, hlen, rfl, n3 (by rw [d2, d1, hg]), by rw [e3, e2]⟩
      · next hlen => right; exact ⟨fun vm3 h3 h4 => by cases h3; exact absurd h4 hlen, e2⟩

/-- **C101, negation.** A record does not mean that the instruction was executed: in `0 IF RETURN ENDIF 1` the instruction
OP_RETURN is in a branch that is not taken, and has a record like the others. -/
theorem C101_skipped_recorded :
    (Trace.verify toyEnv (fun _ => []) [] [0x00, 0x63, 0x6a, 0x68, 0x51] fresh (enableDebug newLog)).2.traces.map (·.executed) =
      ["OP_0", "OP_IF", "OP_RETURN", "OP_ENDIF", "OP_1"].map (ascii ·.toList) := by decide +kernel

/-- **C101, negation.** The records of a fresh engine are not numbered from 1: for the unlocking script `1 DROP` and the locking
script `1` the three records have the numbers 4 to 6. -/
theorem C101_step_numbers :
    (Trace.verify toyEnv (fun _ => []) [0x51, 0x75] [0x51] fresh (enableDebug newLog)).2.traces.map (·.step) = [4, 5, 6] := by
  decide +kernel

private theorem hex_cons (a : UInt8) (x : Bytes) : Id.hexEncode (a :: x) =
    Id.hexDigit (a.toNat / 16) :: Id.hexDigit (a.toNat % 16) :: Id.hexEncode x := rfl

private theorem digit_ne : ∀ n : Fin 16, Id.hexDigit n.val ≠ 0x3e := by decide +kernel

private theorem hex_no_bracket (x : Bytes) : (0x3e : UInt8) ∉ Id.hexEncode x := by
  induction x with
  | nil => simp [Id.hexEncode]
  | cons a x ih =>
    have ha := a.toNat_lt
    rw [hex_cons]
    intro h
    rcases List.mem_cons.mp h with h | h
    · exact digit_ne ⟨a.toNat / 16, by omega⟩ h.symm
    rcases List.mem_cons.mp h with h | h
    · exact digit_ne ⟨a.toNat % 16, by omega⟩ h.symm
    · exact ih h

/-- what stands between the brackets -/
private def inner (x : Bytes) : Bytes := if x = [] then ascii "empty".toList else Id.hexEncode x

private theorem inner_no_bracket (x : Bytes) : (0x3e : UInt8) ∉ inner x := by
  unfold inner
  split
  · decide
  · exact hex_no_bracket x

private theorem inner_inj {x y : Bytes} (h : inner x = inner y) : x = y := by
  have hm : ∀ a x, Id.hexEncode (a :: x) ≠ ascii "empty".toList := by
    intro a x h
    have := congrArg (fun l : Bytes => l.length % 2) h
    have hl : ∀ x : Bytes, (Id.hexEncode x).length % 2 = 0 := by
      intro x
      induction x with
      | nil => rfl
      | cons a x ih => rw [hex_cons]; simp only [List.length_cons]; omega
    simp only [hl] at this
    revert this
    decide
  unfold inner at h
  cases x with
  | nil =>
    cases y with
    | nil => rfl
    | cons b y => rw [if_pos rfl, if_neg (by simp)] at h; exact absurd h.symm (hm b y)
  | cons a x =>
    cases y with
    | nil => rw [if_pos rfl, if_neg (by simp)] at h; exact absurd h (hm a x)
    | cons b y => rw [if_neg (by simp), if_neg (by simp)] at h; exact Assemble.hexEncode_inj h

private theorem item_inner (x : Bytes) : itemText x = 0x20 :: 0x3c :: (inner x ++ [0x3e, 0x20]) := by
  unfold itemText inner
  cases x with
  | nil => rfl
  | cons a x => rw [if_neg (by simp), if_neg (by simp)]; rfl

private theorem cut {a b r r' : Bytes} (ha : (0x3e : UInt8) ∉ a) (hb : (0x3e : UInt8) ∉ b) (h : a ++ 0x3e :: r = b ++ 0x3e :: r') :
    a = b ∧ r = r' := by
  induction a generalizing b with
  | nil =>
    cases b with
    | nil => exact ⟨rfl, (List.cons.inj h).2⟩
    | cons c b => simp only [List.nil_append, List.cons_append, List.cons.injEq] at h; exact absurd (by simp [h.1]) hb
  | cons c a ih =>
    cases b with
    | nil => simp only [List.nil_append, List.cons_append, List.cons.injEq] at h; exact absurd (by simp [← h.1]) ha
    | cons d b =>
      simp only [List.cons_append, List.cons.injEq] at h
      obtain ⟨rfl, h⟩ := h
      obtain ⟨rfl, h2⟩ := ih (fun m => ha (by simp [m])) (fun m => hb (by simp [m])) h
      exact ⟨rfl, h2⟩

private theorem items_inj {s s' : List Bytes} (h : s.flatMap itemText = s'.flatMap itemText) : s = s' := by
  induction s generalizing s' with
  | nil =>
    cases s' with
    | nil => rfl
    | cons y s' => rw [List.flatMap_nil, List.flatMap_cons, item_inner] at h; cases h
  | cons x s ih =>
    cases s' with
    | nil => rw [List.flatMap_nil, List.flatMap_cons, item_inner] at h; cases h
    | cons y s' =>
      rw [List.flatMap_cons, List.flatMap_cons, item_inner, item_inner] at h
      simp only [List.cons_append, List.append_assoc, List.cons.injEq, true_and] at h
      obtain ⟨h1, h2⟩ := cut (inner_no_bracket x) (inner_no_bracket y) h
      rw [inner_inj h1]
      simp only [List.nil_append, List.cons.injEq, true_and] at h2
      rw [ih h2]

/-- **C101.** The text of a stack determines the stack, with one exception: the empty stack and the stack with one empty item
have the same text. -/
theorem C101_stack_text (s s' : Stack) : stackText s = stackText s' ↔ s = s' ∨ (s = [] ∧ s' = [[]]) ∨ (s = [[]] ∧ s' = []) := by
  have key : ∀ t : Stack, stackText t = (if t = [] then [[]] else t).reverse.flatMap itemText := by
    intro t
    unfold stackText
    cases t with
    | nil => rfl
    | cons a t => rw [if_neg (by simp), if_neg (by simp)]; rfl
  rw [key, key]
  constructor
  · intro h
    have h := List.reverse_injective (items_inj h)
    by_cases h1 : s = [] <;> by_cases h2 : s' = []
    · left; rw [h1, h2]
    · rw [if_pos h1, if_neg h2] at h; right; left; exact ⟨h1, h.symm⟩
    · rw [if_neg h1, if_pos h2] at h; right; right; exact ⟨h, h2⟩
    · rw [if_neg h1, if_neg h2] at h; left; exact h
  · rintro (rfl | ⟨rfl, rfl⟩ | ⟨rfl, rfl⟩) <;> rfl

/-- A P2PKH-like run with debugging: the records. -/
example : (Trace.verify toyEnv (fun _ => ascii "error".toList) [0x52] [0x53, 0x93, 0x55, 0x87, 0x50] fresh (enableDebug newLog)).2.traces =
    [⟨3, ascii "OP_2".toList, ascii " <02> ".toList, ascii "error".toList⟩,
     ⟨4, ascii "OP_3".toList, ascii " <02>  <03> ".toList, ascii "error".toList⟩,
     ⟨5, ascii "OP_ADD".toList, ascii " <05> ".toList, ascii "error".toList⟩,
     ⟨6, ascii "OP_5".toList, ascii " <05>  <05> ".toList, ascii "error".toList⟩,
     ⟨7, ascii "OP_EQUAL".toList, ascii " <01> ".toList, ascii "error".toList⟩] := by decide +kernel
/-- A redeem script is recorded after the locking script. -/
example : (Trace.verify toyEnv (fun _ => []) [0x51, 0x51, 0x01, 0x51] [0x51] fresh (enableDebug newLog)).2.traces.length = 5 := by
  decide +kernel
example : (∀ x, (toyEnv.hash160 x).length < 2^62) ∧ SmallStack fresh.dstack ∧ (enableDebug newLog).debug = true ∧
    Count [0x51, 0x75] 2 := by
  refine ⟨fun x => ?_, (by intro x hx; cases hx), rfl, ⟨[⟨0x51, []⟩, ⟨0x75, []⟩], ?_, rfl, rfl⟩⟩
  · have := List.length_take_le 20 x
    change (x.take 20).length < _
    omega
  · intro t ht
    simp only [List.mem_cons, List.not_mem_nil, or_false] at ht
    rcases ht with rfl | rfl <;> (unfold Token.Valid; decide)

end Toku.Props
