import Verif.Model.VM
import Verif.Proof.Script
/-
The engine loop in terms of token lists.
-/
namespace Toku.VM
open Toku.Spec Toku.Buffer Toku.Script

/-- run a list of tokens -/
def execAll (env : Env) : List Token → State → Res State
  | [], vm => .ok vm
  | t :: ts, vm => do
    let vm ← exec env (instrOf t) vm
    execAll env ts vm

theorem bind_assoc' {α β γ : Type} (x : Res α) (f : α → Res β) (g : β → Res γ) :
    ((x >>= f) >>= g) = (x >>= fun a => f a >>= g) := by cases x <;> rfl

theorem bind_ok_eta {α : Type} (x : Res α) : (x >>= fun a => .ok a) = x := by cases x <;> rfl

theorem execAll_append (env : Env) (a b : List Token) (vm : State) :
    execAll env (a ++ b) vm = (execAll env a vm >>= execAll env b) := by
  induction a generalizing vm with
  | nil => rfl
  | cons t a ih =>
    simp only [List.cons_append, execAll, bind_assoc']
    congr 1
    funext vm'
    exact ih vm'

theorem runLoop_tokens (env : Env) (ts : List Token) (hv : ∀ t ∈ ts, t.Valid) (tail : Bytes)
    (ht : tail = [] ∨ Stuck tail) :
    ∀ (b : Buffer) (fuel : Nat) (vm : State), Rd b (encTokens ts ++ tail) → ts.length < fuel →
    (tail = [] ∧ runLoop env fuel b vm = execAll env ts vm) ∨
    (Stuck tail ∧ ∃ e, runLoop env fuel b vm = (execAll env ts vm >>= fun _ => .err e)) := by
  induction ts with
  | nil =>
    intro b fuel vm h hf
    obtain ⟨f, rfl⟩ : ∃ f, fuel = f + 1 := ⟨fuel - 1, by simp at hf; omega⟩
    simp only [encTokens, List.flatMap_nil, List.nil_append] at h
    unfold runLoop
    rcases ht with rfl | ht
    · left
      rcases nextInstruction_cases h with ⟨_, e⟩ | ⟨hs, _⟩ | ⟨t, rest, b', _, e, _⟩
      · rw [e]; exact ⟨rfl, rfl⟩
      · exact absurd hs not_stuck_nil
      · simp [Token.enc] at e
    · right
      rcases nextInstruction_cases h with ⟨rfl, _⟩ | ⟨_, er, e⟩ | ⟨t, rest, b', hv, rfl, _⟩
      · exact absurd ht not_stuck_nil
      · rw [e]; exact ⟨ht, er, rfl⟩
      · exact absurd ht (not_stuck_enc hv _)
  | cons t ts ih =>
    intro b fuel vm h hf
    obtain ⟨f, rfl⟩ : ∃ f, fuel = f + 1 := ⟨fuel - 1, by simp at hf; omega⟩
    simp only [encTokens, List.flatMap_cons, List.append_assoc] at h
    have hvt := hv t (by simp)
    rcases nextInstruction_cases h with ⟨e, _⟩ | ⟨hs, _⟩ | ⟨t', rest, b', hv', e, e1, h1⟩
    · simp [Token.enc] at e
    · exact absurd hs (not_stuck_enc hvt _)
    · obtain ⟨rfl, rfl⟩ := enc_inj hvt hv' e
      unfold runLoop
      rw [e1, Res.ok_bind]
      dsimp only
      unfold execAll
      cases hx : exec env (instrOf t) vm with
      | err er =>
        rcases ht with rfl | ht
        · left; exact ⟨rfl, rfl⟩
        · right; exact ⟨ht, er, rfl⟩
      | panic =>
        rcases ht with rfl | ht
        · left; exact ⟨rfl, rfl⟩
        · right; exact ⟨ht, .hex, rfl⟩
      | ok vm' =>
        simp only [Res.ok_bind]
        exact ih (fun x hx => hv x (by simp [hx])) b' f vm' h1 (by simp at hf; omega)

/-- the loop of `execute`, on a script -/
def run (env : Env) (s : Bytes) (vm : State) : Res State := runLoop env (s.length + 1) (Buffer.reader s) vm

theorem run_tokens (env : Env) {ts : List Token} (hv : ∀ t ∈ ts, t.Valid) (hl : (encTokens ts).length < 2^62)
    (vm : State) : run env (encTokens ts) vm = execAll env ts vm := by
  have := encTokens_length_ge ts
  have hr := rd_reader _ hl
  rw [← List.append_nil (encTokens ts)] at hr
  rcases runLoop_tokens env ts hv [] (Or.inl rfl) _ ((encTokens ts).length + 1) vm hr (by omega) with ⟨_, e⟩ | ⟨h, _⟩
  · simpa [run] using e
  · exact absurd h not_stuck_nil

theorem run_stuck (env : Env) {ts : List Token} (hv : ∀ t ∈ ts, t.Valid) {tail : Bytes} (ht : Stuck tail)
    (hl : (encTokens ts ++ tail).length < 2^62) (vm : State) :
    ∃ e, run env (encTokens ts ++ tail) vm = (execAll env ts vm >>= fun _ => .err e) := by
  have := encTokens_length_ge ts
  have hr := rd_reader _ hl
  rcases runLoop_tokens env ts hv tail (Or.inr ht) _ ((encTokens ts ++ tail).length + 1) vm hr
    (by rw [List.length_append]; omega) with ⟨rfl, _⟩ | ⟨_, e⟩
  · exact absurd ht not_stuck_nil
  · exact e

/-- a successful run means that the script parses -/
theorem run_ok {env : Env} {s : Bytes} {vm vm' : State} (hl : s.length < 2^62) (h : run env s vm = .ok vm') :
    ∃ ts, (∀ t ∈ ts, t.Valid) ∧ s = encTokens ts ∧ execAll env ts vm = .ok vm' := by
  obtain ⟨ts, tail, hv, rfl, ht | ht⟩ := tokens_exist s
  · subst ht
    rw [List.append_nil] at h hl ⊢
    rw [run_tokens env hv hl] at h
    exact ⟨ts, hv, rfl, h⟩
  · obtain ⟨e, he⟩ := run_stuck env hv ht hl vm
    rw [he] at h
    cases hx : execAll env ts vm <;> rw [hx] at h <;> cases h

/-- running a parseable prefix, then the rest -/
theorem run_append (env : Env) {ts : List Token} (hv : ∀ t ∈ ts, t.Valid) (l : Bytes)
    (hl : (encTokens ts ++ l).length < 2^62) (vm : State) :
    run env (encTokens ts ++ l) vm = (execAll env ts vm >>= run env l) ∨
    ∃ e e', run env (encTokens ts ++ l) vm = (execAll env ts vm >>= fun _ => .err e) ∧
      (execAll env ts vm >>= run env l) = (execAll env ts vm >>= fun _ => .err e') := by
  obtain ⟨ts2, tail, hv2, rfl, ht | ht⟩ := tokens_exist l
  · subst ht
    left
    simp only [List.append_nil] at hl ⊢
    have e : encTokens ts ++ encTokens ts2 = encTokens (ts ++ ts2) := by simp [encTokens]
    rw [e] at hl ⊢
    have hl2 : (encTokens ts2).length < 2^62 := by
      rw [← e, List.length_append] at hl; omega
    rw [run_tokens env (by intro t h; rcases List.mem_append.mp h with h | h; exact hv t h; exact hv2 t h) hl,
      execAll_append]
    congr 1
    funext vm'
    rw [run_tokens env hv2 hl2]
  · have e : encTokens ts ++ (encTokens ts2 ++ tail) = encTokens (ts ++ ts2) ++ tail := by simp [encTokens]
    rw [e] at hl ⊢
    have hl2 : (encTokens ts2 ++ tail).length < 2^62 := by
      rw [← e, List.length_append] at hl; omega
    obtain ⟨e1, h1⟩ := run_stuck env
      (by intro t h; rcases List.mem_append.mp h with h | h; exact hv t h; exact hv2 t h) ht hl vm
    rw [h1, execAll_append, bind_assoc']
    cases hx : execAll env ts vm with
    | err er => left; rfl
    | panic => left; rfl
    | ok vm1 =>
      simp only [Res.ok_bind]
      obtain ⟨e2, h2⟩ := run_stuck env hv2 ht hl2 vm1
      rw [h2]
      cases execAll env ts2 vm1 with
      | err er => left; rfl
      | panic => left; rfl
      | ok vm2 => right; exact ⟨e1, e2, rfl, rfl⟩

theorem run_append_ok {env : Env} {ts : List Token} (hv : ∀ t ∈ ts, t.Valid) {l : Bytes}
    (hl : (encTokens ts ++ l).length < 2^62) {vm vm' : State} :
    run env (encTokens ts ++ l) vm = .ok vm' ↔ ∃ vm1, execAll env ts vm = .ok vm1 ∧ run env l vm1 = .ok vm' := by
  rcases run_append env hv l hl vm with h | ⟨e, e', h, h'⟩
  · rw [h, Res.bind_eq_ok]
  · rw [h, ← Res.bind_eq_ok, h']
    cases execAll env ts vm <;> simp

theorem execute_false (env : Env) (s : Bytes) (vm : State) : execute env s false vm = run env s vm := by
  unfold execute run
  cases runLoop env (s.length + 1) (Buffer.reader s) vm <;> rfl

/-- success of a final execution: run, then either an empty stack or a true top element, popped -/
theorem execute_true {env : Env} {s : Bytes} {vm vm' : State} : execute env s true vm = .ok vm' ↔
    ∃ vm1, run env s vm = .ok vm1 ∧
      ((vm1.dstack = [] ∧ vm' = vm1) ∨ ∃ x r, vm1.dstack = x :: r ∧ asBool x = true ∧ vm' = { vm1 with dstack := r }) := by
  unfold execute run
  cases runLoop env (s.length + 1) (Buffer.reader s) vm with
  | err e => simp
  | panic => simp
  | ok vm1 =>
    simp only [Res.ok_bind, if_true, Res.ok.injEq, exists_eq_left']
    cases hd : vm1.dstack with
    | nil =>
      simp only [List.length_nil, gt_iff_lt, Nat.lt_irrefl, if_false, Res.ok.injEq, true_and]
      constructor
      · intro h; exact Or.inl h.symm
      · rintro (h | ⟨x, r, h, _⟩)
        · exact h.symm
        · cases h
    | cons x r =>
      simp only [List.length_cons, gt_iff_lt, Nat.zero_lt_succ, if_true, popBool, pop, nipN,
        List.getElem?_cons_zero, List.eraseIdx_cons_zero, Res.ok_bind, Res.pure_eq, reduceCtorEq, false_and,
        false_or, List.cons.injEq]
      cases hb : asBool x with
      | false =>
        simp only [Bool.not_false, if_true]
        constructor
        · intro h; cases h
        · rintro ⟨y, r', ⟨rfl, rfl⟩, h, _⟩; rw [hb] at h; cases h
      | true =>
        simp only [Bool.not_true, Bool.false_eq_true, if_false, Res.ok.injEq]
        constructor
        · intro h; exact ⟨x, r, ⟨rfl, rfl⟩, hb, h.symm⟩
        · rintro ⟨y, r', ⟨rfl, rfl⟩, _, h⟩; exact h.symm

end Toku.VM
