import Verif.Proof.Bitcoin2
/-
Lists of tokens: the engine and the rules of `Spec/Bitcoin`.
-/
namespace Toku.VM
open Toku.Script Toku.Spec Toku.Spec.Bitcoin

theorem numOut_small {r : Bytes} {n : Int} (h : NumOut r n) (h1 : -2^63 < n) (h2 : n < 2^63) : r.length < 2^62 := by
  obtain ⟨hm, hv⟩ := h
  rw [numMinimal_iff] at hm
  rw [numValue_eq] at hv
  have := minimal_length hm (by omega) (by omega)
  omega

theorem ofBool_small (b : Bool) : (ofBool b).length < 2^62 := by cases b <;> decide

theorem token_data_lt {t : Token} (hv : t.Valid) : t.data.length < 2^32 := by
  have h := hv.2
  have := t.op.toNat_lt
  split at h
  · omega
  · have hw : lenWidth t.op ≤ 4 := by unfold lenWidth; split_ifs <;> omega
    have := Nat.pow_le_pow_right (n := 256) (by norm_num) hw
    norm_num at this ⊢
    omega

theorem op_small {env : Env} (hh : ∀ x, (env.hash160 x).length < 2^62) {t : Token} (hv : t.Valid) {s s' : Stack} {k : ℕ}
    (h : Op library env.hash160 (checkOf env) t s s' k) (hs : Small s) : Small s' := by
  have cons : ∀ {a : Bytes} {r : Stack}, a.length < 2^62 → Small r → Small (a :: r) := by
    intro a r ha hr x hx
    rcases List.mem_cons.mp hx with rfl | hx
    · exact ha
    · exact hr x hx
  have hd : ∀ {a : Bytes} {r : Stack}, Small (a :: r) → a.length < 2^62 ∧ Small r :=
    fun h => ⟨h _ List.mem_cons_self, fun x hx => h x (List.mem_cons_of_mem _ hx)⟩
  have hap : ∀ {l r : Stack}, Small (l ++ r) → Small r := fun h x hx => h x (List.mem_append_right _ hx)
  cases h with
  | push h => exact cons (by have := token_data_lt hv; omega) hs
  | negate => exact cons (by simp) hs
  | num h1 h2 => exact cons (by simp) hs
  | ret => exact hs
  | dup2 d a b s => exact cons (hd hs).1 (cons (hd (hd hs).2).1 hs)
  | dup3 d a b c s => exact cons (hd hs).1 (cons (hd (hd hs).2).1 (cons (hd (hd (hd hs).2).2).1 hs))
  | drop => exact (hd hs).2
  | dup => exact cons (hd hs).1 hs
  | swap => exact cons (hd (hd hs).2).1 (cons (hd hs).1 (hd (hd hs).2).2)
  | size d a s r h => exact cons (numOut_small h (by omega) (by have := (hd hs).1; omega)) hs
  | equal d a b s => exact cons (ofBool_small _) (hd (hd hs).2).2
  | equalVerify => exact (hd (hd hs).2).2
  | add d a b s m n r h1 h2 h3 =>
    have := numIn_range h1
    have := numIn_range h2
    exact cons (numOut_small h3 (by omega) (by omega)) (hd (hd hs).2).2
  | hash => exact cons (hh _) (hd hs).2
  | checkSig => exact cons (ofBool_small _) (hd (hd hs).2).2
  | checkSigVerify => exact (hd (hd hs).2).2
  | multi => exact cons (ofBool_small _) (hd (hap (hd (hap (hd hs).2)).2)).2
  | multiVerify => exact (hd (hap (hd (hap (hd hs).2)).2)).2

theorem act_small {env : Env} (hh : ∀ x, (env.hash160 x).length < 2^62) {t : Token} (hv : t.Valid) {s s' : Stack} {e e' : List Bool}
    {k : ℕ} (h : Act library env.hash160 (checkOf env) t s e s' e' k) (hs : Small s) : Small s' := by
  cases h with
  | run _ _ _ _ _ _ _ h => exact op_small hh hv h hs
  | skip => exact hs
  | ifSkipped => exact hs
  | els => exact hs
  | endif => exact hs
  | ifTrue => exact fun x hx => hs x (List.mem_cons_of_mem _ hx)
  | ifFalse => exact fun x hx => hs x (List.mem_cons_of_mem _ hx)
  | notifTrue => exact fun x hx => hs x (List.mem_cons_of_mem _ hx)
  | notifFalse => exact fun x hx => hs x (List.mem_cons_of_mem _ hx)

/-- From the engine to the rules. -/
theorem execAll_eval {env : Env} (hh : ∀ x, (env.hash160 x).length < 2^62) : ∀ (ts : List Token) (s : Stack) (cs : List Cond) (e : List Bool)
    (n : ℕ) (s' : Stack) (cs' : List Cond), (∀ t ∈ ts, t.Valid) → Conds cs e → Small s → execAll env ts ⟨s, cs⟩ = .ok ⟨s', cs'⟩ →
    ∃ e' n', Eval library env.hash160 (checkOf env) ts ⟨s, e, n⟩ ⟨s', e', n'⟩ ∧ Conds cs' e' ∧ Small s' := by
  intro ts
  induction ts with
  | nil =>
    intro s cs e n s' cs' _ hc hs h
    cases Res.ok.inj h
    exact ⟨e, n, .nil _, hc, hs⟩
  | cons t ts ih =>
    intro s cs e n s' cs' hv hc hs h
    unfold execAll at h
    rw [Res.bind_eq_ok] at h
    obtain ⟨⟨s1, cs1⟩, h1, h2⟩ := h
    have ht := hv t List.mem_cons_self
    obtain ⟨e1, k, ha, hc1⟩ := exec_act ht hc hs h1
    obtain ⟨e', n', he, hc', hs'⟩ := ih s1 cs1 e1 (n + (if 0x60 < t.op.toNat then 1 else 0) + k) s' cs'
      (fun x hx => hv x (List.mem_cons_of_mem _ hx)) hc1 (act_small hh ht ha hs) h2
    exact ⟨e', n', .cons _ _ _ _ _ _ _ _ _ ha (fun h => nomatch h) he, hc', hs'⟩

/-- From the rules to the engine. -/
theorem eval_execAll {env : Env} (hh : ∀ x, (env.hash160 x).length < 2^62) : ∀ (ts : List Token) (s : Stack) (cs : List Cond) (e : List Bool)
    (n : ℕ) (s' : Stack) (e' : List Bool) (n' : ℕ), (∀ t ∈ ts, t.Valid) → Conds cs e → Small s →
    Eval library env.hash160 (checkOf env) ts ⟨s, e, n⟩ ⟨s', e', n'⟩ →
    ∃ cs', execAll env ts ⟨s, cs⟩ = .ok ⟨s', cs'⟩ ∧ Conds cs' e' ∧ Small s' := by
  intro ts
  induction ts with
  | nil =>
    intro s cs e n s' e' n' _ hc hs h
    cases h
    exact ⟨cs, rfl, hc, hs⟩
  | cons t ts ih =>
    intro s cs e n s' e' n' hv hc hs h
    have ht := hv t List.mem_cons_self
    cases h with
    | cons _ _ _ _ _ s1 e1 k _ ha _ he =>
      obtain ⟨cs1, h1, hc1⟩ := act_exec ht hc hs ha
      obtain ⟨cs', h2, hc', hs'⟩ := ih s1 cs1 e1 _ s' e' n' (fun x hx => hv x (List.mem_cons_of_mem _ hx)) hc1 (act_small hh ht ha hs) he
      refine ⟨cs', ?_, hc', hs'⟩
      unfold execAll
      rw [h1, Res.ok_bind, h2]

theorem small_nil : Small [] := fun _ h => nomatch h

theorem conds_nil_left {e : List Bool} (h : Conds [] e) : e = [] := by cases h; rfl

theorem conds_nil_right {cs : List Cond} (h : Conds cs []) : cs = [] := by cases h; rfl

end Toku.VM
