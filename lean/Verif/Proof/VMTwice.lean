import Verif.Proof.VM2
/-
The second pass of Verify over the unlocking script: it does what the first did, below conditionals that stay as they are.
-/
namespace Toku.VM
open Toku.Spec Toku.Buffer Toku.Script

/-- the four kinds of tokens -/
theorem token_cases {t : Token} (hv : t.Valid) :
    (∃ neg : Bool, t = ⟨if neg then 0x64 else 0x63, []⟩) ∨ t = ⟨0x67, []⟩ ∨ t = ⟨0x68, []⟩ ∨ ¬ IsCond t := by
  by_cases h1 : isIf t = true
  · exact .inl (isIf_cases hv h1)
  · by_cases h2 : isElse t = true
    · have ho : t.op = 0x67 := by simpa [isElse] using h2
      have hd := data_nil hv (Or.inl ho)
      obtain ⟨op, d⟩ := t
      simp only at ho hd; subst ho; subst hd
      exact .inr (.inl rfl)
    · by_cases h3 : isEndIf t = true
      · have ho : t.op = 0x68 := by simpa [isEndIf] using h3
        have hd := data_nil hv (Or.inr ho)
        obtain ⟨op, d⟩ := t
        simp only at ho hd; subst ho; subst hd
        exact .inr (.inr (.inl rfl))
      · exact .inr (.inr (.inr (by rw [isCond_iff]; tauto)))

/-- running above conditionals that are all being executed -/
theorem exec_above {env : Env} {t : Token} (hv : t.Valid) {base : List Cond} (hb : ∀ d, branchShouldSkip ⟨d, base⟩ = false)
    {d d' : Stack} {cs cs' : List Cond} (h : exec env (instrOf t) ⟨d, cs⟩ = .ok ⟨d', cs'⟩) :
    exec env (instrOf t) ⟨d, cs ++ base⟩ = .ok ⟨d', cs' ++ base⟩ := by
  have hs : branchShouldSkip ⟨d, cs ++ base⟩ = branchShouldSkip ⟨d, cs⟩ := by
    cases cs with
    | nil => rw [List.nil_append, hb]; rfl
    | cons c cs => rfl
  rcases token_cases hv with ⟨neg, rfl⟩ | rfl | rfl | hc
  · rw [exec_cond_neg] at h ⊢
    unfold opIf at h ⊢
    rw [hs]
    split
    · rename_i hq
      rw [if_pos hq, Res.bind_eq_ok] at h
      obtain ⟨⟨ok, s⟩, h1, h2⟩ := h
      rw [h1, Res.ok_bind]
      cases h2; rfl
    · rename_i hq
      rw [if_neg hq] at h
      cases h; rfl
  · rw [exec_else] at h ⊢
    cases cs with
    | nil => cases h
    | cons c cs => cases c <;> cases h <;> rfl
  · rw [exec_endif] at h ⊢
    cases cs with
    | nil => cases h
    | cons c cs => cases h; rfl
  · by_cases hq : branchShouldSkip ⟨d, cs⟩ = true
    · rw [exec_skip env hv hc _ hq] at h
      rw [exec_skip env hv hc _ (by rw [hs]; exact hq)]
      cases h; rfl
    · rw [exec_data env hv hc _ (by simpa using hq), Res.bind_eq_ok] at h
      obtain ⟨s, h1, h2⟩ := h
      rw [exec_data env hv hc _ (by rw [hs]; simpa using hq), h1, Res.ok_bind]
      cases h2; rfl

/-- running above conditionals that are skipped -/
theorem exec_below {env : Env} {t : Token} (hv : t.Valid) {base : List Cond} (hb : ∀ d, branchShouldSkip ⟨d, base⟩ = true)
    (x : Stack) {d d' : Stack} {cs cs' : List Cond} (h : exec env (instrOf t) ⟨d, cs⟩ = .ok ⟨d', cs'⟩) :
    exec env (instrOf t) ⟨x, List.replicate cs.length .skip ++ base⟩ = .ok ⟨x, List.replicate cs'.length .skip ++ base⟩ := by
  have hs : ∀ n, branchShouldSkip ⟨x, List.replicate n .skip ++ base⟩ = true := by
    intro n
    cases n with
    | zero => exact hb x
    | succ n => rfl
  rcases token_cases hv with ⟨neg, rfl⟩ | rfl | rfl | hc
  · rw [exec_cond_neg] at h ⊢
    have hn : cs'.length = cs.length + 1 := by
      unfold opIf at h
      split at h
      · rw [Res.bind_eq_ok] at h
        obtain ⟨⟨ok, s⟩, h1, h2⟩ := h
        cases h2; rfl
      · cases h; rfl
    unfold opIf
    rw [hs, hn]
    rfl
  · rw [exec_else] at h ⊢
    cases cs with
    | nil => cases h
    | cons c cs => cases c <;> cases h <;> rfl
  · rw [exec_endif] at h ⊢
    cases cs with
    | nil => cases h
    | cons c cs => cases h; rfl
  · have hn : cs' = cs := by
      by_cases hq : branchShouldSkip ⟨d, cs⟩ = true
      · rw [exec_skip env hv hc _ hq] at h
        cases h; rfl
      · rw [exec_data env hv hc _ (by simpa using hq), Res.bind_eq_ok] at h
        obtain ⟨s, h1, h2⟩ := h
        cases h2; rfl
    rw [exec_skip env hv hc _ (hs _), hn]

theorem execAll_above {env : Env} {base : List Cond} (hb : ∀ d, branchShouldSkip ⟨d, base⟩ = false) :
    ∀ {ts : List Token}, (∀ t ∈ ts, t.Valid) → ∀ {d d' : Stack} {cs cs' : List Cond},
      execAll env ts ⟨d, cs⟩ = .ok ⟨d', cs'⟩ → execAll env ts ⟨d, cs ++ base⟩ = .ok ⟨d', cs' ++ base⟩
  | [], _, d, d', cs, cs', h => by cases h; rfl
  | t :: ts, hv, d, d', cs, cs', h => by
    simp only [execAll, Res.bind_eq_ok] at h ⊢
    obtain ⟨⟨d1, c1⟩, h1, h2⟩ := h
    exact ⟨_, exec_above (hv t (by simp)) hb h1, execAll_above hb (fun t ht => hv t (by simp [ht])) h2⟩

theorem execAll_below {env : Env} {base : List Cond} (hb : ∀ d, branchShouldSkip ⟨d, base⟩ = true) (x : Stack) :
    ∀ {ts : List Token}, (∀ t ∈ ts, t.Valid) → ∀ {d d' : Stack} {cs cs' : List Cond},
      execAll env ts ⟨d, cs⟩ = .ok ⟨d', cs'⟩ →
      execAll env ts ⟨x, List.replicate cs.length .skip ++ base⟩ = .ok ⟨x, List.replicate cs'.length .skip ++ base⟩
  | [], _, d, d', cs, cs', h => by cases h; rfl
  | t :: ts, hv, d, d', cs, cs', h => by
    simp only [execAll, Res.bind_eq_ok] at h ⊢
    obtain ⟨⟨d1, c1⟩, h1, h2⟩ := h
    exact ⟨_, exec_below (hv t (by simp)) hb x h1, execAll_below hb x (fun t ht => hv t (by simp [ht])) h2⟩

/-- What the second pass over a script leaves if the first left `vm`: the same values if the first ended in a branch that is
executed, none if it ended in a branch that is skipped; and twice as many open conditionals. -/
def again (vm : State) : State :=
  if branchShouldSkip vm then ⟨[], List.replicate vm.cstack.length .skip ++ vm.cstack⟩
  else ⟨vm.dstack, vm.cstack ++ vm.cstack⟩

theorem skip_stack (d d' : Stack) (cs : List Cond) : branchShouldSkip ⟨d, cs⟩ = branchShouldSkip ⟨d', cs⟩ := rfl

theorem execAll_again {env : Env} {ts : List Token} (hv : ∀ t ∈ ts, t.Valid) {vm : State}
    (h : execAll env ts fresh = .ok vm) : execAll env ts ⟨[], vm.cstack⟩ = .ok (again vm) := by
  obtain ⟨d, cs⟩ := vm
  unfold again
  cases hs : branchShouldSkip ⟨d, cs⟩ with
  | true =>
    rw [if_pos rfl]
    exact execAll_below (fun d' => by rw [skip_stack d' d]; exact hs) [] hv h
  | false =>
    rw [if_neg (by decide)]
    exact execAll_above (fun d' => by rw [skip_stack d' d]; exact hs) hv h

/-- running above/below leaves "is the end skipped" as it was -/
theorem again_skip (vm : State) : branchShouldSkip (again vm) = branchShouldSkip vm := by
  obtain ⟨d, cs⟩ := vm
  unfold again
  cases hs : branchShouldSkip ⟨d, cs⟩ with
  | true =>
    rw [if_pos rfl]
    cases cs with
    | nil => exact absurd hs (by simp [branchShouldSkip])
    | cons c cs => rfl
  | false =>
    rw [if_neg (by decide)]
    cases cs with
    | nil => rfl
    | cons c cs => exact hs

end Toku.VM
