import Verif.Proof.Bitcoin4
import Verif.Props.VM
/-
Property C124: the script engine (xvm) against the script rules of Bitcoin. Spec/Bitcoin.lean has the rules, as relations;
`consensus` are the ones every node enforces, `library` are the ones this engine follows.
-/
namespace Toku.Props
open Toku Toku.Spec Toku.VM Toku.Script
open Toku.Spec.Bitcoin (Rules Stricter Eval EvalScript IsP2SH VerifyScript Truthy consensus library isCond Op Act NumIn NumOut)

/-- **C124.** Running a script with the engine is EvalScript of Bitcoin under the rules `library`: the engine comes to the
stack `s'` with all conditionals closed exactly if those rules allow it. -/
theorem C124_run (env : Env) (hh : ∀ x, (env.hash160 x).length < 2^62) {ts : List Token} (hv : ∀ t ∈ ts, t.Valid)
    (hl : (encTokens ts).length < 2^62) {s : Stack} (hs : Small s) (s' : Stack) :
    execute env (encTokens ts) false ⟨s, []⟩ = .ok ⟨s', []⟩ ↔ EvalScript library env.hash160 (checkOf env) ts s s' := by
  rw [execute_false, run_tokens env hv hl]
  constructor
  · intro h
    obtain ⟨e', n', he, hc, _⟩ := execAll_eval hh ts s [] [] 0 s' [] hv .nil hs h
    rw [conds_nil_left hc] at he
    exact ⟨(fun h => nomatch h), n', he⟩
  · rintro ⟨_, n, he⟩
    obtain ⟨cs', h, hc, _⟩ := eval_execAll hh ts s [] [] 0 s' [] n hv .nil hs he
    rw [conds_nil_right hc] at h
    exact h

/-- **C124.** What the engine accepts, exactly. The unlocking script runs; then the unlocking script followed by the
locking script runs on an empty stack but with the conditionals that the first run left open; the stack is then empty or has
a true element on top; and if more than one element is below that, the last thing that the first run pushed is run as a
script on what it left below. -/
theorem C124_verify (env : Env) (hh : ∀ x, (env.hash160 x).length < 2^62) {u l : List Token} (hu : ∀ t ∈ u, t.Valid)
    (hl : ∀ t ∈ l, t.Valid) (hlen : (encTokens (u ++ l)).length < 2^62) :
    (∃ vm, verify env (encTokens u) (encTokens l) fresh = .ok vm) ↔
    ∃ s1 e1 n1 s2 e2 n2, Eval library env.hash160 (checkOf env) u ⟨[], [], 0⟩ ⟨s1, e1, n1⟩ ∧
      Eval library env.hash160 (checkOf env) (u ++ l) ⟨[], e1, 0⟩ ⟨s2, e2, n2⟩ ∧
      (s2 = [] ∨ ∃ x r, s2 = x :: r ∧ Truthy x ∧ (r.length ≤ 1 ∨
        ∃ rts s3 s4 e4 n4, (∀ t ∈ rts, t.Valid) ∧ s1 = encTokens rts :: s3 ∧
          Eval library env.hash160 (checkOf env) rts ⟨s3, e2, 0⟩ ⟨s4, e4, n4⟩ ∧ (s4 = [] ∨ ∃ y q, s4 = y :: q ∧ Truthy y))) := by
  have hul : ∀ t ∈ u ++ l, t.Valid := fun t ht => (List.mem_append.mp ht).elim (hu t) (hl t)
  have happ : encTokens u ++ encTokens l = encTokens (u ++ l) := (List.flatMap_append ..).symm
  have hul1 : (encTokens u).length < 2^62 := by rw [← happ, List.length_append] at hlen; omega
  unfold verify
  simp only [Res.bind_eq_ok, execute_false, run_tokens env hu hul1, happ]
  constructor
  · rintro ⟨vm, ⟨s1, cs1⟩, h1, vm2, h2, h3⟩
    obtain ⟨e1, n1, he1, hc1, hs1⟩ := execAll_eval hh u [] [] [] 0 s1 cs1 hu .nil small_nil h1
    rw [execute_true] at h2
    obtain ⟨⟨s2, cs2⟩, h2, h4⟩ := h2
    rw [run_tokens env hul hlen] at h2
    obtain ⟨e2, n2, he2, hc2, hs2⟩ := execAll_eval hh (u ++ l) [] cs1 e1 0 s2 cs2 hul hc1 small_nil h2
    refine ⟨s1, e1, n1, s2, e2, n2, he1, he2, ?_⟩
    rcases h4 with ⟨h4, _⟩ | ⟨x, r, h4, hx, rfl⟩
    · exact Or.inl h4
    · refine Or.inr ⟨x, r, h4, (asBool_iff x).mp hx, ?_⟩
      dsimp only at h3
      by_cases hr : r.length > 1
      · right
        rw [if_pos hr] at h3
        cases s1 with
        | nil => cases h3
        | cons redeem s3 =>
          rw [show pop (redeem :: s3) = .ok (redeem, s3) from rfl, Res.ok_bind] at h3
          dsimp only at h3
          rw [execute_true] at h3
          obtain ⟨⟨s4, cs4⟩, h5, h6⟩ := h3
          obtain ⟨rts, hrv, hre, h5⟩ := run_ok (hs1 redeem List.mem_cons_self) h5
          obtain ⟨e4, n4, he4, _, _⟩ := execAll_eval hh rts s3 cs2 e2 0 s4 cs4 hrv hc2 (fun x hx => hs1 x (List.mem_cons_of_mem _ hx)) h5
          refine ⟨rts, s3, s4, e4, n4, hrv, by rw [hre], he4, ?_⟩
          rcases h6 with ⟨h6, _⟩ | ⟨y, q, h6, hy, _⟩
          · exact Or.inl h6
          · exact Or.inr ⟨y, q, h6, (asBool_iff y).mp hy⟩
      · left; omega
  · rintro ⟨s1, e1, n1, s2, e2, n2, he1, he2, h⟩
    obtain ⟨cs1, h1, hc1, hs1⟩ := eval_execAll hh u [] [] [] 0 s1 e1 n1 hu .nil small_nil he1
    obtain ⟨cs2, h2, hc2, hs2⟩ := eval_execAll hh (u ++ l) [] cs1 e1 0 s2 e2 n2 hul hc1 small_nil he2
    rcases h with rfl | ⟨x, r, rfl, hx, h⟩
    · refine ⟨⟨[], cs2⟩, ⟨s1, cs1⟩, h1, ⟨[], cs2⟩, ?_, ?_⟩
      · rw [execute_true, run_tokens env hul hlen]
        exact ⟨⟨[], cs2⟩, h2, Or.inl ⟨rfl, rfl⟩⟩
      · rfl
    · have hex : execute env (encTokens (u ++ l)) true (reset ⟨s1, cs1⟩) = .ok ⟨r, cs2⟩ := by
        rw [execute_true, run_tokens env hul hlen]
        exact ⟨⟨x :: r, cs2⟩, h2, Or.inr ⟨x, r, rfl, (asBool_iff x).mpr hx, rfl⟩⟩
      by_cases hr : r.length > 1
      · rcases h with h | ⟨rts, s3, s4, e4, n4, hrv, rfl, he4, h⟩
        · omega
        · have hrl := hs1 _ List.mem_cons_self
          obtain ⟨cs4, h4, _, _⟩ := eval_execAll hh rts s3 cs2 e2 0 s4 e4 n4 hrv hc2 (fun x hx => hs1 x (List.mem_cons_of_mem _ hx)) he4
          have hex2 : ∃ vm, execute env (encTokens rts) true ⟨s3, cs2⟩ = .ok vm := by
            rcases h with rfl | ⟨y, q, rfl, hy⟩
            · exact ⟨⟨[], cs4⟩, by rw [execute_true, run_tokens env hrv hrl]; exact ⟨_, h4, Or.inl ⟨rfl, rfl⟩⟩⟩
            · exact ⟨⟨q, cs4⟩, by
                rw [execute_true, run_tokens env hrv hrl]
                exact ⟨_, h4, Or.inr ⟨y, q, rfl, (asBool_iff y).mpr hy, rfl⟩⟩⟩
          obtain ⟨vm, hvm⟩ := hex2
          refine ⟨vm, ⟨encTokens rts :: s3, cs1⟩, h1, ⟨r, cs2⟩, hex, ?_⟩
          dsimp only
          rw [if_pos hr, show pop (encTokens rts :: s3) = .ok (encTokens rts, s3) from rfl, Res.ok_bind]
          exact hvm
      · refine ⟨⟨r, cs2⟩, ⟨s1, cs1⟩, h1, ⟨r, cs2⟩, hex, ?_⟩
        dsimp only
        rw [if_neg hr]

theorem eval_append {R : Rules} {hash : Bytes → Bytes} {check : Bytes → Bytes → Option Bool} {u l : List Token}
    {a b c : Bitcoin.State} (h1 : Eval R hash check u a b) (h2 : Eval R hash check l b c) : Eval R hash check (u ++ l) a c := by
  induction h1 with
  | nil => exact h2
  | cons t ts s e n s' e' k st ha hl _ ih => exact .cons _ _ _ _ _ _ _ _ _ ha hl (ih h2)

theorem eval_split {R : Rules} {hash : Bytes → Bytes} {check : Bytes → Bytes → Option Bool} {u l : List Token} :
    ∀ {a c : Bitcoin.State}, Eval R hash check (u ++ l) a c → ∃ b, Eval R hash check u a b ∧ Eval R hash check l b c := by
  induction u with
  | nil => exact fun h => ⟨_, .nil _, h⟩
  | cons t ts ih =>
    intro a c h
    cases h with
    | cons _ _ _ _ _ _ _ _ _ ha hl h =>
      obtain ⟨b, h1, h2⟩ := ih h
      exact ⟨b, .cons _ _ _ _ _ _ _ _ _ ha hl h1, h2⟩

/-- Under the rules of the library a script has one result. -/
private theorem eval_unique {env : Env} (hh : ∀ x, (env.hash160 x).length < 2^62) {ts : List Token} (hv : ∀ t ∈ ts, t.Valid) {s : Stack}
    (hs : Small s) {n1 n2 m1 m2 : ℕ} {s1 s2 : Stack} {e1 e2 : List Bool}
    (h1 : Eval library env.hash160 (checkOf env) ts ⟨s, [], n1⟩ ⟨s1, e1, m1⟩)
    (h2 : Eval library env.hash160 (checkOf env) ts ⟨s, [], n2⟩ ⟨s2, e2, m2⟩) : s1 = s2 := by
  obtain ⟨c1, h1, _⟩ := eval_execAll hh ts s [] [] _ s1 e1 _ hv .nil hs h1
  obtain ⟨c2, h2, _⟩ := eval_execAll hh ts s [] [] _ s2 e2 _ hv .nil hs h2
  rw [h1] at h2
  cases Res.ok.inj h2
  rfl

private theorem act_depth {R : Rules} {hash : Bytes → Bytes} {check : Bytes → Bytes → Option Bool} {t : Token} {s s' : Stack}
    {e e' : List Bool} {k : ℕ} (h : Act R hash check t s e s' e' k) :
    e'.length + (if t.op = 0x68 then 1 else 0) = e.length + (if t.op = 0x63 ∨ t.op = 0x64 then 1 else 0) := by
  cases h with
  | run _ _ _ _ _ hc =>
    unfold isCond at hc; push Not at hc
    rw [if_neg hc.2.2.2, if_neg (by simp [hc])]
  | skip _ _ _ hc =>
    unfold isCond at hc; push Not at hc
    rw [if_neg hc.2.2.2, if_neg (by simp [hc])]
  | ifTrue => rfl
  | ifFalse => rfl
  | notifTrue => rfl
  | notifFalse => rfl
  | ifSkipped _ _ _ ho =>
    rw [if_pos ho, if_neg]
    · rfl
    · intro h; rw [h] at ho; revert ho; decide
  | els => rfl
  | endif => rfl

private theorem eval_depth {R : Rules} {hash : Bytes → Bytes} {check : Bytes → Bytes → Option Bool} {ts : List Token}
    {a b : Bitcoin.State} (h : Eval R hash check ts a b) :
    b.exec.length + (ts.filter isEndIf).length =
      a.exec.length + (ts.filter isIf).length := by
  induction h with
  | nil => rfl
  | cons t ts s e n s' e' k st ha _ _ ih =>
    have := act_depth ha
    rw [List.filter_cons, List.filter_cons]
    dsimp only at ih ⊢
    by_cases h1 : t.op = 0x68
    · have h2 : ¬ (t.op = 0x63 ∨ t.op = 0x64) := by rw [h1]; decide
      rw [if_pos h1, if_neg h2] at this
      rw [if_pos (by simpa [isEndIf] using h1), if_neg (by simpa [isIf] using h2), List.length_cons]
      omega
    · by_cases h2 : t.op = 0x63 ∨ t.op = 0x64
      · rw [if_neg h1, if_pos h2] at this
        rw [if_neg (by simpa [isEndIf] using h1), if_pos (by simpa [isIf] using h2), List.length_cons]
        omega
      · rw [if_neg h1, if_neg h2] at this
        rw [if_neg (by simpa [isEndIf] using h1), if_neg (by simpa [isIf] using h2)]
        omega

private theorem closed {R : Rules} {hash : Bytes → Bytes} {check : Bytes → Bytes → Option Bool} {ts : List Token} {s s' : Stack}
    {e : List Bool} {n n' : ℕ} (hb : Balanced ts) (h : Eval R hash check ts ⟨s, [], n⟩ ⟨s', e, n'⟩) : e = [] := by
  have := eval_depth h
  unfold Balanced at hb
  rw [hb] at this
  exact List.eq_nil_of_length_eq_zero (by simpa using this)

/-- The rules of consensus without the limits on sizes and counts, and without that for the extra element of CHECKMULTISIG. -/
def unlimited : Rules := { consensus with limits := false, nullDummy := false }

private theorem to_unlimited {hash : Bytes → Bytes} {check : Bytes → Bytes → Option Bool} {ts : List Token} {s s' : Stack} {n n' : ℕ}
    (hr : ∀ t ∈ ts, t.op ≠ 0x6a) (h : Eval library hash check ts ⟨s, [], n⟩ ⟨s', [], n'⟩) :
    EvalScript unlimited hash check ts s s' := by
  obtain ⟨m, hm⟩ := eval_shift rfl h 0
  refine ⟨(fun h => nomatch h), m, eval_mono ?_ (eval_noReturn hr hm true)⟩
  exact ⟨(fun h => nomatch h), (fun h => nomatch h), (fun h => nomatch h), (fun h => nomatch h), fun _ => rfl, fun h => nomatch h⟩

/-- **C124, partial.** If the engine accepts, both scripts close their conditionals, neither has OP_RETURN, and the locking
script is not P2SH, then Bitcoin accepts as far as its rules other than the limits go, or nothing was left on the stack.
Not claimed, since false: the limits (`C124_negation_limits`), the empty stack (`C124_negation_empty`), OP_RETURN
(`C124_negation_return`), open conditionals (`C124_negation_open`), the extra element of CHECKMULTISIG (`C124_negation_dummy`); P2SH is `C124_sound_p2sh_partial`. -/
theorem C124_sound_partial (env : Env) (hh : ∀ x, (env.hash160 x).length < 2^62) {u l : List Token} (hu : ∀ t ∈ u, t.Valid)
    (hl : ∀ t ∈ l, t.Valid) (hlen : (encTokens (u ++ l)).length < 2^62) (hb : Balanced u) (hb' : Balanced l)
    (hr : ∀ t ∈ u ++ l, t.op ≠ 0x6a) (hp : ¬ IsP2SH l) {vm : State}
    (h : verify env (encTokens u) (encTokens l) fresh = .ok vm) :
    VerifyScript unlimited env.hash160 (checkOf env) u l ∨
    ∃ s1, EvalScript unlimited env.hash160 (checkOf env) u [] s1 ∧ EvalScript unlimited env.hash160 (checkOf env) l s1 [] := by
  obtain ⟨s1, e1, n1, s2, e2, n2, h1, h2, h3⟩ := (C124_verify env hh hu hl hlen).mp ⟨vm, h⟩
  have he1 := closed hb h1
  subst he1
  obtain ⟨⟨s1', e1', n1'⟩, h2, h4⟩ := eval_split h2
  have he1' := closed hb h2
  subst he1'
  have hs := eval_unique hh hu small_nil h1 h2
  subst hs
  have he2 := closed hb' h4
  subst he2
  have hU := to_unlimited (fun t ht => hr t (List.mem_append_left _ ht)) h1
  have hL := to_unlimited (fun t ht => hr t (List.mem_append_right _ ht)) h4
  rcases h3 with rfl | ⟨x, r, rfl, hx, _⟩
  · exact Or.inr ⟨_, hU, hL⟩
  · exact Or.inl ⟨_, x, r, hU, hL, hx, fun h => absurd h hp⟩

/-- **C124, partial.** If the engine accepts for a P2SH locking script and an unlocking script that closes its conditionals,
then the unlocking script left a script with the right hash on top; and that script, run on what was below, gave an empty
stack or a true element — unless at most one element was below, and then it was not run. -/
theorem C124_sound_p2sh_partial (env : Env) (hh : ∀ x, (env.hash160 x).length < 2^62) {u : List Token} (hu : ∀ t ∈ u, t.Valid)
    {h : Bytes} (h20 : h.length = 20) (hlen : (encTokens (u ++ [⟨0xa9, []⟩, ⟨0x14, h⟩, ⟨0x87, []⟩])).length < 2^62)
    (hb : Balanced u) {vm : State}
    (hacc : verify env (encTokens u) (encTokens [⟨0xa9, []⟩, ⟨0x14, h⟩, ⟨0x87, []⟩]) fresh = .ok vm) :
    ∃ redeem s3, EvalScript library env.hash160 (checkOf env) u [] (redeem :: s3) ∧ env.hash160 redeem = h ∧
      (s3.length ≤ 1 ∨ ∃ rts s4 e4 n4, (∀ t ∈ rts, t.Valid) ∧ redeem = encTokens rts ∧
        Eval library env.hash160 (checkOf env) rts ⟨s3, [], 0⟩ ⟨s4, e4, n4⟩ ∧ (s4 = [] ∨ ∃ y q, s4 = y :: q ∧ Truthy y)) := by
  have hl : ∀ t ∈ ([⟨0xa9, []⟩, ⟨0x14, h⟩, ⟨0x87, []⟩] : List Token), t.Valid := by
    intro t ht
    simp only [List.mem_cons, List.not_mem_nil, or_false] at ht
    rcases ht with rfl | rfl | rfl
    · exact ⟨show Supported 0xa9 by decide, by decide⟩
    · exact ⟨show Supported 0x14 by decide, by rw [if_pos (show Direct 0x14 by decide)]; exact h20⟩
    · exact ⟨show Supported 0x87 by decide, by decide⟩
  obtain ⟨s1, e1, n1, s2, e2, n2, h1, h2, h3⟩ := (C124_verify env hh hu hl hlen).mp ⟨vm, hacc⟩
  have he1 := closed hb h1
  subst he1
  obtain ⟨⟨s1', e1', n1'⟩, h2, h4⟩ := eval_split h2
  have he1' := closed hb h2
  subst he1'
  have hs := eval_unique hh hu small_nil h1 h2
  subst hs
  obtain ⟨q1, k1, o1, _, h4⟩ := eval_op (by decide) h4
  obtain ⟨q2, k2, o2, _, h4⟩ := eval_op (show ¬ isCond 0x14 by decide) h4
  obtain ⟨q3, k3, o3, _, h4⟩ := eval_op (by decide) h4
  obtain ⟨redeem, s3, rfl, rfl, _⟩ := op_hash o1 rfl
  obtain ⟨rfl, _⟩ := op_push o2 (show (0x14 : UInt8).toNat ≤ 0x4e by decide)
  obtain ⟨a, b, r, hab, rfl, _⟩ := op_equal o3 rfl
  obtain ⟨ha, hb2⟩ := List.cons.inj hab
  obtain ⟨hb3, hr⟩ := List.cons.inj hb2
  subst hr
  cases eval_nil h4
  obtain ⟨m, hm⟩ := eval_shift rfl h1 0
  refine ⟨redeem, s3, ⟨(fun h => nomatch h), m, hm⟩, ?_, ?_⟩
  · rcases h3 with h3 | ⟨x, r, h3, hx, _⟩
    · cases h3
    · obtain ⟨rfl, _⟩ := List.cons.inj h3
      by_contra hne
      have : decide (a = b) = false := by
        rw [decide_eq_false_iff_not, ← ha, ← hb3]
        exact fun e => hne e.symm
      rw [this] at hx
      exact absurd ((asBool_iff _).mpr hx) (by decide)
  · rcases h3 with h3 | ⟨x, r, h3, hx, h5⟩
    · cases h3
    · obtain ⟨_, rfl⟩ := List.cons.inj h3
      rcases h5 with h5 | ⟨rts, s3', s4, e4, n4, hv, hq, h6, h7⟩
      · exact Or.inl h5
      · obtain ⟨rfl, rfl⟩ := List.cons.inj hq
        exact Or.inr ⟨rts, s4, e4, n4, hv, rfl, h6, h7⟩

/-- **C124, partial.** What Bitcoin accepts under rules at least as strict as `library` (with the limits or without), the engine
accepts — if the locking script is P2SH, or at most one element is left below the true one. Not claimed, since false: more
elements left (`C124_negation_left`), numbers and conditions that are not minimal (`C124_negation_minimal`). -/
theorem C124_complete_partial (env : Env) (hh : ∀ x, (env.hash160 x).length < 2^62) {R : Rules} (hR : Stricter R library)
    {u l : List Token} (hu : ∀ t ∈ u, t.Valid) (hl : ∀ t ∈ l, t.Valid) (hlen : (encTokens (u ++ l)).length < 2^62)
    {s1 s2 : Stack} {x : Bytes} (h1 : EvalScript R env.hash160 (checkOf env) u [] s1)
    (h2 : EvalScript R env.hash160 (checkOf env) l s1 (x :: s2)) (hx : Truthy x)
    (hp : IsP2SH l → ∃ rts s3 y s4, (∀ t ∈ rts, t.Valid) ∧ s1 = encTokens rts :: s3 ∧
      EvalScript R env.hash160 (checkOf env) rts s3 (y :: s4) ∧ Truthy y)
    (hc : ¬ IsP2SH l → s2.length ≤ 1) :
    ∃ vm, verify env (encTokens u) (encTokens l) fresh = .ok vm := by
  rw [C124_verify env hh hu hl hlen]
  obtain ⟨_, n1, h1⟩ := evalScript_mono hR h1
  obtain ⟨_, n2, h2⟩ := evalScript_mono hR h2
  obtain ⟨n3, h2⟩ := eval_shift rfl h2 n1
  refine ⟨s1, [], n1, x :: s2, [], n3, h1, eval_append h1 h2, Or.inr ⟨x, s2, rfl, hx, ?_⟩⟩
  by_cases hip : IsP2SH l
  · right
    obtain ⟨rts, s3, y, s4, hv, rfl, h3, hy⟩ := hp hip
    obtain ⟨_, n4, h3⟩ := evalScript_mono hR h3
    exact ⟨rts, s3, y :: s4, [], n4, hv, rfl, h3, Or.inr ⟨y, s4, rfl, hy⟩⟩
  · exact Or.inl (hc hip)

/-! ### Where the engine and Bitcoin differ -/

theorem run1 {R : Rules} {hash : Bytes → Bytes} {check : Bytes → Bytes → Option Bool} (hl : R.limits = false)
    {t : Token} {ts : List Token} {s s' : Stack} {k n : ℕ} {st : Bitcoin.State} (hc : ¬ isCond t.op) (ho : Op R hash check t s s' k)
    (h : Eval R hash check ts ⟨s', [], n + (if 0x60 < t.op.toNat then 1 else 0) + k⟩ st) :
    Eval R hash check (t :: ts) ⟨s, [], n⟩ st :=
  .cons _ _ _ _ _ _ _ _ _ (.run _ _ _ _ _ hc (fun _ h => nomatch h) ho) (fun h => by rw [hl] at h; cases h) h

private theorem stricter_refl (R : Rules) : Stricter R R := ⟨id, id, id, id, id, id⟩

theorem truthy_one : Truthy [1] := Or.inr ⟨1, rfl, by decide, by decide⟩

theorem valid_op (op : UInt8) (h : Supported op) (h1 : ¬ Direct op) : Token.Valid ⟨op, []⟩ :=
  ⟨h, by dsimp only; rw [if_neg h1]; exact Nat.pos_of_ne_zero (pow_ne_zero _ (by norm_num))⟩

private theorem not_p2sh {l : List Token} (h : l.length ≠ 3) : ¬ IsP2SH l := by
  rintro ⟨_, _, rfl⟩
  exact h rfl

theorem enc_len (t : Token) : t.enc.length ≤ 5 + t.data.length := by
  unfold Token.enc
  rw [List.length_cons, List.length_append, leBytes_length]
  have : lenWidth t.op ≤ 4 := by unfold lenWidth; split_ifs <;> omega
  omega

/-- **C124, negation: the limits.** The engine accepts a script with an element of more than 520 bytes, whatever the callbacks;
consensus does not. (OP_1; the push, OP_DROP.) -/
theorem C124_negation_limits (env : Env) (hh : ∀ x, (env.hash160 x).length < 2^62) (d : Bytes) (h1 : 520 < d.length) (h2 : d.length < 65536) :
    (∃ vm, verify env (encTokens [⟨0x51, []⟩]) (encTokens [⟨0x4d, d⟩, ⟨0x75, []⟩]) fresh = .ok vm) ∧
    ¬ VerifyScript consensus env.hash160 (checkOf env) [⟨0x51, []⟩] [⟨0x4d, d⟩, ⟨0x75, []⟩] := by
  have hv1 : ∀ t ∈ ([⟨0x51, []⟩] : List Token), t.Valid := by
    simp only [List.mem_singleton, forall_eq]; exact valid_op 0x51 (by decide) (by decide)
  have hv2 : ∀ t ∈ ([⟨0x4d, d⟩, ⟨0x75, []⟩] : List Token), t.Valid := by
    intro t ht
    simp only [List.mem_cons, List.not_mem_nil, or_false] at ht
    rcases ht with rfl | rfl
    · exact ⟨show Supported 0x4d by decide, by rw [if_neg (show ¬ Direct 0x4d by decide)]; exact h2⟩
    · exact valid_op 0x75 (by decide) (by decide)
  constructor
  · refine C124_complete_partial env hh (stricter_refl library) hv1 hv2 ?_ (s1 := [[1]]) (s2 := []) (x := [1])
      ⟨(fun h => nomatch h), _, run1 rfl (show ¬ isCond 0x51 by decide)
        (.num _ _ (show 0x51 ≤ (0x51 : UInt8).toNat by decide) (show (0x51 : UInt8).toNat ≤ 0x60 by decide)) (.nil _)⟩
      ⟨(fun h => nomatch h), _, run1 rfl (show ¬ isCond 0x4d by decide) (.push _ _ (show (0x4d : UInt8).toNat ≤ 0x4e by decide))
        (run1 rfl (show ¬ isCond 0x75 by decide) (.drop ..) (.nil _))⟩ truthy_one
      (fun h => absurd h (not_p2sh (by simp))) (fun _ => by decide)
    have a := enc_len ⟨0x4d, d⟩
    dsimp only at a
    have b : encTokens ([⟨0x51, []⟩] ++ [⟨0x4d, d⟩, ⟨0x75, []⟩]) = [0x51] ++ (Token.enc ⟨0x4d, d⟩ ++ [0x75]) := rfl
    rw [b, List.length_append, List.length_append]
    simp only [List.length_singleton]
    omega
  · rintro ⟨s1, x, s2, _, ⟨_, n, h⟩, _⟩
    obtain ⟨_, _, _, hlim, _⟩ := eval_op (show ¬ isCond 0x4d by decide) h
    have := (hlim rfl).1
    dsimp only at this
    omega

/-- **C124, negation: nothing left.** The engine accepts if the stack is empty at the end (OP_1; OP_DROP); Bitcoin does not,
under any of the rules. -/
theorem C124_negation_empty (env : Env) (hh : ∀ x, (env.hash160 x).length < 2^62) :
    (∃ vm, verify env (encTokens [⟨0x51, []⟩]) (encTokens [⟨0x75, []⟩]) fresh = .ok vm) ∧
    ∀ R, ¬ VerifyScript R env.hash160 (checkOf env) [⟨0x51, []⟩] [⟨0x75, []⟩] := by
  have hv : ∀ op : UInt8, op = 0x51 ∨ op = 0x75 → Token.Valid ⟨op, []⟩ := by
    rintro op (rfl | rfl)
    · exact valid_op 0x51 (by decide) (by decide)
    · exact valid_op 0x75 (by decide) (by decide)
  constructor
  · refine (C124_verify env hh (by simpa using hv 0x51 (Or.inl rfl)) (by simpa using hv 0x75 (Or.inr rfl)) (by decide)).mpr
      ⟨[[1]], [], _, [], [], _, run1 rfl (show ¬ isCond 0x51 by decide)
        (.num _ _ (show 0x51 ≤ (0x51 : UInt8).toNat by decide) (show (0x51 : UInt8).toNat ≤ 0x60 by decide)) (.nil _),
      run1 rfl (show ¬ isCond 0x51 by decide)
        (.num _ _ (show 0x51 ≤ (0x51 : UInt8).toNat by decide) (show (0x51 : UInt8).toNat ≤ 0x60 by decide))
        (run1 rfl (show ¬ isCond 0x75 by decide) (.drop ..) (.nil _)), Or.inl rfl⟩
  · rintro R ⟨s1, x, s2, ⟨_, n, h⟩, ⟨_, m, h'⟩, _⟩
    obtain ⟨q, k, o, _, h⟩ := eval_op (show ¬ isCond 0x51 by decide) h
    cases eval_nil h
    obtain ⟨rfl, _⟩ := op_num o (show 0x51 ≤ (0x51 : UInt8).toNat by decide) (show (0x51 : UInt8).toNat ≤ 0x60 by decide)
    obtain ⟨q', k', o', _, h'⟩ := eval_op (show ¬ isCond 0x75 by decide) h'
    cases eval_nil h'
    obtain ⟨a, ha, _⟩ := op_drop o' rfl
    cases ha

/-- **C124, negation: OP_RETURN.** The engine runs over OP_RETURN (OP_1; OP_RETURN); with consensus the script fails. -/
theorem C124_negation_return (env : Env) (hh : ∀ x, (env.hash160 x).length < 2^62) :
    (∃ vm, verify env (encTokens [⟨0x51, []⟩]) (encTokens [⟨0x6a, []⟩]) fresh = .ok vm) ∧
    ¬ VerifyScript consensus env.hash160 (checkOf env) [⟨0x51, []⟩] [⟨0x6a, []⟩] := by
  constructor
  · refine C124_complete_partial env hh (stricter_refl library) (by simpa using valid_op 0x51 (by decide) (by decide))
      (by simpa using valid_op 0x6a (by decide) (by decide)) (by decide) (s1 := [[1]]) (s2 := []) (x := [1])
      ⟨(fun h => nomatch h), _, run1 rfl (show ¬ isCond 0x51 by decide)
        (.num _ _ (show 0x51 ≤ (0x51 : UInt8).toNat by decide) (show (0x51 : UInt8).toNat ≤ 0x60 by decide)) (.nil _)⟩
      ⟨(fun h => nomatch h), _, run1 rfl (show ¬ isCond 0x6a by decide) (.ret _ _ rfl) (.nil _)⟩ truthy_one
      (fun h => absurd h (not_p2sh (by decide))) (fun _ => by decide)
  · rintro ⟨s1, x, s2, _, ⟨_, m, h'⟩, _⟩
    obtain ⟨q, k, o, _, _⟩ := eval_op (show ¬ isCond 0x6a by decide) h'
    cases (op_ret o rfl).1

/-- **C124, negation: open conditionals.** The engine does not look whether the conditionals are closed (OP_1 OP_1; OP_IF);
Bitcoin does not accept that under any of the rules. -/
theorem C124_negation_open (env : Env) (hh : ∀ x, (env.hash160 x).length < 2^62) :
    (∃ vm, verify env (encTokens [⟨0x51, []⟩, ⟨0x51, []⟩]) (encTokens [⟨0x63, []⟩]) fresh = .ok vm) ∧
    ∀ R, ¬ VerifyScript R env.hash160 (checkOf env) [⟨0x51, []⟩, ⟨0x51, []⟩] [⟨0x63, []⟩] := by
  have one : ∀ s : Stack, Op library env.hash160 (checkOf env) ⟨0x51, []⟩ s ([1] :: s) 0 := fun s =>
    .num _ _ (show 0x51 ≤ (0x51 : UInt8).toNat by decide) (show (0x51 : UInt8).toNat ≤ 0x60 by decide)
  constructor
  · refine (C124_verify env hh (u := [⟨0x51, []⟩, ⟨0x51, []⟩]) (l := [⟨0x63, []⟩])
      (by simpa using valid_op 0x51 (by decide) (by decide)) (by simpa using valid_op 0x63 (by decide) (by decide)) (by decide)).mpr
      ⟨[[1], [1]], [], _, [[1]], [true], _, run1 rfl (show ¬ isCond 0x51 by decide) (one _)
        (run1 rfl (show ¬ isCond 0x51 by decide) (one _) (.nil _)),
      run1 rfl (show ¬ isCond 0x51 by decide) (one _) (run1 rfl (show ¬ isCond 0x51 by decide) (one _)
        (.cons _ _ _ _ _ _ _ _ _ (.ifTrue _ [1] _ _ (fun _ h => nomatch h) (fun _ => Or.inr rfl) truthy_one) (fun h => nomatch h) (.nil _))),
      Or.inr ⟨[1], [], rfl, truthy_one, Or.inl (by decide)⟩⟩
  · rintro R ⟨s1, x, s2, _, ⟨_, m, h'⟩, _⟩
    have := eval_depth h'
    simp [isIf, isEndIf] at this

/-- **C124, negation: elements left.** With three true elements on the stack Bitcoin accepts (OP_1 OP_1 OP_1; nothing); the
engine takes the last of them for a script and rejects. -/
theorem C124_negation_left (env : Env) (hh : ∀ x, (env.hash160 x).length < 2^62) :
    VerifyScript consensus env.hash160 (checkOf env) [⟨0x51, []⟩, ⟨0x51, []⟩, ⟨0x51, []⟩] [] ∧
    ¬ ∃ vm, verify env (encTokens [⟨0x51, []⟩, ⟨0x51, []⟩, ⟨0x51, []⟩]) (encTokens []) fresh = .ok vm := by
  constructor
  · have one : ∀ (ts : List Token) (s : Stack) (st : Bitcoin.State), s.length < 1000 →
        Eval consensus env.hash160 (checkOf env) ts ⟨[1] :: s, [], 0⟩ st →
        Eval consensus env.hash160 (checkOf env) (⟨0x51, []⟩ :: ts) ⟨s, [], 0⟩ st := fun ts s st hs h =>
      .cons _ _ _ _ _ _ _ _ _ (.run _ _ _ _ _ (show ¬ isCond 0x51 by decide) (fun _ h => nomatch h)
        (.num _ _ (show 0x51 ≤ (0x51 : UInt8).toNat by decide) (show (0x51 : UInt8).toNat ≤ 0x60 by decide)))
        (fun _ => ⟨by decide, by rw [List.length_cons]; omega, by decide⟩) h
    refine ⟨[[1], [1], [1]], [1], [[1], [1]], ⟨fun _ => by decide, 0, one _ _ _ (by decide) (one _ _ _ (by decide) (one _ _ _ (by decide) (.nil _)))⟩,
      ⟨fun _ => by decide, 0, .nil _⟩, truthy_one, fun h => absurd h (not_p2sh (by decide))⟩
  · rw [C124_verify env hh (u := [⟨0x51, []⟩, ⟨0x51, []⟩, ⟨0x51, []⟩]) (l := []) (by simpa using valid_op 0x51 (by decide) (by decide))
      (fun _ h => nomatch h) (by decide)]
    have all : ∀ {e : List Bool} {s1 : Stack} {e1 : List Bool} {n1 : ℕ}, e = [] →
        Eval library env.hash160 (checkOf env) [⟨0x51, []⟩, ⟨0x51, []⟩, ⟨0x51, []⟩] ⟨[], e, 0⟩ ⟨s1, e1, n1⟩ →
        s1 = [[1], [1], [1]] ∧ e1 = [] := by
      rintro e s1 e1 n1 rfl h
      obtain ⟨_, _, o1, _, h⟩ := eval_op (show ¬ isCond 0x51 by decide) h
      obtain ⟨_, _, o2, _, h⟩ := eval_op (show ¬ isCond 0x51 by decide) h
      obtain ⟨_, _, o3, _, h⟩ := eval_op (show ¬ isCond 0x51 by decide) h
      cases eval_nil h
      obtain ⟨rfl, _⟩ := op_num o1 (show 0x51 ≤ (0x51 : UInt8).toNat by decide) (show (0x51 : UInt8).toNat ≤ 0x60 by decide)
      obtain ⟨rfl, _⟩ := op_num o2 (show 0x51 ≤ (0x51 : UInt8).toNat by decide) (show (0x51 : UInt8).toNat ≤ 0x60 by decide)
      obtain ⟨rfl, _⟩ := op_num o3 (show 0x51 ≤ (0x51 : UInt8).toNat by decide) (show (0x51 : UInt8).toNat ≤ 0x60 by decide)
      exact ⟨rfl, rfl⟩
    rintro ⟨s1, e1, n1, s2, e2, n2, h1, h2, h3⟩
    obtain ⟨rfl, rfl⟩ := all rfl h1
    obtain ⟨rfl, rfl⟩ := all rfl h2
    rcases h3 with h3 | ⟨x, r, h3, _, h4⟩
    · cases h3
    · obtain ⟨_, rfl⟩ := List.cons.inj h3
      rcases h4 with h4 | ⟨rts, s3, _, _, _, hv, h5, _⟩
      · exact absurd h4 (by decide)
      · obtain ⟨h5, _⟩ := List.cons.inj h5
        cases rts with
        | nil => cases h5
        | cons t ts =>
          obtain ⟨h6, h7⟩ := List.cons.inj (show [1] = t.op :: ((leBytes (lenWidth t.op) t.data.length ++ t.data) ++ encTokens ts) from h5)
          have := (hv t List.mem_cons_self).2
          rw [← h6, if_pos (by decide)] at this
          have h8 := congrArg List.length h7
          rw [List.length_append, List.length_append, this] at h8
          simp at h8
          omega

/-- **C124, negation: the extra element.** The engine accepts any element below the signatures of CHECKMULTISIG (OP_1; OP_0 OP_0
OP_CHECKMULTISIG, no signatures of no keys); consensus only the empty one. -/
theorem C124_negation_dummy (env : Env) :
    (∃ vm, verify env (encTokens [⟨0x51, []⟩]) (encTokens [⟨0x00, []⟩, ⟨0x00, []⟩, ⟨0xae, []⟩]) fresh = .ok vm) ∧
    ¬ VerifyScript consensus env.hash160 (checkOf env) [⟨0x51, []⟩] [⟨0x00, []⟩, ⟨0x00, []⟩, ⟨0xae, []⟩] := by
  refine ⟨⟨_, rfl⟩, ?_⟩
  rintro ⟨s1, x, s2, ⟨_, n, h⟩, ⟨_, m, h'⟩, _, _⟩
  obtain ⟨_, _, o, _, h⟩ := eval_op (show ¬ isCond 0x51 by decide) h
  cases eval_nil h
  obtain ⟨_, _, o1, _, h'⟩ := eval_op (show ¬ isCond 0x00 by decide) h'
  obtain ⟨_, _, o2, _, h'⟩ := eval_op (show ¬ isCond 0x00 by decide) h'
  obtain ⟨_, _, o3, _, h'⟩ := eval_op (show ¬ isCond 0xae by decide) h'
  obtain ⟨rfl, _⟩ := op_num o (show 0x51 ≤ (0x51 : UInt8).toNat by decide) (show (0x51 : UInt8).toNat ≤ 0x60 by decide)
  obtain ⟨rfl, _⟩ := op_push o1 (show (0x00 : UInt8).toNat ≤ 0x4e by decide)
  obtain ⟨rfl, _⟩ := op_push o2 (show (0x00 : UInt8).toNat ≤ 0x4e by decide)
  obtain ⟨x, keys, y, sigs, d, r, b, hs, hx, hy, _, _, hd, _⟩ := op_multi o3 rfl
  have hn : NumIn consensus [] 0 := ⟨by decide, (fun h => nomatch h), rfl⟩
  obtain ⟨e1, hs⟩ := List.cons.inj hs
  rw [← e1] at hx
  have hk : keys = [] := List.eq_nil_of_length_eq_zero (by have := hx.2.2.symm.trans hn.2.2; omega)
  subst hk
  obtain ⟨e2, hs⟩ := List.cons.inj hs
  rw [← e2] at hy
  have hk : sigs = [] := List.eq_nil_of_length_eq_zero (by have := hy.2.2.symm.trans hn.2.2; omega)
  subst hk
  obtain ⟨e3, _⟩ := List.cons.inj hs
  exact absurd (e3.trans (hd rfl)) (by decide)

/-- **C124, negation: minimal forms.** Consensus accepts the number 1 as 0100 (0100; OP_1 OP_ADD) and OP_2 as the condition of OP_IF
(OP_2; OP_IF OP_1 OP_ENDIF); the engine rejects both. -/
theorem C124_negation_minimal (env : Env) :
    (VerifyScript consensus env.hash160 (checkOf env) [⟨0x02, [1, 0]⟩] [⟨0x51, []⟩, ⟨0x93, []⟩] ∧
      ¬ ∃ vm, verify env (encTokens [⟨0x02, [1, 0]⟩]) (encTokens [⟨0x51, []⟩, ⟨0x93, []⟩]) fresh = .ok vm) ∧
    VerifyScript consensus env.hash160 (checkOf env) [⟨0x52, []⟩] [⟨0x63, []⟩, ⟨0x51, []⟩, ⟨0x68, []⟩] ∧
      ¬ ∃ vm, verify env (encTokens [⟨0x52, []⟩]) (encTokens [⟨0x63, []⟩, ⟨0x51, []⟩, ⟨0x68, []⟩]) fresh = .ok vm := by
  have h52 : ∀ (R : Rules) (s : Stack), Op R env.hash160 (checkOf env) ⟨0x52, []⟩ s ([2] :: s) 0 := fun R s =>
    .num _ _ (show 0x51 ≤ (0x52 : UInt8).toNat by decide) (show (0x52 : UInt8).toNat ≤ 0x60 by decide)
  have h51 : ∀ (R : Rules) (s : Stack), Op R env.hash160 (checkOf env) ⟨0x51, []⟩ s ([1] :: s) 0 := fun R s =>
    .num _ _ (show 0x51 ≤ (0x51 : UInt8).toNat by decide) (show (0x51 : UInt8).toNat ≤ 0x60 by decide)
  refine ⟨⟨?_, ?_⟩, ?_, ?_⟩
  · refine ⟨[[1, 0]], [2], [], ⟨fun _ => by decide, 0, ?_⟩, ⟨fun _ => by decide, 1, ?_⟩, Or.inr ⟨2, rfl, by decide, by decide⟩,
      fun h => absurd h (not_p2sh (by decide))⟩
    · exact .cons _ _ _ _ _ _ _ _ _ (.run _ _ _ _ _ (show ¬ isCond 0x02 by decide) (fun _ h => nomatch h)
        (.push _ _ (show (0x02 : UInt8).toNat ≤ 0x4e by decide))) (fun _ => ⟨by decide, by decide, by decide⟩) (.nil _)
    · exact .cons _ _ _ _ _ _ _ _ _ (.run _ _ _ _ _ (show ¬ isCond 0x51 by decide) (fun _ h => nomatch h) (h51 _ _))
        (fun _ => ⟨by decide, by decide, by decide⟩)
        (.cons _ _ _ _ _ _ _ _ _ (.run _ _ _ _ _ (show ¬ isCond 0x93 by decide) (fun _ h => nomatch h)
          (.add _ [1] [1, 0] [] 1 1 [2] ⟨by decide, (fun h => nomatch h), by decide⟩ ⟨by decide, (fun h => nomatch h), by decide⟩
            ⟨Or.inr ⟨[], 2, rfl, Or.inl (by decide)⟩, by decide⟩)) (fun _ => ⟨by decide, by decide, by decide⟩) (.nil _))
  · rintro ⟨vm, h⟩
    cases h
  · refine ⟨[[2]], [1], [], ⟨fun _ => by decide, 0, ?_⟩, ⟨fun _ => by decide, 2, ?_⟩, truthy_one, ?_⟩
    · exact .cons _ _ _ _ _ _ _ _ _ (.run _ _ _ _ _ (show ¬ isCond 0x52 by decide) (fun _ h => nomatch h) (h52 _ _))
        (fun _ => ⟨by decide, by decide, by decide⟩) (.nil _)
    · exact .cons _ _ _ _ _ _ _ _ _ (.ifTrue _ [2] _ _ (fun _ h => nomatch h) (fun h => nomatch h) (Or.inr ⟨2, rfl, by decide, by decide⟩))
        (fun _ => ⟨by decide, by decide, by decide⟩)
        (.cons _ _ _ _ _ _ _ _ _ (.run _ _ _ _ _ (show ¬ isCond 0x51 by decide) (by decide) (h51 _ _))
        (fun _ => ⟨by decide, by decide, by decide⟩)
        (.cons _ _ _ _ _ _ _ _ _ (.endif _ _ _ _) (fun _ => ⟨by decide, by decide, by decide⟩) (.nil _)))
    · rintro ⟨_, _, e⟩
      cases e
  · rintro ⟨vm, h⟩
    cases h

/-- **C124, negation: P2SH.** With at most one element below it the redeem script is not run: the engine accepts the script OP_0,
which leaves false, for the locking script with its hash; Bitcoin does not under any of the rules. -/
theorem C124_negation_p2sh (env : Env) (hh : ∀ x, (env.hash160 x).length < 2^62) (h20 : (env.hash160 [0]).length = 20) :
    (∃ vm, verify env (encTokens [⟨0x01, [0]⟩]) (encTokens [⟨0xa9, []⟩, ⟨0x14, env.hash160 [0]⟩, ⟨0x87, []⟩]) fresh = .ok vm) ∧
    ∀ R, ¬ VerifyScript R env.hash160 (checkOf env) [⟨0x01, [0]⟩] [⟨0xa9, []⟩, ⟨0x14, env.hash160 [0]⟩, ⟨0x87, []⟩] := by
  have hl : ∀ t ∈ ([⟨0xa9, []⟩, ⟨0x14, env.hash160 [0]⟩, ⟨0x87, []⟩] : List Token), t.Valid := by
    intro t ht
    simp only [List.mem_cons, List.not_mem_nil, or_false] at ht
    rcases ht with rfl | rfl | rfl
    · exact valid_op 0xa9 (by decide) (by decide)
    · exact ⟨show Supported 0x14 by decide, by rw [if_pos (show Direct 0x14 by decide)]; exact h20⟩
    · exact valid_op 0x87 (by decide) (by decide)
  constructor
  · have push : ∀ s : Stack, Op library env.hash160 (checkOf env) ⟨0x01, [0]⟩ s ([0] :: s) 0 := fun s =>
      .push _ _ (show (0x01 : UInt8).toNat ≤ 0x4e by decide)
    refine (C124_verify env hh (u := [⟨0x01, [0]⟩]) (by
        simp only [List.mem_singleton, forall_eq]; exact ⟨show Supported 0x01 by decide, by decide⟩) hl ?_).mpr
      ⟨[[0]], [], _, [Bitcoin.ofBool (decide (env.hash160 [0] = env.hash160 [0]))], [], _,
      run1 rfl (show ¬ isCond 0x01 by decide) (push _) (.nil _),
      run1 rfl (show ¬ isCond 0x01 by decide) (push _) (run1 rfl (show ¬ isCond 0xa9 by decide) (.hash _ _ _)
        (run1 rfl (show ¬ isCond 0x14 by decide) (.push _ _ (show (0x14 : UInt8).toNat ≤ 0x4e by decide))
        (run1 rfl (show ¬ isCond 0x87 by decide) (.equal _ _ _ _) (.nil _)))),
      Or.inr ⟨_, [], rfl, ?_, Or.inl (by decide)⟩⟩
    · have b : encTokens ([⟨0x01, [0]⟩] ++ [⟨0xa9, []⟩, ⟨0x14, env.hash160 [0]⟩, ⟨0x87, []⟩]) =
        [0x01, 0, 0xa9] ++ (Token.enc ⟨0x14, env.hash160 [0]⟩ ++ [0x87]) := rfl
      have a := enc_len ⟨0x14, env.hash160 [0]⟩
      rw [b, List.length_append, List.length_append]
      simp only [List.length_cons, List.length_nil] at a ⊢
      omega
    · rw [decide_eq_true rfl]
      exact truthy_one
  · rintro R ⟨s1, x, s2, ⟨_, n, h⟩, _, _, hp⟩
    obtain ⟨_, _, o1, _, h⟩ := eval_op (show ¬ isCond 0x01 by decide) h
    cases eval_nil h
    obtain ⟨rfl, _⟩ := op_push o1 (show (0x01 : UInt8).toNat ≤ 0x4e by decide)
    obtain ⟨_, rts, s3, y, s4, hv, hq, ⟨_, m, h⟩, hy⟩ := hp ⟨_, h20, rfl⟩
    obtain ⟨hq1, rfl⟩ := List.cons.inj hq
    cases rts with
    | nil => cases hq1
    | cons t ts =>
      obtain ⟨h6, h7⟩ := List.cons.inj (show [0] = t.op :: ((leBytes (lenWidth t.op) t.data.length ++ t.data) ++ encTokens ts) from hq1)
      rw [eq_comm, List.append_eq_nil_iff, List.append_eq_nil_iff] at h7
      obtain ⟨⟨_, hd⟩, hts⟩ := h7
      cases ts with
      | cons t' ts' => cases hts
      | nil =>
        obtain ⟨_, _, o1, _, h⟩ := eval_op (by rw [← h6]; decide) h
        have e := eval_nil h
        obtain ⟨rfl, _⟩ := op_push o1 (by rw [← h6]; decide)
        have e1 : y :: s4 = t.data :: [] := congrArg Bitcoin.State.stack e
        obtain ⟨rfl, _⟩ := List.cons.inj e1
        rw [hd, ← asBool_iff] at hy
        cases hy

/-! ### Examples -/

private theorem toy_hash_small : ∀ x, (toyEnv.hash160 x).length < 2^62 := fun x => by
  show (x.take 20).length < 2^62
  rw [List.length_take]
  omega

/-- `C124_run`, both directions with content: OP_IF takes the true branch, and OP_CHECKSIG finds the signature. -/
example : EvalScript library toyEnv.hash160 (checkOf toyEnv)
    [⟨0x63, []⟩, ⟨0x01, [7]⟩, ⟨0xac, []⟩, ⟨0x67, []⟩, ⟨0x6a, []⟩, ⟨0x68, []⟩] [[1], [7, 1]] [[1]] := by
  refine (C124_run toyEnv toy_hash_small ?_ (by decide) ?_ _).mp (by decide +kernel)
  · intro t ht
    simp only [List.mem_cons, List.not_mem_nil, or_false] at ht
    rcases ht with rfl | rfl | rfl | rfl | rfl | rfl
    · exact valid_op 0x63 (by decide) (by decide)
    · exact ⟨show Supported 0x01 by decide, by decide⟩
    · exact valid_op 0xac (by decide) (by decide)
    · exact valid_op 0x67 (by decide) (by decide)
    · exact valid_op 0x6a (by decide) (by decide)
    · exact valid_op 0x68 (by decide) (by decide)
  · intro x hx
    simp only [List.mem_cons, List.not_mem_nil, or_false] at hx
    rcases hx with rfl | rfl <;> decide

/-- A pair of scripts that meets the hypotheses of `C124_sound_partial`: a signature and a key, and OP_DUP OP_HASH160, the key, OP_EQUALVERIFY
OP_CHECKSIG (the toy hash leaves a short string as it is). -/
private def toyPay : List Token × List Token :=
  ([⟨0x02, [7, 1]⟩, ⟨0x01, [7]⟩], [⟨0x76, []⟩, ⟨0xa9, []⟩, ⟨0x01, [7]⟩, ⟨0x88, []⟩, ⟨0xac, []⟩])

private theorem toyPay_valid : (∀ t ∈ toyPay.1, t.Valid) ∧ ∀ t ∈ toyPay.2, t.Valid := by
  constructor
  · intro t ht
    simp only [toyPay, List.mem_cons, List.not_mem_nil, or_false] at ht
    rcases ht with rfl | rfl
    · exact ⟨show Supported 0x02 by decide, by decide⟩
    · exact ⟨show Supported 0x01 by decide, by decide⟩
  · intro t ht
    simp only [toyPay, List.mem_cons, List.not_mem_nil, or_false] at ht
    rcases ht with rfl | rfl | rfl | rfl | rfl
    · exact valid_op 0x76 (by decide) (by decide)
    · exact valid_op 0xa9 (by decide) (by decide)
    · exact ⟨show Supported 0x01 by decide, by decide⟩
    · exact valid_op 0x88 (by decide) (by decide)
    · exact valid_op 0xac (by decide) (by decide)

example : VerifyScript unlimited toyEnv.hash160 (checkOf toyEnv) toyPay.1 toyPay.2 ∨
    ∃ s1, EvalScript unlimited toyEnv.hash160 (checkOf toyEnv) toyPay.1 [] s1 ∧
      EvalScript unlimited toyEnv.hash160 (checkOf toyEnv) toyPay.2 s1 [] :=
  C124_sound_partial (vm := ⟨[], []⟩) toyEnv toy_hash_small toyPay_valid.1 toyPay_valid.2 (by decide) (by unfold Balanced; decide)
    (by unfold Balanced; decide) (by decide) (not_p2sh (by decide)) (by decide +kernel)

/-- P2SH with two elements below: OP_1 OP_1 and the script that pushes nineteen bytes (twenty bytes, which the toy hash leaves as they are). -/
private def toyScript : Bytes := 0x13 :: List.replicate 19 5

example : ∃ redeem s3, EvalScript library toyEnv.hash160 (checkOf toyEnv) [⟨0x51, []⟩, ⟨0x51, []⟩, ⟨0x14, toyScript⟩] [] (redeem :: s3) ∧
    toyEnv.hash160 redeem = toyScript ∧
      (s3.length ≤ 1 ∨ ∃ rts s4 e4 n4, (∀ t ∈ rts, t.Valid) ∧ redeem = encTokens rts ∧
        Eval library toyEnv.hash160 (checkOf toyEnv) rts ⟨s3, [], 0⟩ ⟨s4, e4, n4⟩ ∧ (s4 = [] ∨ ∃ y q, s4 = y :: q ∧ Truthy y)) :=
  C124_sound_p2sh_partial (vm := ⟨[[1], [1]], []⟩) toyEnv toy_hash_small (by
    intro t ht
    simp only [List.mem_cons, List.not_mem_nil, or_false] at ht
    rcases ht with rfl | rfl | rfl
    · exact valid_op 0x51 (by decide) (by decide)
    · exact valid_op 0x51 (by decide) (by decide)
    · exact ⟨show Supported 0x14 by decide, by decide⟩) rfl (by decide) (by unfold Balanced; decide) (by decide +kernel)

/-- `C124_complete_partial` with consensus and the stricter rules together: limits, minimal forms, no empty signature, OP_RETURN fails,
empty extra element. -/
example : ∃ vm, verify toyEnv (encTokens [⟨0x51, []⟩]) (encTokens [⟨0x76, []⟩, ⟨0x88, []⟩, ⟨0x51, []⟩]) fresh = .ok vm := by
  have one : ∀ s, Op ⟨true, true, true, false, true, true⟩ toyEnv.hash160 (checkOf toyEnv) ⟨0x51, []⟩ s ([1] :: s) 0 := fun s =>
    .num _ _ (show 0x51 ≤ (0x51 : UInt8).toNat by decide) (show (0x51 : UInt8).toNat ≤ 0x60 by decide)
  refine C124_complete_partial (R := ⟨true, true, true, false, true, true⟩) toyEnv toy_hash_small
    ⟨(fun h => nomatch h), (fun _ => rfl), (fun _ => rfl), (fun h => nomatch h), (fun h => nomatch h), fun h => nomatch h⟩
    (by simpa using valid_op 0x51 (by decide) (by decide)) ?_ (by decide) (s1 := [[1]]) (s2 := []) (x := [1])
    ⟨fun _ => by decide, 0, ?_⟩ ⟨fun _ => by decide, 2, ?_⟩ truthy_one ?_ (fun _ => by decide)
  · intro t ht
    simp only [List.mem_cons, List.not_mem_nil, or_false] at ht
    rcases ht with rfl | rfl | rfl
    · exact valid_op 0x76 (by decide) (by decide)
    · exact valid_op 0x88 (by decide) (by decide)
    · exact valid_op 0x51 (by decide) (by decide)
  · exact .cons _ _ _ _ _ _ _ _ _ (.run _ _ _ _ _ (show ¬ isCond 0x51 by decide) (fun _ h => nomatch h) (one _))
      (fun _ => ⟨by decide, by decide, by decide⟩) (.nil _)
  · exact .cons _ _ _ _ _ _ _ _ _ (.run _ _ _ _ _ (show ¬ isCond 0x76 by decide) (fun _ h => nomatch h) (.dup ..))
      (fun _ => ⟨by decide, by decide, by decide⟩)
      (.cons _ _ _ _ _ _ _ _ _ (.run _ _ _ _ _ (show ¬ isCond 0x88 by decide) (fun _ h => nomatch h) (.equalVerify ..))
      (fun _ => ⟨by decide, by decide, by decide⟩)
      (.cons _ _ _ _ _ _ _ _ _ (.run _ _ _ _ _ (show ¬ isCond 0x51 by decide) (fun _ h => nomatch h) (one _))
      (fun _ => ⟨by decide, by decide, by decide⟩) (.nil _)))
  · rintro ⟨_, _, e⟩
    cases e

end Toku.Props
