import Verif.Proof.Push
import Verif.Spec.VM
/-
Facts about the engine: conditionals, multisig, panics, pushes.
-/
namespace Toku.VM
open Toku.Spec Toku.Buffer Toku.Script

/-! ### conditionals -/

theorem isCond_iff (t : Token) : IsCond t ↔ isIf t = true ∨ isElse t = true ∨ isEndIf t = true := by
  unfold IsCond isIf isElse isEndIf
  have : ∀ a b : UInt8, a = b ↔ a.toNat = b.toNat := fun a b => UInt8.toNat_inj.symm
  simp only [Bool.or_eq_true, decide_eq_true_eq, List.mem_cons, List.not_mem_nil, or_false, this]
  simp only [show (0x63 : UInt8).toNat = 0x63 from rfl, show (0x64 : UInt8).toNat = 0x64 from rfl,
    show (0x67 : UInt8).toNat = 0x67 from rfl, show (0x68 : UInt8).toNat = 0x68 from rfl]
  tauto

theorem exec_if (env : Env) (d : Bytes) (vm : State) : exec env (instrOf ⟨0x63, d⟩) vm = opIf false vm := by
  unfold exec
  have : (instrOf ⟨0x63, d⟩).isConditional = true := rfl
  rw [this]; simp; rfl
theorem exec_notif (env : Env) (d : Bytes) (vm : State) : exec env (instrOf ⟨0x64, d⟩) vm = opIf true vm := by
  unfold exec
  have : (instrOf ⟨0x64, d⟩).isConditional = true := rfl
  rw [this]; simp; rfl
theorem exec_else (env : Env) (d : Bytes) (vm : State) : exec env (instrOf ⟨0x67, d⟩) vm = opElse vm := by
  unfold exec
  have : (instrOf ⟨0x67, d⟩).isConditional = true := rfl
  rw [this]; simp; rfl
theorem exec_endif (env : Env) (d : Bytes) (vm : State) : exec env (instrOf ⟨0x68, d⟩) vm = opEndIf vm := by
  unfold exec
  have : (instrOf ⟨0x68, d⟩).isConditional = true := rfl
  rw [this]; simp; rfl

theorem exec_cond_neg (env : Env) (neg : Bool) (vm : State) :
    exec env (instrOf ⟨if neg then 0x64 else 0x63, []⟩) vm = opIf neg vm := by
  cases neg
  · exact exec_if env [] vm
  · exact exec_notif env [] vm

/-- plain instruction of a structured program -/
def step (env : Env) (t : Token) (s : Stack) : Res Stack := dataOp env (instrOf t) s

mutual
theorem prog_skip (env : Env) (p : Prog) (hp : p.Valid) (s : Stack) (c : Cond) (hc : c ≠ .yes) (cs : List Cond) :
    execAll env p.flatten ⟨s, c :: cs⟩ = .ok ⟨s, c :: cs⟩ := by
  match p with
  | .done => simp [Prog.flatten, execAll]
  | .op t rest =>
    simp only [Prog.Valid] at hp
    simp only [Prog.flatten, execAll]
    rw [exec_skip env hp.1 (by rw [isCond_iff]; tauto) _ (by simp [branchShouldSkip, hc]), Res.ok_bind]
    exact prog_skip env rest hp.2.2.2.2 s c hc cs
  | .cond neg body rest =>
    simp only [Prog.Valid] at hp
    simp only [Prog.flatten, execAll]
    rw [exec_cond_neg]
    have : opIf neg ⟨s, c :: cs⟩ = .ok ⟨s, .skip :: c :: cs⟩ := by simp [opIf, branchShouldSkip, hc]
    rw [this, Res.ok_bind, execAll_append, branches_skip env body hp.1 s _, Res.ok_bind]
    simp only [execAll]
    rw [exec_endif]
    exact prog_skip env rest hp.2 s c hc cs
theorem branches_skip (env : Env) (b : Branches) (hb : b.Valid) (s : Stack) (cs : List Cond) :
    execAll env b.flatten ⟨s, .skip :: cs⟩ = .ok ⟨s, .skip :: cs⟩ := by
  match b with
  | .last p =>
    simp only [Branches.flatten]
    exact prog_skip env p hb s .skip (by simp) cs
  | .els p rest =>
    simp only [Branches.Valid] at hb
    simp only [Branches.flatten]
    rw [execAll_append, prog_skip env p hb.1 s .skip (by simp) cs, Res.ok_bind]
    simp only [execAll]
    rw [exec_else]
    exact branches_skip env rest hb.2 s cs
end

/-- whether the last branch is the one taken -/
def lastTaken : Bool → Branches → Bool
  | t, .last _ => t
  | t, .els _ r => lastTaken (!t) r

mutual
theorem prog_sem (env : Env) (p : Prog) (hp : p.Valid) (s : Stack) (cs : List Cond)
    (hc : branchShouldSkip ⟨s, cs⟩ = false) :
    execAll env p.flatten ⟨s, cs⟩ = (p.sem (step env) popIfBool s >>= fun s' => .ok ⟨s', cs⟩) := by
  match p with
  | .done => simp [Prog.flatten, execAll, Prog.sem]
  | .op t rest =>
    simp only [Prog.Valid] at hp
    simp only [Prog.flatten, execAll, Prog.sem]
    rw [exec_data env hp.1 (by rw [isCond_iff]; tauto) _ hc, bind_assoc', bind_assoc']
    unfold step
    cases dataOp env (instrOf t) s with
    | err e => rfl
    | panic => rfl
    | ok s' =>
      simp only [Res.ok_bind]
      exact prog_sem env rest hp.2.2.2.2 s' cs hc
  | .cond neg body rest =>
    simp only [Prog.Valid] at hp
    simp only [Prog.flatten, execAll, Prog.sem]
    rw [exec_cond_neg]
    unfold opIf
    rw [hc]
    simp only [Bool.not_false, if_true]
    cases popIfBool s with
    | err e => rfl
    | panic => rfl
    | ok r =>
      obtain ⟨b, s1⟩ := r
      simp only [Res.ok_bind, Res.pure_eq]
      rw [execAll_append, branches_sem env body hp.1 (b != neg) s1 cs]
      cases Branches.sem (step env) popIfBool body (b != neg) s1 with
      | err e => rfl
      | panic => rfl
      | ok s2 =>
        simp only [Res.ok_bind, execAll]
        rw [exec_endif]
        exact prog_sem env rest hp.2 s2 cs hc
theorem branches_sem (env : Env) (b : Branches) (hb : b.Valid) (taken : Bool) (s : Stack) (cs : List Cond) :
    execAll env b.flatten ⟨s, (if taken then .yes else .no) :: cs⟩ =
      (b.sem (step env) popIfBool taken s >>= fun s' => .ok ⟨s', (if lastTaken taken b then .yes else .no) :: cs⟩) := by
  match b with
  | .last p =>
    simp only [Branches.flatten, Branches.sem, lastTaken]
    cases taken with
    | true => exact prog_sem env p hb s (.yes :: cs) (by simp [branchShouldSkip])
    | false => exact prog_skip env p hb s .no (by simp) cs
  | .els p rest =>
    simp only [Branches.Valid] at hb
    simp only [Branches.flatten, Branches.sem, lastTaken]
    rw [execAll_append]
    cases taken with
    | true =>
      simp only [if_true]
      rw [prog_sem env p hb.1 s (.yes :: cs) (by simp [branchShouldSkip])]
      cases Prog.sem (step env) popIfBool p s with
      | err e => rfl
      | panic => rfl
      | ok s1 =>
        simp only [Res.ok_bind, execAll]
        rw [exec_else]
        exact branches_sem env rest hb.2 false s1 cs
    | false =>
      simp only [Bool.false_eq_true, if_false]
      rw [prog_skip env p hb.1 s .no (by simp) cs, Res.ok_bind]
      simp only [execAll]
      rw [exec_else]
      exact branches_sem env rest hb.2 true s cs
end

/-- put a plain instruction in front of the first branch -/
def Branches.consOp (t : Token) : Branches → Branches
  | .last p => .last (.op t p)
  | .els p r => .els (.op t p) r
def Branches.consCond (neg : Bool) (b : Branches) : Branches → Branches
  | .last p => .last (.cond neg b p)
  | .els p r => .els (.cond neg b p) r

theorem isIf_cases {t : Token} (hv : t.Valid) (h : isIf t = true) :
    ∃ neg : Bool, t = ⟨if neg then 0x64 else 0x63, []⟩ := by
  obtain ⟨op, d⟩ := t
  have hd : d = [] := by
    have h2 := hv.2
    simp only [isIf, Bool.or_eq_true, decide_eq_true_eq] at h
    simp only at h2
    rcases h with rfl | rfl
    · rw [if_neg (by decide)] at h2
      simp [lenWidth] at h2; exact h2
    · rw [if_neg (by decide)] at h2
      simp [lenWidth] at h2; exact h2
  subst hd
  simp only [isIf, Bool.or_eq_true, decide_eq_true_eq] at h
  rcases h with rfl | rfl
  · exact ⟨false, rfl⟩
  · exact ⟨true, rfl⟩

theorem data_nil {t : Token} (hv : t.Valid) (h : t.op = 0x67 ∨ t.op = 0x68) : t.data = [] := by
  have h2 := hv.2
  rcases h with h | h <;> rw [h] at h2
  · rw [if_neg (by decide)] at h2
    simp [lenWidth] at h2; exact h2
  · rw [if_neg (by decide)] at h2
    simp [lenWidth] at h2; exact h2

theorem wellNested_prog (n : Nat) : ∀ ts : List Token, ts.length ≤ n → (∀ t ∈ ts, t.Valid) →
    (WellNested 0 ts → ∃ p : Prog, p.Valid ∧ p.flatten = ts) ∧
    (∀ d, WellNested (d + 1) ts → ∃ (b : Branches) (rest : List Token), b.Valid ∧
      ts = b.flatten ++ ⟨0x68, []⟩ :: rest ∧ WellNested d rest) := by
  induction n with
  | zero =>
    intro ts hl hv
    have : ts = [] := List.eq_nil_of_length_eq_zero (by omega)
    subst this
    exact ⟨fun _ => ⟨.done, by simp [Prog.Valid], by simp [Prog.flatten]⟩, fun d h => by simp [WellNested] at h⟩
  | succ n ih =>
    intro ts hl hv
    match ts with
    | [] => exact ⟨fun _ => ⟨.done, by simp [Prog.Valid], by simp [Prog.flatten]⟩, fun d h => by simp [WellNested] at h⟩
    | t :: ts =>
      simp only [List.length_cons] at hl
      have hvt := hv t (by simp)
      have hvs : ∀ t ∈ ts, t.Valid := fun t h => hv t (by simp [h])
      obtain ⟨ih0, ihd⟩ := ih ts (by omega) hvs
      by_cases h1 : isIf t = true
      · obtain ⟨neg, rfl⟩ := isIf_cases hvt h1
        constructor
        · intro h
          simp only [WellNested, h1, if_true] at h
          obtain ⟨b, rest, hb, he, hw⟩ := ihd 0 h
          have hlen : rest.length ≤ n := by have := congrArg List.length he; simp at this; omega
          obtain ⟨p, hp, hpe⟩ := (ih rest hlen (fun t ht => hvs t (by rw [he]; simp [ht]))).1 hw
          exact ⟨.cond neg b p, by simp [Prog.Valid, hb, hp], by simp [Prog.flatten, hpe, he]⟩
        · intro d h
          simp only [WellNested, h1, if_true] at h
          obtain ⟨b, rest, hb, he, hw⟩ := ihd (d + 1) h
          have hlen : rest.length ≤ n := by have := congrArg List.length he; simp at this; omega
          obtain ⟨b2, rest2, hb2, he2, hw2⟩ := (ih rest hlen (fun t ht => hvs t (by rw [he]; simp [ht]))).2 d hw
          refine ⟨Branches.consCond neg b b2, rest2, ?_, ?_, hw2⟩
          · cases b2 <;> simp [Branches.consCond, Branches.Valid, Prog.Valid] at hb2 ⊢ <;> tauto
          · rw [he, he2]
            cases b2 <;> simp [Branches.consCond, Branches.flatten, Prog.flatten]
      · by_cases h2 : isElse t = true
        · have : t = ⟨0x67, []⟩ := by
            obtain ⟨op, dd⟩ := t
            have ho : op = 0x67 := by simpa [isElse] using h2
            have := data_nil hvt (Or.inl ho)
            simp only at this
            rw [ho, this]
          subst this
          constructor
          · intro h
            simp [WellNested, h1, h2] at h
          · intro d h
            simp only [WellNested, h1, h2, if_true] at h
            obtain ⟨b, rest, hb, he, hw⟩ := ihd d h.2
            exact ⟨.els .done b, rest, by simp [Branches.Valid, Prog.Valid, hb], by simp [Branches.flatten, Prog.flatten, he], hw⟩
        · by_cases h3 : isEndIf t = true
          · have : t = ⟨0x68, []⟩ := by
              obtain ⟨op, dd⟩ := t
              have ho : op = 0x68 := by simpa [isEndIf] using h3
              have := data_nil hvt (Or.inr ho)
              simp only at this
              rw [ho, this]
            subst this
            constructor
            · intro h
              simp [WellNested, h1, h2, h3] at h
            · intro d h
              simp [WellNested, h1, h2, h3] at h
              exact ⟨.last .done, ts, by simp [Branches.Valid, Prog.Valid], by simp [Branches.flatten, Prog.flatten], h⟩
          · constructor
            · intro h
              simp [WellNested, h1, h2, h3] at h
              obtain ⟨p, hp, he⟩ := ih0 h
              exact ⟨.op t p, by simp [Prog.Valid, hvt, h1, h2, h3, hp], by simp [Prog.flatten, he]⟩
            · intro d h
              simp [WellNested, h1, h2, h3] at h
              obtain ⟨b, rest, hb, he, hw⟩ := ihd d h
              refine ⟨Branches.consOp t b, rest, ?_, ?_, hw⟩
              · cases b <;> simp [Branches.consOp, Branches.Valid, Prog.Valid, hvt, h1, h2, h3] at hb ⊢ <;> tauto
              · rw [he]; cases b <;> simp [Branches.consOp, Branches.flatten, Prog.flatten]

/-- conditionals change the height of the control stack by one, nothing else does -/
theorem exec_cstack {env : Env} {t : Token} (hv : t.Valid) {vm vm' : State} (h : exec env (instrOf t) vm = .ok vm') :
    vm'.cstack.length + (if isEndIf t then 1 else 0) = vm.cstack.length + (if isIf t then 1 else 0) := by
  by_cases h1 : isIf t = true
  · obtain ⟨neg, rfl⟩ := isIf_cases hv h1
    have h3 : isEndIf ⟨if neg then 0x64 else 0x63, []⟩ = false := by cases neg <;> rfl
    rw [h1, h3]
    rw [exec_cond_neg] at h
    unfold opIf at h
    split at h
    · rw [Res.bind_eq_ok] at h
      obtain ⟨⟨b, s⟩, _, h⟩ := h
      cases h; simp
    · cases h; simp
  · by_cases h2 : isElse t = true
    · have ho : t.op = 0x67 := by simpa [isElse] using h2
      have hd := data_nil hv (Or.inl ho)
      obtain ⟨op, d⟩ := t
      simp only at ho hd; subst ho; subst hd
      have h3 : isEndIf ⟨0x67, []⟩ = false := rfl
      rw [exec_else] at h
      unfold opElse at h
      rw [h3]
      simp only [h1]
      split at h <;> cases h <;> simp_all
    · by_cases h3 : isEndIf t = true
      · have ho : t.op = 0x68 := by simpa [isEndIf] using h3
        have hd := data_nil hv (Or.inr ho)
        obtain ⟨op, d⟩ := t
        simp only at ho hd; subst ho; subst hd
        rw [exec_endif] at h
        unfold opEndIf at h
        rw [h3]
        simp only [h1]
        split at h <;> cases h; simp_all
      · simp only [h1, h3]
        have hc : ¬ IsCond t := by rw [isCond_iff]; tauto
        by_cases hs : branchShouldSkip vm = true
        · rw [exec_skip env hv hc vm hs] at h; cases h; simp
        · rw [exec_data env hv hc vm (by simpa using hs), Res.bind_eq_ok] at h
          obtain ⟨s, _, h⟩ := h
          cases h; simp

theorem execAll_cstack {env : Env} {ts : List Token} (hv : ∀ t ∈ ts, t.Valid) {vm vm' : State}
    (h : execAll env ts vm = .ok vm') :
    vm'.cstack.length + (ts.filter isEndIf).length = vm.cstack.length + (ts.filter isIf).length := by
  induction ts generalizing vm with
  | nil => simp [execAll] at h; subst h; simp
  | cons t ts ih =>
    simp only [execAll, Res.bind_eq_ok] at h
    obtain ⟨vm1, h1, h2⟩ := h
    have a := exec_cstack (hv t (by simp)) h1
    have b := ih (fun t ht => hv t (by simp [ht])) h2
    simp only [List.filter_cons]
    split_ifs at a ⊢ <;> simp_all <;> omega

theorem balanced_cstack {env : Env} {ts : List Token} (hv : ∀ t ∈ ts, t.Valid) (hb : Balanced ts) {vm' : State}
    {s : Stack} (h : execAll env ts ⟨s, []⟩ = .ok vm') : vm'.cstack = [] := by
  have := execAll_cstack hv h
  unfold Balanced at hb
  simp only [List.length_nil] at this
  exact List.eq_nil_of_length_eq_zero (by omega)

/-! ### pushes -/

theorem push_token (env : Env) {t : Token} (h : IsPush t) (s : Stack) :
    dataOp env (instrOf t) s = .ok (pushValue t :: s) := by
  obtain ⟨hv, h60⟩ := h
  unfold pushValue
  by_cases h0 : t.op.toNat = 0
  · rw [if_pos h0]
    have h0' : t.op = 0 := by rw [← UInt8.toNat_inj]; exact h0
    have hf : (instrOf t).op.fn = .opFalse := by unfold instrOf; rw [h0']; rfl
    unfold dataOp; simp only [hf]
  rw [if_neg h0]
  by_cases h1 : t.op.toNat ≤ 0x4e
  · rw [if_pos h1, push_data env (by omega)]
  · rw [if_neg h1]
    have hs := hv.1
    unfold Supported at hs
    have hr : 0x51 ≤ t.op.toNat := by
      simp only [List.mem_cons, List.not_mem_nil, or_false] at hs
      omega
    have key : ∀ op : UInt8, 0x51 ≤ op.toNat → op.toNat ≤ 0x60 → (op - 0x50) ≤ 16 ∧ (op - 0x50) ≠ 0 ∧
        0x50 + (op - 0x50) = op ∧ UInt8.ofNat (op.toNat - 0x50) = op - 0x50 := by
      apply Base58.forall_uint8; decide +kernel
    obtain ⟨k1, k2, k3, k4⟩ := key t.op hr h60
    obtain ⟨o, ho, hf, hval⟩ := fn_opN _ k1 k2
    rw [k3] at ho hval
    have hi : instrOf t = ⟨o, t.data⟩ := by simp [instrOf, ho]
    have := bytes_small _ k1 k2
    rw [k3] at this
    rw [hi, k4]; unfold dataOp; simp only [hf, hval, pushInt]
    rw [this]; rfl

theorem isPush_not_cond {t : Token} (h : IsPush t) : ¬ IsCond t := by
  have := h.2
  unfold IsCond
  simp only [List.mem_cons, List.not_mem_nil, or_false]
  omega

theorem execAll_pushes (env : Env) {ts : List Token} (h : ∀ t ∈ ts, IsPush t) (s : Stack) :
    execAll env ts ⟨s, []⟩ = .ok ⟨(ts.map pushValue).reverse ++ s, []⟩ := by
  induction ts generalizing s with
  | nil => simp [execAll]
  | cons t ts ih =>
    have ht := h t (by simp)
    simp only [execAll]
    rw [exec_data env ht.1 (isPush_not_cond ht) _ rfl, push_token env ht]
    simp only [Res.ok_bind]
    rw [ih (fun t ht => h t (by simp [ht]))]
    simp

end Toku.VM
