import Verif.Model.VMS
import Verif.Proof.VM
/-
The stateful engine simulates the stateless one.
-/
namespace Toku.VMS
open Toku.VM Toku.Script

variable {σ : Type}

/-- From every state with the invariant, `m` gives the result `r` and keeps the invariant; if `r` is a panic, only if `px` holds. -/
def SimX (px : Prop) (Inv : σ → Prop) {α : Type} (r : Res α) (m : M σ α) : Prop :=
  (r = .panic → px) → ∀ s, Inv s → ∃ s', m s = (r, s') ∧ Inv s'

/-- From every state with the invariant, `m` gives the result `r` (unless that is a panic) and keeps the invariant. -/
abbrev Sim (Inv : σ → Prop) {α : Type} (r : Res α) (m : M σ α) : Prop := SimX False Inv r m

variable {px : Prop}

variable {Inv : σ → Prop}

theorem SimX.lift {α : Type} (r : Res α) : SimX px Inv r (lift r) := fun _ s h => ⟨s, rfl, h⟩

theorem SimX.bind {α β : Type} {r : Res α} {m : M σ α} {f : α → Res β} {g : α → M σ β} (h1 : SimX px Inv r m)
    (h2 : ∀ a, SimX px Inv (f a) (g a)) : SimX px Inv (r >>= f) (m >>= g) := by
  intro hp s hs
  obtain ⟨s1, e1, i1⟩ := h1 (fun hr => hp (by rw [hr]; rfl)) s hs
  cases r with
  | panic =>
    refine ⟨s1, ?_, i1⟩
    change VMS.bind m g s = _
    unfold VMS.bind
    rw [e1]; rfl
  | err e =>
    refine ⟨s1, ?_, i1⟩
    change VMS.bind m g s = _
    unfold VMS.bind
    rw [e1]; rfl
  | ok a =>
    obtain ⟨s2, e2, i2⟩ := h2 a hp s1 i1
    refine ⟨s2, ?_, i2⟩
    change VMS.bind m g s = _
    unfold VMS.bind
    rw [e1]; exact e2

/-- The stateless callbacks agree with the stateful ones. -/
structure AgreeX (px : Prop) (Inv : σ → Prop) (env : VM.Env) (es : Env σ) (hasher : UInt8 → Res Bytes) : Prop where
  hash : env.hash160 = es.hash160
  sigHasher : env.sigHasher = some hasher
  verifier : env.sigVerifier = some es.verifier
  sim : ∀ t, SimX px Inv (hasher t) (es.hasher t)

/-- The stateless callbacks agree with the stateful ones where they do not panic. -/
abbrev Agree (Inv : σ → Prop) (env : VM.Env) (es : Env σ) (hasher : UInt8 → Res Bytes) : Prop := AgreeX False Inv env es hasher

variable {env : VM.Env} {es : Env σ} {hasher : UInt8 → Res Bytes}

theorem opCheckSig_sim (a : AgreeX px Inv env es hasher) (s : Stack) : SimX px Inv (VM.opCheckSig env s) (opCheckSig es s) := by
  unfold VM.opCheckSig opCheckSig
  simp only [a.sigHasher, a.verifier]
  refine SimX.bind (SimX.lift _) ?_
  rintro ⟨k, s⟩
  refine SimX.bind (SimX.lift _) ?_
  rintro ⟨g, s⟩
  dsimp only
  split
  · exact SimX.lift _
  · refine SimX.bind (SimX.lift _) ?_
    rintro ⟨t, d⟩
    refine SimX.bind (a.sim t) ?_
    intro h
    exact SimX.bind (SimX.lift _) fun v => SimX.lift _

theorem checkOne_sim (a : AgreeX px Inv env es hasher) (g k : Bytes) : SimX px Inv (VM.checkOne env g k) (checkOne es g k) := by
  unfold VM.checkOne checkOne
  simp only [a.sigHasher, a.verifier]
  refine SimX.bind (SimX.lift _) ?_
  rintro ⟨t, d⟩
  exact SimX.bind (a.sim t) fun h => SimX.lift _

theorem multisigLoop_sim (a : AgreeX px Inv env es hasher) (keys : List Bytes) : ∀ sigs : List Bytes,
    SimX px Inv (VM.multisigLoop env sigs keys) (multisigLoop es sigs keys) := by
  induction keys with
  | nil =>
    intro sigs
    cases sigs with
    | nil => simp only [VM.multisigLoop, multisigLoop]; exact SimX.lift _
    | cons g sigs => simp only [VM.multisigLoop, multisigLoop]; exact SimX.lift _
  | cons k keys ih =>
    intro sigs
    cases sigs with
    | nil => simp only [VM.multisigLoop, multisigLoop]; exact SimX.lift _
    | cons g sigs =>
      simp only [VM.multisigLoop, multisigLoop]
      refine SimX.bind (checkOne_sim a g k) fun v => ?_
      cases v with
      | true =>
        simp only [if_true]
        split
        · exact SimX.lift _
        · exact ih sigs
      | false =>
        simp only [Bool.false_eq_true, if_false]
        split
        · exact SimX.lift _
        · exact ih (g :: sigs)

theorem opCheckMultiSig_sim (a : AgreeX px Inv env es hasher) (s : Stack) :
    SimX px Inv (VM.opCheckMultiSig env s) (opCheckMultiSig es s) := by
  unfold VM.opCheckMultiSig opCheckMultiSig
  refine SimX.bind (SimX.lift _) ?_
  rintro ⟨n, s⟩
  dsimp only
  split
  · exact SimX.lift _
  refine SimX.bind (SimX.lift _) ?_
  rintro ⟨keys, s⟩
  refine SimX.bind (SimX.lift _) ?_
  rintro ⟨m, s⟩
  dsimp only
  split
  · exact SimX.lift _
  split
  · exact SimX.lift _
  refine SimX.bind (SimX.lift _) ?_
  rintro ⟨sigs, s⟩
  refine SimX.bind (SimX.lift _) ?_
  rintro ⟨_, s⟩
  exact SimX.bind (multisigLoop_sim a keys sigs) fun b => SimX.lift _

theorem dataOp_sim (a : AgreeX px Inv env es hasher) (i : Instruction) (s : Stack) :
    SimX px Inv (VM.dataOp env i s) (dataOp es i s) := by
  unfold VM.dataOp dataOp
  cases h : i.op.fn
  case opCheckSig => exact opCheckSig_sim a s
  case opCheckMultiSig => exact opCheckMultiSig_sim a s
  case opCheckSigVerify => exact SimX.bind (opCheckSig_sim a s) fun _ => SimX.lift _
  case opCheckMultiSigVerify => exact SimX.bind (opCheckMultiSig_sim a s) fun _ => SimX.lift _
  case opHash160 =>
    dsimp only
    unfold VM.dataOp
    rw [h]
    have : VM.opHash160 env s = VM.opHash160 es.plain s := by
      unfold VM.opHash160; rw [a.hash]; rfl
    rw [this]
    exact SimX.lift _
  all_goals
    dsimp only
    unfold VM.dataOp
    rw [h]
    exact SimX.lift _

theorem opfunc_sim (a : AgreeX px Inv env es hasher) (i : Instruction) (vm : State) :
    SimX px Inv (VM.opfunc env i vm) (opfunc es i vm) := by
  unfold opfunc
  split
  all_goals (try rename_i h)
  all_goals (try (unfold VM.opfunc; rw [h]; exact SimX.lift _))
  rename_i h1 h2 h3
  have : VM.opfunc env i vm = (VM.dataOp env i vm.dstack >>= fun s => .ok { vm with dstack := s }) := by
    unfold VM.opfunc
    cases hf : i.op.fn <;> first | rfl | (exfalso; simp_all)
  rw [this]
  exact SimX.bind (dataOp_sim a i _) fun _ => SimX.lift _

theorem exec_sim (a : AgreeX px Inv env es hasher) (i : Instruction) (vm : State) :
    SimX px Inv (VM.exec env i vm) (exec es i vm) := by
  unfold VM.exec exec
  split
  · exact SimX.lift _
  · exact opfunc_sim a i vm

theorem runLoop_sim (a : AgreeX px Inv env es hasher) (fuel : Nat) : ∀ (b : Buffer) (vm : State),
    SimX px Inv (VM.runLoop env fuel b vm) (runLoop es fuel b vm) := by
  induction fuel with
  | zero => intro b vm; unfold VM.runLoop runLoop; exact SimX.lift _
  | succ f ih =>
    intro b vm
    unfold VM.runLoop runLoop
    refine SimX.bind (SimX.lift _) ?_
    rintro ⟨i, b⟩
    cases i with
    | none => exact SimX.lift _
    | some i => exact SimX.bind (exec_sim a i vm) fun vm => ih b vm

theorem execute_sim (a : AgreeX px Inv env es hasher) (p : Bytes) (final : Bool) (vm : State) :
    SimX px Inv (VM.execute env p final vm) (execute es p final vm) := by
  unfold VM.execute execute
  exact SimX.bind (runLoop_sim a _ _ _) fun vm => SimX.lift _

theorem verify_sim (a : AgreeX px Inv env es hasher) (u l : Bytes) (vm : State) :
    SimX px Inv (VM.verify env u l vm) (verify es u l vm) := by
  unfold VM.verify verify
  refine SimX.bind (execute_sim a _ _ _) fun vm1 => ?_
  refine SimX.bind (execute_sim a _ _ _) fun vm2 => ?_
  dsimp only
  split
  · refine SimX.bind (SimX.lift _) ?_
    rintro ⟨r, s⟩
    exact execute_sim a _ _ _
  · exact SimX.lift _

end Toku.VMS
