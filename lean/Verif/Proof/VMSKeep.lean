import Verif.Proof.VMS
/-
What the signature hash callback keeps of the state, a whole verification keeps.
-/
namespace Toku.VMS
open Toku.VM Toku.Script

variable {σ : Type}

/-- `m` keeps the invariant, whatever its result. -/
def Keeps (Inv : σ → Prop) {α : Type} (m : M σ α) : Prop := ∀ s, Inv s → Inv (m s).2

variable {Inv : σ → Prop} {es : Env σ}

theorem Keeps.lift {α : Type} (r : Res α) : Keeps Inv (lift r) := fun _ h => h

theorem Keeps.bind {α β : Type} {m : M σ α} {g : α → M σ β} (h1 : Keeps Inv m) (h2 : ∀ a, Keeps Inv (g a)) :
    Keeps Inv (m >>= g) := by
  intro s hs
  have h := h1 s hs
  change Inv (VMS.bind m g s).2
  unfold VMS.bind
  cases hm : m s with
  | mk r s1 =>
    rw [hm] at h
    cases r with
    | ok a => exact h2 a s1 h
    | err e => exact h
    | panic => exact h

theorem opCheckSig_keeps (hk : ∀ t, Keeps Inv (es.hasher t)) (s : Stack) : Keeps Inv (opCheckSig es s) := by
  unfold opCheckSig
  refine Keeps.bind (Keeps.lift _) ?_
  rintro ⟨k, s⟩
  refine Keeps.bind (Keeps.lift _) ?_
  rintro ⟨g, s⟩
  dsimp only
  split
  · exact Keeps.lift _
  · refine Keeps.bind (Keeps.lift _) ?_
    rintro ⟨t, d⟩
    exact Keeps.bind (hk t) fun h => Keeps.bind (Keeps.lift _) fun v => Keeps.lift _

theorem checkOne_keeps (hk : ∀ t, Keeps Inv (es.hasher t)) (g k : Bytes) : Keeps Inv (checkOne es g k) := by
  unfold checkOne
  refine Keeps.bind (Keeps.lift _) ?_
  rintro ⟨t, d⟩
  exact Keeps.bind (hk t) fun h => Keeps.lift _

theorem multisigLoop_keeps (hk : ∀ t, Keeps Inv (es.hasher t)) (keys : List Bytes) : ∀ sigs : List Bytes,
    Keeps Inv (multisigLoop es sigs keys) := by
  induction keys with
  | nil => intro sigs; cases sigs <;> (unfold multisigLoop; exact Keeps.lift _)
  | cons k keys ih =>
    intro sigs
    cases sigs with
    | nil => unfold multisigLoop; exact Keeps.lift _
    | cons g sigs =>
      unfold multisigLoop
      refine Keeps.bind (checkOne_keeps hk g k) fun v => ?_
      split
      · split
        · exact Keeps.lift _
        · exact ih _
      · split
        · exact Keeps.lift _
        · exact ih _

theorem opCheckMultiSig_keeps (hk : ∀ t, Keeps Inv (es.hasher t)) (s : Stack) : Keeps Inv (opCheckMultiSig es s) := by
  unfold opCheckMultiSig
  refine Keeps.bind (Keeps.lift _) ?_
  rintro ⟨n, s⟩
  dsimp only
  split
  · exact Keeps.lift _
  refine Keeps.bind (Keeps.lift _) ?_
  rintro ⟨keys, s⟩
  refine Keeps.bind (Keeps.lift _) ?_
  rintro ⟨m, s⟩
  dsimp only
  split
  · exact Keeps.lift _
  split
  · exact Keeps.lift _
  refine Keeps.bind (Keeps.lift _) ?_
  rintro ⟨sigs, s⟩
  refine Keeps.bind (Keeps.lift _) ?_
  rintro ⟨_, s⟩
  exact Keeps.bind (multisigLoop_keeps hk keys sigs) fun v => Keeps.lift _

theorem exec_keeps (hk : ∀ t, Keeps Inv (es.hasher t)) (i : Instruction) (vm : State) : Keeps Inv (exec es i vm) := by
  unfold exec
  split
  · exact Keeps.lift _
  unfold opfunc
  split
  all_goals first | exact Keeps.lift _ | skip
  refine Keeps.bind ?_ fun s => Keeps.lift _
  unfold dataOp
  split
  · exact opCheckSig_keeps hk _
  · exact Keeps.bind (opCheckSig_keeps hk _) fun s => Keeps.lift _
  · exact opCheckMultiSig_keeps hk _
  · exact Keeps.bind (opCheckMultiSig_keeps hk _) fun s => Keeps.lift _
  · exact Keeps.lift _

theorem runLoop_keeps (hk : ∀ t, Keeps Inv (es.hasher t)) (fuel : Nat) : ∀ (b : Buffer) (vm : State),
    Keeps Inv (runLoop es fuel b vm) := by
  induction fuel with
  | zero => intro b vm; exact Keeps.lift _
  | succ f ih =>
    intro b vm
    unfold runLoop
    refine Keeps.bind (Keeps.lift _) ?_
    rintro ⟨i, b⟩
    cases i with
    | none => exact Keeps.lift _
    | some i => exact Keeps.bind (exec_keeps hk i vm) fun vm => ih b vm

theorem execute_keeps (hk : ∀ t, Keeps Inv (es.hasher t)) (p : Bytes) (final : Bool) (vm : State) :
    Keeps Inv (execute es p final vm) := by
  unfold execute
  exact Keeps.bind (runLoop_keeps hk _ _ _) fun vm => Keeps.lift _

theorem verify_keeps (hk : ∀ t, Keeps Inv (es.hasher t)) (u l : Bytes) (vm : State) : Keeps Inv (verify es u l vm) := by
  unfold verify
  refine Keeps.bind (execute_keeps hk _ _ _) fun vm1 => ?_
  refine Keeps.bind (execute_keeps hk _ _ _) fun vm2 => ?_
  dsimp only
  split
  · refine Keeps.bind (Keeps.lift _) ?_
    rintro ⟨r, s⟩
    exact execute_keeps hk _ _ _
  · exact Keeps.lift _

end Toku.VMS
