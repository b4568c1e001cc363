import Verif.Proof.VMS
/-
Two runs of the stateful engine side by side, with signature hash callbacks `h1` and `h2` from related states: as long as
the callbacks give the same digests and related states the runs agree, and otherwise the first ends in a state with `Q`.
-/
namespace Toku.VMS
open Toku.VM Toku.Script

variable {σ : Type}

/-- From related states the two computations agree and end in related states, or the first ends in a state with `Q`; the
first keeps `Q`. -/
structure Lock (R : σ → σ → Prop) (Q : σ → Prop) {α : Type} (m1 m2 : M σ α) : Prop where
  step : ∀ s1 s2, R s1 s2 → ((m1 s1).1 = (m2 s2).1 ∧ R (m1 s1).2 (m2 s2).2) ∨ Q (m1 s1).2
  keep : ∀ s, Q s → Q (m1 s).2

variable {R : σ → σ → Prop} {Q : σ → Prop}

theorem Lock.lift {α : Type} (r : Res α) : Lock R Q (lift r : M σ α) (lift r) := ⟨fun _ _ h => .inl ⟨rfl, h⟩, fun _ h => h⟩

theorem Lock.bind {α β : Type} {m1 m2 : M σ α} {g1 g2 : α → M σ β} (h : Lock R Q m1 m2) (hg : ∀ a, Lock R Q (g1 a) (g2 a)) :
    Lock R Q (m1 >>= g1) (m2 >>= g2) := by
  have kb : ∀ s, Q (m1 s).2 → Q (VMS.bind m1 g1 s).2 := by
    intro s hq
    unfold VMS.bind
    cases hm : m1 s with
    | mk r s1 =>
      rw [hm] at hq
      cases r with
      | ok a => exact (hg a).keep s1 hq
      | err e => exact hq
      | panic => exact hq
  constructor
  · intro s1 s2 hr
    rcases h.step s1 s2 hr with ⟨e, hr'⟩ | hq
    · change ((VMS.bind m1 g1 s1).1 = (VMS.bind m2 g2 s2).1 ∧ R (VMS.bind m1 g1 s1).2 (VMS.bind m2 g2 s2).2) ∨ Q (VMS.bind m1 g1 s1).2
      unfold VMS.bind
      cases hm1 : m1 s1 with
      | mk r1 t1 =>
        cases hm2 : m2 s2 with
        | mk r2 t2 =>
          rw [hm1, hm2] at e hr'
          dsimp only at e hr'
          subst e
          cases r1 with
          | ok a => exact (hg a).step t1 t2 hr'
          | err e => exact .inl ⟨rfl, hr'⟩
          | panic => exact .inl ⟨rfl, hr'⟩
    · exact .inr (kb s1 hq)
  · intro s hq
    exact kb s (h.keep s hq)

variable {es : Env σ} {h1 h2 : UInt8 → M σ Bytes}

/-- `es` with another signature hash callback -/
abbrev withHasher (es : Env σ) (h : UInt8 → M σ Bytes) : Env σ := { es with hasher := h }

theorem opCheckSig_lock (hk : ∀ t, Lock R Q (h1 t) (h2 t)) (s : Stack) :
    Lock R Q (opCheckSig (withHasher es h1) s) (opCheckSig (withHasher es h2) s) := by
  unfold opCheckSig
  refine Lock.bind (Lock.lift _) ?_
  rintro ⟨k, s⟩
  refine Lock.bind (Lock.lift _) ?_
  rintro ⟨g, s⟩
  dsimp only
  split
  · exact Lock.lift _
  · refine Lock.bind (Lock.lift _) ?_
    rintro ⟨t, d⟩
    exact Lock.bind (hk t) fun h => Lock.bind (Lock.lift _) fun v => Lock.lift _

theorem checkOne_lock (hk : ∀ t, Lock R Q (h1 t) (h2 t)) (g k : Bytes) :
    Lock R Q (checkOne (withHasher es h1) g k) (checkOne (withHasher es h2) g k) := by
  unfold checkOne
  refine Lock.bind (Lock.lift _) ?_
  rintro ⟨t, d⟩
  exact Lock.bind (hk t) fun h => Lock.lift _

theorem multisigLoop_lock (hk : ∀ t, Lock R Q (h1 t) (h2 t)) (keys : List Bytes) : ∀ sigs : List Bytes,
    Lock R Q (multisigLoop (withHasher es h1) sigs keys) (multisigLoop (withHasher es h2) sigs keys) := by
  induction keys with
  | nil => intro sigs; cases sigs <;> (unfold multisigLoop; exact Lock.lift _)
  | cons k keys ih =>
    intro sigs
    cases sigs with
    | nil => unfold multisigLoop; exact Lock.lift _
    | cons g sigs =>
      unfold multisigLoop
      refine Lock.bind (checkOne_lock hk g k) fun v => ?_
      split
      · split
        · exact Lock.lift _
        · exact ih _
      · split
        · exact Lock.lift _
        · exact ih _

theorem opCheckMultiSig_lock (hk : ∀ t, Lock R Q (h1 t) (h2 t)) (s : Stack) :
    Lock R Q (opCheckMultiSig (withHasher es h1) s) (opCheckMultiSig (withHasher es h2) s) := by
  unfold opCheckMultiSig
  refine Lock.bind (Lock.lift _) ?_
  rintro ⟨n, s⟩
  dsimp only
  split
  · exact Lock.lift _
  refine Lock.bind (Lock.lift _) ?_
  rintro ⟨keys, s⟩
  refine Lock.bind (Lock.lift _) ?_
  rintro ⟨m, s⟩
  dsimp only
  split
  · exact Lock.lift _
  split
  · exact Lock.lift _
  refine Lock.bind (Lock.lift _) ?_
  rintro ⟨sigs, s⟩
  refine Lock.bind (Lock.lift _) ?_
  rintro ⟨_, s⟩
  exact Lock.bind (multisigLoop_lock hk keys sigs) fun v => Lock.lift _

theorem exec_lock (hk : ∀ t, Lock R Q (h1 t) (h2 t)) (i : Instruction) (vm : State) :
    Lock R Q (exec (withHasher es h1) i vm) (exec (withHasher es h2) i vm) := by
  unfold exec
  split
  · exact Lock.lift _
  unfold opfunc
  split
  all_goals first | exact Lock.lift _ | skip
  refine Lock.bind ?_ fun s => Lock.lift _
  unfold dataOp
  split
  · exact opCheckSig_lock hk _
  · exact Lock.bind (opCheckSig_lock hk _) fun s => Lock.lift _
  · exact opCheckMultiSig_lock hk _
  · exact Lock.bind (opCheckMultiSig_lock hk _) fun s => Lock.lift _
  · exact Lock.lift _

theorem runLoop_lock (hk : ∀ t, Lock R Q (h1 t) (h2 t)) (fuel : Nat) : ∀ (b : Buffer) (vm : State),
    Lock R Q (runLoop (withHasher es h1) fuel b vm) (runLoop (withHasher es h2) fuel b vm) := by
  induction fuel with
  | zero => intro b vm; exact Lock.lift _
  | succ f ih =>
    intro b vm
    unfold runLoop
    refine Lock.bind (Lock.lift _) ?_
    rintro ⟨i, b⟩
    cases i with
    | none => exact Lock.lift _
    | some i => exact Lock.bind (exec_lock hk i vm) fun vm => ih b vm

theorem execute_lock (hk : ∀ t, Lock R Q (h1 t) (h2 t)) (p : Bytes) (final : Bool) (vm : State) :
    Lock R Q (execute (withHasher es h1) p final vm) (execute (withHasher es h2) p final vm) := by
  unfold execute
  exact Lock.bind (runLoop_lock hk _ _ _) fun vm => Lock.lift _

theorem verify_lock (hk : ∀ t, Lock R Q (h1 t) (h2 t)) (u l : Bytes) (vm : State) :
    Lock R Q (verify (withHasher es h1) u l vm) (verify (withHasher es h2) u l vm) := by
  unfold verify
  refine Lock.bind (execute_lock hk _ _ _) fun vm1 => ?_
  refine Lock.bind (execute_lock hk _ _ _) fun vm2 => ?_
  dsimp only
  split
  · refine Lock.bind (Lock.lift _) ?_
    rintro ⟨r, s⟩
    exact execute_lock hk _ _ _
  · exact Lock.lift _

end Toku.VMS
