import Verif.Model.Stream
import Verif.Proof.Frame
import Verif.Spec.Stream
/-
Invariants of the concurrent use of streams.
-/
namespace Toku.Stream
open Toku.Protocol Toku.Spec

variable [Hashes] {magic : Bytes}

@[simp] theorem set_procs (s : End) (t : Nat) (p : Proc) : (s.set t p).procs t = p := by simp [End.set]

theorem set_procs_ne (s : End) (t u : Nat) (p : Proc) (h : u ≠ t) : (s.set t p).procs u = s.procs u := by
  simp [End.set, Function.update_of_ne h]

theorem set_procs_eq (s : End) (t u : Nat) (p : Proc) : (s.set t p).procs u = if u = t then p else s.procs u := by
  by_cases h : u = t
  · subst h; simp
  · rw [set_procs_ne s t u p h, if_neg h]

/-- In the critical section. -/
def Inside : Proc → Prop
  | .writing _ _ => True
  | .reading => True
  | _ => False

/-- The mutex excludes. -/
def Excl (s : End) : Prop := ∀ t, Inside (s.procs t) ↔ s.holder = some t

theorem excl_init : Excl End.init := by
  intro t
  simp [End.init, Inside]

theorem excl_step {s s' : End} {a : Act} (h : Excl s) (hs : Step magic s a s') : Excl s' := by
  have key : ∀ (t : Nat) (p : Proc), s.procs t = p → Inside p → ∀ u, u ≠ t → ¬ Inside (s.procs u) := by
    intro t p hp hi u hu hc
    have h1 := (h t).mp (by rw [hp]; exact hi)
    have h2 := (h u).mp hc
    rw [h1] at h2
    exact hu (Option.some.inj h2).symm
  cases hs with
  | callWrite t m hp =>
    intro u
    have := h u
    rw [set_procs_eq]
    by_cases hu : u = t
    · subst hu
      rw [hp] at this
      rw [if_pos rfl]
      exact this
    · rw [if_neg hu]; exact this
  | callRead t hp =>
    intro u
    have := h u
    rw [set_procs_eq]
    by_cases hu : u = t
    · subst hu
      rw [hp] at this
      rw [if_pos rfl]
      exact this
    · rw [if_neg hu]; exact this
  | lockWrite t m hp hh =>
    intro u
    have := h u
    show Inside ((s.set t _).procs u) ↔ some t = some u
    rw [set_procs_eq]
    by_cases hu : u = t
    · subst hu; simp [Inside]
    · rw [if_neg hu, this, hh]
      simp [Ne.symm hu]
  | lockRead t hp hh =>
    intro u
    have := h u
    show Inside ((s.set t _).procs u) ↔ some t = some u
    rw [set_procs_eq]
    by_cases hu : u = t
    · subst hu; simp [Inside]
    · rw [if_neg hu, this, hh]
      simp [Ne.symm hu]
  | put t m rest n hp hb hn hl =>
    intro u
    have := h u
    show Inside ((s.set t _).procs u) ↔ s.holder = some u
    rw [set_procs_eq]
    by_cases hu : u = t
    · subst hu
      rw [hp] at this
      rw [if_pos rfl]
      exact this
    · rw [if_neg hu]; exact this
  | wrote t m hp hb =>
    intro u
    show Inside ((s.set t _).procs u) ↔ none = some u
    rw [set_procs_eq]
    by_cases hu : u = t
    · simp [hu, Inside]
    · rw [if_neg hu]
      simp [key t _ hp trivial u hu]
  | writeFailed t m rest hp =>
    intro u
    show Inside ((s.set t _).procs u) ↔ none = some u
    rw [set_procs_eq]
    by_cases hu : u = t
    · simp [hu, Inside]
    · rw [if_neg hu]
      simp [key t _ hp trivial u hu]
  | writeRefused t m hp =>
    intro u
    show Inside ((s.set t _).procs u) ↔ none = some u
    rw [set_procs_eq]
    by_cases hu : u = t
    · simp [hu, Inside]
    · rw [if_neg hu]
      simp [key t _ hp trivial u hu]
  | read t p rest hp hr =>
    intro u
    show Inside ((s.set t _).procs u) ↔ none = some u
    rw [set_procs_eq]
    by_cases hu : u = t
    · simp [hu, Inside]
    · rw [if_neg hu]
      simp [key t _ hp trivial u hu]
  | readFailed t k hp =>
    intro u
    show Inside ((s.set t _).procs u) ↔ none = some u
    rw [set_procs_eq]
    by_cases hu : u = t
    · simp [hu, Inside]
    · rw [if_neg hu]
      simp [key t _ hp trivial u hu]
  | arrive bs => exact h

theorem excl_run {s s' : End} {as : List Act} (hr : Run magic s as s') (h : Excl s) : Excl s' := by
  induction hr with
  | refl => exact h
  | snoc _ hs ih => exact excl_step ih hs

theorem completed_append (as bs : List Act) : completed (as ++ bs) = completed as ++ completed bs :=
  List.filterMap_append

/-- What the wire looks like: whole frames, then part of one. -/
structure Wire (magic : Bytes) (as : List Act) (s : End) (tail : Bytes) : Prop where
  sent : s.sent = (completed as).flatMap (frame magic) ++ tail
  cur : ∀ t m rest, s.procs t = .writing m rest → s.broken = false → tail ++ rest = frame magic m
  none : (∀ t m rest, s.procs t ≠ .writing m rest) → s.broken = false → tail = []
  failed : s.broken = true → ∃ t m, Act.writeFailed t m ∈ as ∧ tail <+: frame magic m

theorem writing_unique {s : End} (hx : Excl s) {t u : Nat} {m m' : Msg} {r r' : Bytes} (h : s.procs t = .writing m r)
    (h' : s.procs u = .writing m' r') : t = u ∧ m = m' ∧ r = r' := by
  have h1 := (hx t).mp (by rw [h]; trivial)
  have h2 := (hx u).mp (by rw [h']; trivial)
  rw [h1] at h2
  have : t = u := Option.some.inj h2
  subst this
  rw [h] at h'
  cases h'
  exact ⟨rfl, rfl, rfl⟩

theorem not_writing {s : End} (hx : Excl s) (h : s.holder = none) (t : Nat) (m : Msg) (r : Bytes) :
    s.procs t ≠ .writing m r := by
  intro hp
  have := (hx t).mp (by rw [hp]; trivial)
  rw [h] at this
  cases this

/-- Steps that leave the writers alone. -/
theorem wire_keep {as : List Act} {s s' : End} {a : Act} {tail : Bytes} (h : Wire magic as s tail)
    (hc : completed [a] = []) (hsent : s'.sent = s.sent) (hb : s'.broken = s.broken)
    (hw : ∀ t m rest, s'.procs t = .writing m rest ↔ s.procs t = .writing m rest) : Wire magic (as ++ [a]) s' tail := by
  constructor
  · rw [hsent, completed_append, hc, List.append_nil, h.sent]
  · intro t m rest hp hbr
    exact h.cur t m rest ((hw t m rest).mp hp) (by rw [← hb]; exact hbr)
  · intro hn hbr
    exact h.none (fun t m rest hp => hn t m rest ((hw t m rest).mpr hp)) (by rw [← hb]; exact hbr)
  · intro hbr
    obtain ⟨t, m, h1, h2⟩ := h.failed (by rw [← hb]; exact hbr)
    exact ⟨t, m, List.mem_append_left _ h1, h2⟩

theorem set_writing_iff (s : End) (t : Nat) (p q : Proc) (hp : s.procs t = p) (h1 : ∀ m r, p ≠ .writing m r)
    (h2 : ∀ m r, q ≠ .writing m r) (u : Nat) (m : Msg) (r : Bytes) :
    (s.set t q).procs u = .writing m r ↔ s.procs u = .writing m r := by
  rw [set_procs_eq]
  by_cases hu : u = t
  · subst hu
    rw [if_pos rfl, hp]
    exact ⟨fun h => absurd h (h2 m r), fun h => absurd h (h1 m r)⟩
  · rw [if_neg hu]

theorem wire_step {as : List Act} {s s' : End} {a : Act} {tail : Bytes} (hx : Excl s) (h : Wire magic as s tail)
    (hs : Step magic s a s') : ∃ tail', Wire magic (as ++ [a]) s' tail' := by
  cases hs with
  | callWrite t m hp =>
    exact ⟨tail, wire_keep h rfl rfl rfl (set_writing_iff s t _ _ hp (by simp) (by simp))⟩
  | callRead t hp =>
    exact ⟨tail, wire_keep h rfl rfl rfl (set_writing_iff s t _ _ hp (by simp) (by simp))⟩
  | lockRead t hp hh =>
    exact ⟨tail, wire_keep h rfl rfl rfl (set_writing_iff s t _ _ hp (by simp) (by simp))⟩
  | read t p rest hp hr =>
    exact ⟨tail, wire_keep h rfl rfl rfl (set_writing_iff s t _ _ hp (by simp) (by simp))⟩
  | readFailed t k hp =>
    exact ⟨tail, wire_keep h rfl rfl rfl (set_writing_iff s t _ _ hp (by simp) (by simp))⟩
  | arrive bs => exact ⟨tail, wire_keep h rfl rfl rfl (fun _ _ _ => Iff.rfl)⟩
  | lockWrite t m hp hh =>
    refine ⟨tail, ?_, ?_, ?_, ?_⟩
    · rw [completed_append]
      show s.sent = _
      rw [h.sent]
      simp [completed]
    · intro u m' rest hq hb
      have ht := h.none (fun u m r => not_writing hx hh u m r) hb
      have hq : (s.set t _).procs u = _ := hq
      rw [set_procs_eq] at hq
      split at hq
      · cases hq
        rw [ht]
        rfl
      · exact absurd hq (not_writing hx hh u m' rest)
    · intro hn
      exact absurd (set_procs s t (.writing m (frame magic m))) (hn t m (frame magic m))
    · intro hb
      obtain ⟨u, m', h1, h2⟩ := h.failed hb
      exact ⟨u, m', List.mem_append_left _ h1, h2⟩
  | put t m rest n hp hb hn hl =>
    refine ⟨tail ++ rest.take n, ?_, ?_, ?_, ?_⟩
    · rw [completed_append]
      show s.sent ++ _ = _
      rw [h.sent]
      simp [completed]
    · intro u m' rest' hq hb'
      have hq : (s.set t _).procs u = _ := hq
      rw [set_procs_eq] at hq
      have hcur := h.cur t m rest hp hb
      split at hq
      · cases hq
        rw [List.append_assoc, List.take_append_drop, hcur]
      · rename_i hu
        exact absurd (writing_unique hx hp hq).1.symm hu
    · intro hn'
      exact absurd (set_procs s t (.writing m (rest.drop n))) (hn' t m (rest.drop n))
    · intro hb'
      have hb' : s.broken = true := hb'
      rw [hb] at hb'
      cases hb'
  | wrote t m hp hb =>
    refine ⟨[], ?_, ?_, ?_, ?_⟩
    · have hcur := h.cur t m [] hp hb
      rw [List.append_nil] at hcur
      rw [completed_append]
      show s.sent = _
      rw [h.sent, hcur]
      simp [completed]
    · intro u m' rest' hq
      have hq : (s.set t _).procs u = _ := hq
      rw [set_procs_eq] at hq
      split at hq
      · cases hq
      · rename_i hu
        exact absurd (writing_unique hx hp hq).1.symm hu
    · intro _ _
      rfl
    · intro hb'
      have hb' : s.broken = true := hb'
      rw [hb] at hb'
      cases hb'
  | writeFailed t m rest hp =>
    refine ⟨tail, ?_, ?_, ?_, ?_⟩
    · rw [completed_append]
      show s.sent = _
      rw [h.sent]
      simp [completed]
    · intro _ _ _ _ hb'
      cases hb'
    · intro _ hb'
      cases hb'
    · intro _
      by_cases hb : s.broken = true
      · obtain ⟨u, m', h1, h2⟩ := h.failed hb
        exact ⟨u, m', List.mem_append_left _ h1, h2⟩
      · have hcur := h.cur t m rest hp (by simpa using hb)
        exact ⟨t, m, by simp, rest, hcur⟩
  | writeRefused t m hp =>
    refine ⟨tail, ?_, ?_, ?_, ?_⟩
    · rw [completed_append]
      show s.sent = _
      rw [h.sent]
      simp [completed]
    · intro u m' rest' hq
      have hq : (s.set t _).procs u = _ := hq
      rw [set_procs_eq] at hq
      split at hq
      · cases hq
      · rename_i hu
        exact absurd (writing_unique hx hp hq).1.symm hu
    · intro _ hb'
      have hcur := h.cur t m _ hp hb'
      have := congrArg List.length hcur
      rw [List.length_append] at this
      exact List.eq_nil_of_length_eq_zero (by omega)
    · intro hb
      obtain ⟨u, m', h1, h2⟩ := h.failed hb
      exact ⟨u, m', List.mem_append_left _ h1, h2⟩

theorem wire_init : Wire magic [] End.init [] :=
  ⟨rfl, (by intro t m rest h; cases h), fun _ _ => rfl, (by intro h; cases h)⟩

theorem wire_run {s : End} {as : List Act} (hr : Run magic End.init as s) : ∃ tail, Wire magic as s tail := by
  suffices ∀ s0, Run magic s0 as s → s0 = End.init → (∃ tail, Wire magic as s tail) from this _ hr rfl
  intro s0 hr
  induction hr with
  | refl => rintro rfl; exact ⟨[], wire_init⟩
  | snoc hr' hs ih =>
    rintro rfl
    obtain ⟨tail, h⟩ := ih hr' rfl
    exact wire_step (excl_run hr' excl_init) h hs

/-! ### Calls and returns -/

theorem calls_run {s : End} {as : List Act} (hr : Run magic End.init as s) (t : Nat) :
    calls t as = returns t as ++ pending (s.procs t) := by
  suffices ∀ s0, Run magic s0 as s → s0 = End.init → calls t as = returns t as ++ pending (s.procs t) from this _ hr rfl
  intro s0 hr
  induction hr with
  | refl => rintro rfl; rfl
  | @snoc s' s'' as a hr' hs ih =>
    rintro rfl
    have ih := ih hr' rfl
    have app : ∀ a, calls t (as ++ [a]) = calls t as ++ calls t [a] := fun a => List.filterMap_append
    have app' : ∀ a, returns t (as ++ [a]) = returns t as ++ returns t [a] := fun a => List.filterMap_append
    rw [app, app', ih, List.append_assoc, List.append_assoc]
    congr 1
    cases hs with
    | callWrite u m hp =>
      rw [set_procs_eq]
      by_cases hu : t = u
      · subst hu; simp [calls, returns, pending, hp]
      · simp [calls, returns, hu, Ne.symm hu]
    | callRead u hp =>
      rw [set_procs_eq]
      by_cases hu : t = u
      · subst hu; simp [calls, returns, pending, hp]
      · simp [calls, returns, hu]
    | lockWrite u m hp hh =>
      show _ = _ ++ pending ((s'.set u _).procs t)
      rw [set_procs_eq]
      by_cases hu : t = u
      · subst hu; simp [calls, returns, pending, hp]
      · simp [calls, returns, hu]
    | lockRead u hp hh =>
      show _ = _ ++ pending ((s'.set u _).procs t)
      rw [set_procs_eq]
      by_cases hu : t = u
      · subst hu; simp [calls, returns, pending, hp]
      · simp [calls, returns, hu]
    | put u m rest n hp _ _ _ =>
      show _ = _ ++ pending ((s'.set u _).procs t)
      rw [set_procs_eq]
      by_cases hu : t = u
      · subst hu; simp [calls, returns, pending, hp]
      · simp [calls, returns, hu]
    | wrote u m hp _ =>
      show _ = _ ++ pending ((s'.set u _).procs t)
      rw [set_procs_eq]
      by_cases hu : t = u
      · subst hu; simp [calls, returns, pending, hp]
      · simp [calls, returns, hu, Ne.symm hu]
    | writeFailed u m rest hp =>
      show _ = _ ++ pending ((s'.set u _).procs t)
      rw [set_procs_eq]
      by_cases hu : t = u
      · subst hu; simp [calls, returns, pending, hp]
      · simp [calls, returns, hu, Ne.symm hu]
    | writeRefused u m hp =>
      show _ = _ ++ pending ((s'.set u _).procs t)
      rw [set_procs_eq]
      by_cases hu : t = u
      · subst hu; simp [calls, returns, pending, hp]
      · simp [calls, returns, hu, Ne.symm hu]
    | read u p rest hp _ =>
      show _ = _ ++ pending ((s'.set u _).procs t)
      rw [set_procs_eq]
      by_cases hu : t = u
      · subst hu; simp [calls, returns, pending, hp]
      · simp [calls, returns, hu]
    | readFailed u k hp =>
      show _ = _ ++ pending ((s'.set u _).procs t)
      rw [set_procs_eq]
      by_cases hu : t = u
      · subst hu; simp [calls, returns, pending, hp]
      · simp [calls, returns, hu]
    | arrive bs => simp [calls, returns]

/-! ### A reader that waits -/

theorem read_blocks {s s' : End} {as : List Act} {t : Nat} (hr : Run magic s as s') (hx : Excl s)
    (ht : s.procs t = .reading) (h1 : ∀ r, Act.read t r ∉ as) (h2 : Act.readFailed t ∉ as) :
    s'.procs t = .reading ∧ s'.sent = s.sent ∧ completed as = [] := by
  induction hr with
  | refl => exact ⟨ht, rfl, rfl⟩
  | @snoc s' s'' as a hr' hs ih =>
    obtain ⟨i1, i2, i3⟩ := ih (fun r h => h1 r (List.mem_append_left _ h)) (fun h => h2 (List.mem_append_left _ h))
    have hx' := excl_run hr' hx
    have hh := (hx' t).mp (by rw [i1]; trivial)
    have nw : ∀ u m r, s'.procs u ≠ .writing m r := by
      intro u m r hu
      have := (hx' u).mp (by rw [hu]; trivial)
      rw [hh] at this
      cases this
      rw [i1] at hu
      cases hu
    have ne : ∀ u p, s'.procs u = p → p ≠ .reading → t ≠ u := by
      rintro u p hp hne rfl
      rw [i1] at hp
      exact hne hp.symm
    rw [completed_append, i3]
    cases hs with
    | callWrite u m hp =>
      exact ⟨by rw [set_procs_ne _ _ _ _ (ne u _ hp (by simp)), i1], i2, rfl⟩
    | callRead u hp =>
      exact ⟨by rw [set_procs_ne _ _ _ _ (ne u _ hp (by simp)), i1], i2, rfl⟩
    | lockWrite u m hp hn => rw [hh] at hn; cases hn
    | lockRead u hp hn => rw [hh] at hn; cases hn
    | put u m rest n hp => exact absurd hp (nw u m rest)
    | wrote u m hp => exact absurd hp (nw u m [])
    | writeFailed u m rest hp => exact absurd hp (nw u m rest)
    | writeRefused u m hp => exact absurd hp (nw u m _)
    | read u p rest hp hr =>
      have := (hx' u).mp (by rw [hp]; trivial)
      rw [hh] at this
      cases this
      exact absurd (List.mem_append_right as (List.mem_singleton.mpr rfl)) (h1 _)
    | readFailed u k hp =>
      have := (hx' u).mp (by rw [hp]; trivial)
      rw [hh] at this
      cases this
      exact absurd (List.mem_append_right as (List.mem_singleton.mpr rfl)) h2
    | arrive bs => exact ⟨i1, i2, rfl⟩

theorem run_append {s s' s'' : End} {as bs : List Act} (h : Run magic s as s') (h' : Run magic s' bs s'') :
    Run magic s (as ++ bs) s'' := by
  induction h' with
  | refl => simpa using h
  | snoc _ hs ih =>
    rw [← List.append_assoc]
    exact .snoc ih hs

theorem run_one {s s' : End} {a : Act} (h : Step magic s a s') : Run magic s [a] s' := .snoc (.refl s) h

/-- A writer that holds the lock can finish. -/
theorem finish {s : End} {t : Nat} {m : Msg} {rest : Bytes} (hp : s.procs t = .writing m rest) (hb : s.broken = false) :
    ∃ as, Run magic s as { s.set t .idle with holder := none, sent := s.sent ++ rest } ∧ Act.wrote t m ∈ as ∧
      ∀ a ∈ as, a = .wrote t m ∨ ∃ n, a = .put t n := by
  by_cases hl : rest = []
  · subst hl
    refine ⟨[.wrote t m], ?_, by simp, by simp⟩
    have := run_one (magic := magic) (Step.wrote s t m hp hb)
    simpa [End.set] using this
  · have h1 := Step.put (magic := magic) s t m rest rest.length hp hb (List.length_pos_iff.mpr hl) le_rfl
    have h2 := Step.wrote (magic := magic) { s.set t (.writing m (rest.drop rest.length)) with sent := s.sent ++ rest.take rest.length }
      t m (by show (s.set t _).procs t = _; rw [set_procs, List.drop_length]) hb
    refine ⟨[.put t rest.length, .wrote t m], ?_, by simp, by simp⟩
    have := Run.snoc (run_one h1) h2
    simpa [End.set] using this

/-- A goroutine that wants to write can, if the lock is free. -/
theorem lock_and_finish {s : End} {t : Nat} {m : Msg} (hp : s.procs t = .wantWrite m) (hh : s.holder = none)
    (hb : s.broken = false) : ∃ as s', Run magic s as s' ∧ s'.holder = none ∧ s'.broken = false ∧ s'.procs t = .idle ∧
      (∀ u, u ≠ t → s'.procs u = s.procs u) ∧ completed as = [m] ∧ (∀ u n, Act.writeFailed u n ∉ as) := by
  have hs := Step.lockWrite (magic := magic) s t m hp hh
  have key : ∀ s1 : End, s1.procs t = .writing m (frame magic m) → s1.broken = false →
      (∀ u, u ≠ t → s1.procs u = s.procs u) → Run magic s [.lock t] s1 →
      ∃ as s', Run magic s as s' ∧ s'.holder = none ∧ s'.broken = false ∧ s'.procs t = .idle ∧
      (∀ u, u ≠ t → s'.procs u = s.procs u) ∧ completed as = [m] ∧ (∀ u n, Act.writeFailed u n ∉ as) := by
    intro s1 h1 h2 h3 h4
    have hl : (frame magic m) ≠ [] := by
      intro hc
      have := congrArg List.length hc
      simp [frame, commandField_length] at this
    have p1 := Step.put (magic := magic) s1 t m (frame magic m) (frame magic m).length h1 h2 (List.length_pos_iff.mpr hl) le_rfl
    have p2 := Step.wrote (magic := magic) { s1.set t (.writing m ((frame magic m).drop (frame magic m).length)) with
      sent := s1.sent ++ (frame magic m).take (frame magic m).length }
      t m (by show (s1.set t _).procs t = _; rw [set_procs, List.drop_length]) h2
    refine ⟨_, _, .snoc (.snoc h4 p1) p2, rfl, h2, ?_, ?_, ?_, ?_⟩
    · exact set_procs _ _ _
    · intro u hu
      rw [← h3 u hu]
      exact (set_procs_ne _ _ _ _ hu).trans (set_procs_ne _ _ _ _ hu)
    · simp [completed]
    · intro u n
      simp
  exact key { s.set t (.writing m (frame magic m)) with holder := some t } (set_procs _ _ _) hb (fun u hu => set_procs_ne _ _ _ _ hu) (run_one hs)

/-- Whoever holds the lock can be done: a writer by writing, a reader if its frame is there. -/
theorem release {s : End} (hx : Excl s) (hb : s.broken = false)
    (hread : ∀ u, s.procs u = .reading → readParts s.input ≠ none) :
    ∃ as s', Run magic s as s' ∧ s'.holder = none ∧ s'.broken = false ∧
      (∀ u, ¬ Inside (s.procs u) → s'.procs u = s.procs u) ∧
      ∀ a ∈ as, (∃ t m, a = .wrote t m) ∨ (∃ t n, a = .put t n) ∨ ∃ t r, a = .read t r := by
  cases hh : s.holder with
  | none => exact ⟨[], s, .refl s, hh, hb, fun _ _ => rfl, by simp⟩
  | some u =>
    have hi := (hx u).mpr hh
    cases hp : s.procs u with
    | idle => rw [hp] at hi; exact hi.elim
    | wantWrite m => rw [hp] at hi; exact hi.elim
    | wantRead => rw [hp] at hi; exact hi.elim
    | writing m rest =>
      obtain ⟨as, hr, _, ha⟩ := finish (magic := magic) hp hb
      refine ⟨as, _, hr, rfl, hb, ?_, ?_⟩
      · intro v hv
        have : v ≠ u := by rintro rfl; exact hv hi
        exact set_procs_ne s u v _ this
      · intro a h
        rcases ha a h with rfl | ⟨n, rfl⟩
        · exact .inl ⟨_, _, rfl⟩
        · exact .inr (.inl ⟨_, _, rfl⟩)
    | reading =>
      cases hq : readParts s.input with
      | none => exact absurd hq (hread u hp)
      | some q =>
        obtain ⟨p, rest⟩ := q
        refine ⟨_, _, run_one (Step.read s u p rest hp hq), rfl, hb, ?_, ?_⟩
        · intro v hv
          have : v ≠ u := by rintro rfl; exact hv hi
          exact set_procs_ne s u v _ this
        · intro a h
          rw [List.mem_singleton.mp h]
          exact .inr (.inr ⟨_, _, rfl⟩)

theorem progress {s : End} {t : Nat} {m : Msg} (hx : Excl s) (hb : s.broken = false) (hm : m ∈ pending (s.procs t))
    (hread : ∀ u, s.procs u = .reading → readParts s.input ≠ none) :
    ∃ as s', Run magic s as s' ∧ Act.wrote t m ∈ as ∧ (∀ u n, Act.writeFailed u n ∉ as) ∧ (∀ u, Act.readFailed u ∉ as) ∧
      ∀ bs, Act.arrive bs ∉ as := by
  have key : ∀ as : List Act, (∀ a ∈ as, (∃ t m, a = .wrote t m) ∨ (∃ t n, a = .put t n) ∨ (∃ t, a = .lock t) ∨ ∃ t r, a = .read t r) →
      (∀ u n, Act.writeFailed u n ∉ as) ∧ (∀ u, Act.readFailed u ∉ as) ∧ ∀ bs, Act.arrive bs ∉ as := by
    intro as h
    refine ⟨fun u n hc => ?_, fun u hc => ?_, fun bs hc => ?_⟩ <;>
    · have := h _ hc
      simp at this
  cases hp : s.procs t with
  | idle => rw [hp] at hm; cases hm
  | wantRead => rw [hp] at hm; cases hm
  | reading => rw [hp] at hm; cases hm
  | writing m' rest =>
    rw [hp] at hm
    cases List.mem_singleton.mp hm
    obtain ⟨as, hr, hw, ha⟩ := finish (magic := magic) hp hb
    refine ⟨as, _, hr, hw, key as fun a h => ?_⟩
    rcases ha a h with rfl | ⟨n, rfl⟩
    · exact .inl ⟨_, _, rfl⟩
    · exact .inr (.inl ⟨_, _, rfl⟩)
  | wantWrite m' =>
    rw [hp] at hm
    cases List.mem_singleton.mp hm
    obtain ⟨as, s1, hr, hh, hb1, hk, ha⟩ := release (magic := magic) hx hb hread
    have hp1 : s1.procs t = .wantWrite m := by rw [hk t (by rw [hp]; simp [Inside]), hp]
    have hs := Step.lockWrite (magic := magic) s1 t m hp1 hh
    obtain ⟨as', hr', hw, ha'⟩ := finish (magic := magic)
      (s := { s1.set t (.writing m (frame magic m)) with holder := some t }) (set_procs _ _ _) hb1
    refine ⟨as ++ [.lock t] ++ as', _, run_append (.snoc hr hs) hr', by simp [hw], key _ fun a h => ?_⟩
    rw [List.mem_append, List.mem_append, List.mem_singleton] at h
    rcases h with (h | rfl) | h
    · rcases ha a h with h | h | h
      · exact .inl h
      · exact .inr (.inl h)
      · exact .inr (.inr (.inr h))
    · exact .inr (.inr (.inl ⟨_, rfl⟩))
    · rcases ha' a h with rfl | ⟨n, rfl⟩
      · exact .inl ⟨_, _, rfl⟩
      · exact .inr (.inl ⟨_, _, rfl⟩)

/-! ### Two peers -/

omit [Hashes] in
theorem of_append (w : Who) (as bs : List (Who × Act)) : of w (as ++ bs) = of w as ++ of w bs := List.filterMap_append

theorem net_run_a {n n' : Net} {as : List (Who × Act)} (h : NetRun magic n as n') : Run magic n.a (of .a as) n'.a := by
  induction h with
  | refl => exact .refl _
  | snoc _ hs ih =>
    rw [of_append]
    cases hs with
    | a act e hs => exact .snoc ih hs
    | b act e hs => simpa [of] using ih
    | arriveA k e _ _ hs => exact .snoc ih hs
    | arriveB k e _ _ hs => simpa [of] using ih

theorem net_run_b {n n' : Net} {as : List (Who × Act)} (h : NetRun magic n as n') : Run magic n.b (of .b as) n'.b := by
  induction h with
  | refl => exact .refl _
  | snoc _ hs ih =>
    rw [of_append]
    cases hs with
    | b act e hs => exact .snoc ih hs
    | a act e hs => simpa [of] using ih
    | arriveB k e _ _ hs => exact .snoc ih hs
    | arriveA k e _ _ hs => simpa [of] using ih

/-- Both ends wait for a frame, and nothing is under way. -/
structure Stuck (n : Net) (t u : Nat) : Prop where
  xa : Excl n.a
  xb : Excl n.b
  ra : n.a.procs t = .reading
  rb : n.b.procs u = .reading
  ia : readParts n.a.input = none
  ib : readParts n.b.input = none
  ta : n.toA = n.b.sent.length
  tb : n.toB = n.a.sent.length

theorem stuck_end {s s' : End} {a : Act} {t : Nat} (hx : Excl s) (hr : s.procs t = .reading) (hi : readParts s.input = none)
    (hs : Step magic s a s') (ha : ∀ bs, a ≠ .arrive bs) (hf : ∀ u, a ≠ .readFailed u) :
    Excl s' ∧ s'.procs t = .reading ∧ s'.input = s.input ∧ s'.sent = s.sent ∧ (∀ u r, a ≠ .read u r) ∧ ∀ u m, a ≠ .wrote u m := by
  have hnr : ∀ u r, a ≠ .read u r := by
    rintro u r rfl
    cases hs with
    | read _ p rest hp hq => rw [hi] at hq; cases hq
  have := read_blocks (run_one hs) hx hr (by intro r h; exact hnr t r (List.mem_singleton.mp h).symm)
    (by intro h; exact hf t (List.mem_singleton.mp h).symm)
  refine ⟨excl_step hx hs, this.1, ?_, this.2.1, hnr, ?_⟩
  · cases hs with
    | read u p rest hp hq => exact absurd rfl (hnr _ _)
    | readFailed u k hp => exact absurd rfl (hf u)
    | arrive bs => exact absurd rfl (ha bs)
    | _ => rfl
  · rintro u m rfl
    exact absurd this.2.2 (by simp [completed])

theorem stuck_step {n n' : Net} {w : Who} {a : Act} {t u : Nat} (h : Stuck n t u) (hs : NetStep magic n w a n')
    (hf : ∀ v, a ≠ .readFailed v) :
    Stuck n' t u ∧ (∀ v r, a ≠ .read v r) ∧ (∀ v m, a ≠ .wrote v m) ∧ n'.a.sent = n.a.sent ∧ n'.b.sent = n.b.sent := by
  cases hs with
  | a act e hs ha =>
    obtain ⟨h1, h2, h3, h4, h5, h6⟩ := stuck_end h.xa h.ra h.ia hs ha hf
    exact ⟨⟨h1, h.xb, h2, h.rb, by rw [h3]; exact h.ia, h.ib, h.ta, by rw [h4]; exact h.tb⟩, h5, h6, h4, rfl⟩
  | b act e hs ha =>
    obtain ⟨h1, h2, h3, h4, h5, h6⟩ := stuck_end h.xb h.rb h.ib hs ha hf
    exact ⟨⟨h.xa, h1, h.ra, h2, h.ia, by rw [h3]; exact h.ib, by rw [h4]; exact h.ta, h.tb⟩, h5, h6, rfl, h4⟩
  | arriveA k e hk hl hs => have := h.ta; omega
  | arriveB k e hk hl hs => have := h.tb; omega

theorem stuck_run {n n' : Net} {as : List (Who × Act)} {t u : Nat} (h : Stuck n t u) (hr : NetRun magic n as n')
    (hf : ∀ w v, (w, Act.readFailed v) ∉ as) :
    Stuck n' t u ∧ (∀ w v r, (w, Act.read v r) ∉ as) ∧ (∀ w v m, (w, Act.wrote v m) ∉ as) ∧
      n'.a.sent = n.a.sent ∧ n'.b.sent = n.b.sent := by
  induction hr with
  | refl => exact ⟨h, by simp, by simp, rfl, rfl⟩
  | snoc _ hs ih =>
    obtain ⟨i1, i2, i3, i4, i5⟩ := ih (fun w v hc => hf w v (List.mem_append_left _ hc))
    obtain ⟨j1, j2, j3, j4, j5⟩ := stuck_step i1 hs (by rintro v rfl; exact hf _ v (List.mem_append_right _ (List.mem_singleton.mpr rfl)))
    refine ⟨j1, ?_, ?_, j4.trans i4, j5.trans i5⟩
    · intro w v r hc
      rcases List.mem_append.mp hc with hc | hc
      · exact i2 w v r hc
      · cases List.mem_singleton.mp hc
        exact j2 v r rfl
    · intro w v m hc
      rcases List.mem_append.mp hc with hc | hc
      · exact i3 w v m hc
      · cases List.mem_singleton.mp hc
        exact j3 v m rfl

/-! ### Delivery -/

omit [Hashes] in
theorem readParts_mono {w : Bytes} {q : Bytes × Bytes × Bytes × Bytes} {rest : Bytes} (h : readParts w = some (q, rest))
    (y : Bytes) : readParts (w ++ y) = some (q, rest ++ y) := by
  obtain ⟨p, hp, rfl, rfl⟩ := readParts_some h
  rw [List.append_assoc]
  exact readParts_ok p hp _

/-- The bytes that have arrived are the first ones sent. -/
theorem arrived {n : Net} {as : List (Who × Act)} (hr : NetRun magic Net.init as n)
    (hf : ∀ v, (Who.b, Act.readFailed v) ∉ as) :
    n.toB ≤ n.a.sent.length ∧ ∃ ps : List Parts, (∀ p ∈ ps, p.Ok) ∧
      reads (of .b as) = ps.map (fun p => openFrame magic p.tuple) ∧
      ps.flatMap Parts.bytes ++ n.b.input = n.a.sent.take n.toB := by
  suffices ∀ n0, NetRun magic n0 as n → n0 = Net.init → (n.toB ≤ n.a.sent.length ∧ ∃ ps : List Parts, (∀ p ∈ ps, p.Ok) ∧
      reads (of .b as) = ps.map (fun p => openFrame magic p.tuple) ∧
      ps.flatMap Parts.bytes ++ n.b.input = n.a.sent.take n.toB) from this _ hr rfl
  intro n0 hr
  induction hr with
  | refl => rintro rfl; exact ⟨Nat.zero_le _, [], by simp, rfl, rfl⟩
  | @snoc n' n'' as w a hr' hs ih =>
    rintro rfl
    obtain ⟨hle, ps, hok, hrd, hin⟩ := ih hr' (fun v hc => hf v (List.mem_append_left _ hc)) rfl
    have app : ∀ x y : List Act, reads (x ++ y) = reads x ++ reads y := fun _ _ => List.filterMap_append
    rw [of_append, app, hrd]
    cases hs with
    | a act e hs ha =>
      have hpre : ∃ z, e.sent = n'.a.sent ++ z := by
        cases hs with
        | put t m rest k => exact ⟨_, rfl⟩
        | _ => exact ⟨[], (List.append_nil _).symm⟩
      obtain ⟨z, hz⟩ := hpre
      refine ⟨?_, ps, hok, ?_, ?_⟩
      · show n'.toB ≤ e.sent.length
        rw [hz, List.length_append]; omega
      · simp [of, reads]
      · show _ ++ n'.b.input = e.sent.take n'.toB
        rw [hz, List.take_append_of_le_length hle, hin]
    | b act e hs ha =>
      cases hs with
      | read t p rest hp hq =>
        obtain ⟨q, hqok, hqe, rfl⟩ := readParts_some hq
        refine ⟨hle, ps ++ [q], ?_, ?_, ?_⟩
        · intro x hx
          rcases List.mem_append.mp hx with hx | hx
          · exact hok x hx
          · rw [List.mem_singleton.mp hx]; exact hqok
        · simp [of, reads]
        · show _ ++ rest = n'.a.sent.take n'.toB
          rw [← hin, hqe]
          simp
      | readFailed t k hp => exact absurd (by simp) (hf t)
      | arrive bs => exact absurd rfl (ha bs)
      | _ => exact ⟨hle, ps, hok, by simp [of, reads], hin⟩
    | arriveA k e _ _ hs =>
      cases hs
      exact ⟨hle, ps, hok, by simp [of, reads], hin⟩
    | arriveB k e hk hl hs =>
      cases hs
      refine ⟨hl, ps, hok, by simp [of, reads], ?_⟩
      show _ ++ (n'.b.input ++ _) = n'.a.sent.take (n'.toB + k)
      rw [← List.append_assoc, hin, List.take_add]

/-- Frames on the wire are recognised one by one. -/
theorem frames_parse {ps : List Parts} {ms : List Msg} {y z : Bytes} (hok : ∀ p ∈ ps, p.Ok)
    (hmagic : magic.length = 4) (hms : ∀ m ∈ ms, (encode m).length < 2^32)
    (h : ps.flatMap Parts.bytes ++ y ++ z = ms.flatMap (frame magic)) :
    ∃ k ≤ ms.length, ps = (ms.take k).map (partsOf magic) := by
  induction ms generalizing ps with
  | nil =>
    cases ps with
    | nil => exact ⟨0, le_rfl, rfl⟩
    | cons p ps =>
      have := congrArg List.length h
      have hp := hok p (by simp)
      simp [Parts.bytes, hp.1] at this
  | cons m ms ih =>
    cases ps with
    | nil => exact ⟨0, Nat.zero_le _, rfl⟩
    | cons p ps =>
      have h1 := readParts_ok p (hok p (by simp)) (ps.flatMap Parts.bytes ++ y ++ z)
      have h2 := readParts_ok (partsOf magic m) (partsOf_ok hmagic (hms m (by simp))) (ms.flatMap (frame magic))
      have he : p.bytes ++ (ps.flatMap Parts.bytes ++ y ++ z) = (partsOf magic m).bytes ++ ms.flatMap (frame magic) := by
        rw [← frame_eq]
        simpa using h
      rw [he, h2] at h1
      have h1 := Option.some.inj h1
      obtain ⟨k, hk, hps⟩ := ih (fun q hq => hok q (by simp [hq])) (fun m hm => hms m (by simp [hm])) (Prod.mk.inj h1).2.symm
      have hpp : p = partsOf magic m := by
        have := (Prod.mk.inj h1).1
        cases p
        simp only [Parts.tuple, partsOf, Prod.mk.injEq] at this ⊢
        obtain ⟨rfl, rfl, rfl, rfl⟩ := this
        rfl
      exact ⟨k + 1, by simp; omega, by simp [hpp, hps]⟩

end Toku.Stream
