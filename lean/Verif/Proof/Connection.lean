import Verif.Spec.Connection
import Verif.Proof.Stream
import Verif.Props.Protocol
import Mathlib.Data.List.Induction
/-
Invariants of a connection.
-/
namespace Toku.Connection
open Toku.Protocol Toku.Stream Toku.Spec

variable [Hashes] {magic : Bytes}

/-- not in ReadMessage -/
def Writer : Proc → Prop
  | .idle => True
  | .wantWrite _ => True
  | .writing _ _ => True
  | .wantRead => False
  | .reading => False

/-- what goroutine 0 does when the loop is there -/
def Fits0 : Loop → Proc → Prop
  | .notStarted, p => p = .idle
  | .waiting, p => p = .wantRead
  | .reading _, p => p = .reading
  | .handling _, p => Writer p
  | .leaving, p => Writer p
  | .done, p => p = .idle
  | .crashed, _ => True

structure Good (c : Conn) : Prop where
  excl : Excl c.e
  loop : Fits0 c.loop (c.e.procs 0)
  others : ∀ t, t ≠ 0 → Writer (c.e.procs t)

theorem good_init : Good Conn.init := ⟨excl_init, rfl, fun _ _ => trivial⟩

/-- a step of Send: what it leaves alone -/
theorem sends_step {e e' : End} {t : Nat} {a : Act} (ha : Sends t a) (hs : Step magic e a e') :
    e'.input = e.input ∧ (∀ u, u ≠ t → e'.procs u = e.procs u) ∧ (Writer (e.procs t) → Writer (e'.procs t)) := by
  cases ha with
  | call m =>
    cases hs with
    | callWrite _ _ hp => exact ⟨rfl, fun u hu => set_procs_ne _ _ _ _ hu, fun _ => by rw [set_procs]; trivial⟩
  | lock =>
    cases hs with
    | lockWrite _ m hp hh =>
      refine ⟨rfl, fun u hu => set_procs_ne _ _ _ _ hu, fun _ => ?_⟩
      show Writer ((e.set t _).procs t)
      rw [set_procs]; trivial
    | lockRead _ hp hh => exact ⟨rfl, fun u hu => set_procs_ne _ _ _ _ hu, fun h => by rw [hp] at h; exact h.elim⟩
  | put n =>
    cases hs with
    | put _ m rest _ hp hb hn hl =>
      refine ⟨rfl, fun u hu => set_procs_ne _ _ _ _ hu, fun _ => ?_⟩
      show Writer ((e.set t _).procs t)
      rw [set_procs]; trivial
  | wrote m =>
    cases hs with
    | wrote _ _ hp hb =>
      refine ⟨rfl, fun u hu => set_procs_ne _ _ _ _ hu, fun _ => ?_⟩
      show Writer ((e.set t _).procs t)
      rw [set_procs]; trivial
  | failed m =>
    cases hs with
    | writeFailed _ _ rest hp =>
      refine ⟨rfl, fun u hu => set_procs_ne _ _ _ _ hu, fun _ => ?_⟩
      show Writer ((e.set t _).procs t)
      rw [set_procs]; trivial
    | writeRefused _ _ hp =>
      refine ⟨rfl, fun u hu => set_procs_ne _ _ _ _ hu, fun _ => ?_⟩
      show Writer ((e.set t _).procs t)
      rw [set_procs]; trivial

theorem good_step {c c' : Conn} {a : CAct} (h : Good c) (hs : CStep magic c a c') : Good c' := by
  have hl := h.loop
  cases hs with
  | start e hc hs =>
    refine ⟨excl_step h.excl hs, ?_, ?_⟩ <;> cases hs with
    | callRead _ hp => first | exact set_procs _ _ _ | exact fun t ht => by rw [set_procs_ne _ _ _ _ ht]; exact h.others t ht
  | lock e hc hs =>
    rw [hc] at hl
    have key : e.procs 0 = .reading ∧ ∀ t, t ≠ 0 → Writer (e.procs t) := by
      cases hs with
      | lockWrite _ m hp hh => rw [hp] at hl; cases hl
      | lockRead _ hp hh =>
        refine ⟨set_procs c.e 0 .reading, fun t ht => ?_⟩
        show Writer ((c.e.set 0 _).procs t)
        rw [set_procs_ne _ _ _ _ ht]; exact h.others t ht
    exact ⟨excl_step h.excl hs, key.1, key.2⟩
  | deliver e m hc hs =>
    have key : ∀ r e, Step magic c.e (.read 0 r) e → Writer (e.procs 0) ∧ ∀ t, t ≠ 0 → Writer (e.procs t) := by
      intro r e hs
      cases hs with
      | read _ p rest hp hr =>
        refine ⟨?_, fun t ht => ?_⟩
        · show Writer ((c.e.set 0 _).procs 0); rw [set_procs]; trivial
        · show Writer ((c.e.set 0 _).procs t)
          rw [set_procs_ne _ _ _ _ ht]; exact h.others t ht
    exact ⟨excl_step h.excl hs, (key _ _ hs).1, (key _ _ hs).2⟩
  | refused e x hc hs =>
    have key : ∀ r e, Step magic c.e (.read 0 r) e → Writer (e.procs 0) ∧ ∀ t, t ≠ 0 → Writer (e.procs t) := by
      intro r e hs
      cases hs with
      | read _ p rest hp hr =>
        refine ⟨?_, fun t ht => ?_⟩
        · show Writer ((c.e.set 0 _).procs 0); rw [set_procs]; trivial
        · show Writer ((c.e.set 0 _).procs t)
          rw [set_procs_ne _ _ _ _ ht]; exact h.others t ht
    exact ⟨excl_step h.excl hs, (key _ _ hs).1, (key _ _ hs).2⟩
  | crash e hc hs =>
    have key : ∀ r e, Step magic c.e (.read 0 r) e → ∀ t, t ≠ 0 → Writer (e.procs t) := by
      intro r e hs
      cases hs with
      | read _ p rest hp hr =>
        intro t ht
        show Writer ((c.e.set 0 _).procs t)
        rw [set_procs_ne _ _ _ _ ht]; exact h.others t ht
    exact ⟨excl_step h.excl hs, trivial, key _ _ hs⟩
  | lost e late hc hs =>
    have key : Writer (e.procs 0) ∧ ∀ t, t ≠ 0 → Writer (e.procs t) := by
      cases hs with
      | readFailed _ k hp =>
        refine ⟨?_, fun t ht => ?_⟩
        · show Writer ((c.e.set 0 _).procs 0); rw [set_procs]; trivial
        · show Writer ((c.e.set 0 _).procs t)
          rw [set_procs_ne _ _ _ _ ht]; exact h.others t ht
    exact ⟨excl_step h.excl hs, key.1, key.2⟩
  | handler e b hc ha hcl hs =>
    obtain ⟨_, h2, h3⟩ := sends_step ha hs
    refine ⟨excl_step h.excl hs, ?_, fun t ht => ?_⟩
    · rcases hc with ⟨m, hc⟩ | hc <;> rw [hc] at hl <;> (show Fits0 c.loop _; rw [hc]; exact h3 hl)
    · show Writer (e.procs t)
      rw [h2 t ht]; exact h.others t ht
  | next e m hc hs =>
    refine ⟨excl_step h.excl hs, ?_, ?_⟩ <;> cases hs with
    | callRead _ hp => first | exact set_procs _ _ _ | exact fun t ht => by rw [set_procs_ne _ _ _ _ ht]; exact h.others t ht
  | leave hc hp => exact ⟨h.excl, hp, h.others⟩
  | other e t b hc ht ha hcl hs =>
    obtain ⟨_, h2, h3⟩ := sends_step ha hs
    refine ⟨excl_step h.excl hs, ?_, fun u hu => ?_⟩
    · show Fits0 c.loop (e.procs 0)
      rw [h2 0 (Ne.symm ht)]; exact hl
    · show Writer (e.procs u)
      by_cases hut : u = t
      · subst hut; exact h3 (h.others u ht)
      · rw [h2 u hut]; exact h.others u hu
  | arrive e bs hc hcl hs =>
    cases hs with
    | arrive => exact ⟨h.excl, hl, h.others⟩
  | close hc => exact ⟨h.excl, hl, h.others⟩

theorem good_run {c c' : Conn} {as : List CAct} (hr : CRun magic c as c') (h : Good c) : Good c' := by
  induction hr with
  | refl => exact h
  | snoc _ hs ih => exact good_step ih hs

/-! ### What is delivered -/

theorem carries_append {w : Bytes} {ms : List Msg} {rest b : Bytes} (h : Carries w ms rest) : Carries (w ++ b) ms (rest ++ b) := by
  induction ms generalizing w with
  | nil => change w = rest at h; rw [h]; rfl
  | cons m ms ih =>
    obtain ⟨f, t, rfl, hf, h⟩ := h
    exact ⟨f, t ++ b, List.append_assoc _ _ _, hf, ih h⟩

theorem carries_snoc {w : Bytes} {ms : List Msg} {f rest : Bytes} {m : Msg} (h : Carries w ms (f ++ rest)) (hm : Accepts f m) :
    Carries w (ms ++ [m]) rest := by
  induction ms generalizing w with
  | nil => exact ⟨f, rest, h, hm, rfl⟩
  | cons n ms ih =>
    obtain ⟨g, t, rfl, hg, h⟩ := h
    exact ⟨g, t, rfl, hg, ih h⟩

/-- the loop may still deliver -/
def Loop.live : Loop → Bool
  | .notStarted | .waiting | .reading _ | .handling _ => true
  | _ => false

/-- how the record ends -/
def tail : Loop → List Event
  | .leaving | .done => [.disconnect]
  | .crashed => [.crash]
  | _ => []

structure Record (as : List CAct) (c : Conn) (ms : List Msg) : Prop where
  seen : seen as = ms.map .receive ++ tail c.loop
  carried : ∃ rest, Carries (arrived as) ms rest ∧ (c.loop.live = true → rest = c.e.input)
  last : ∀ m, c.loop = .handling m → ms.getLast? = some m

omit [Hashes] in
theorem seen_snoc (as : List CAct) (a : CAct) : Spec.seen (as ++ [a]) = Spec.seen as ++ Spec.seen [a] := List.filterMap_append
omit [Hashes] in
theorem arrived_snoc (as : List CAct) (a : CAct) : Spec.arrived (as ++ [a]) = Spec.arrived as ++ Spec.arrived [a] := by
  unfold Spec.arrived; rw [List.flatMap_append]

theorem record_step {as : List CAct} {c c' : Conn} {a : CAct} {ms : List Msg} (h : Record as c ms) (hs : CStep magic c a c') :
    ∃ ms', Record (as ++ [a]) c' ms' := by
  obtain ⟨h1, ⟨rest, h2, h3⟩, h4⟩ := h
  have quiet : ∀ (e : End) (l : Loop), Spec.seen [a] = [] → Spec.arrived [a] = [] → tail c.loop = tail l →
      (l.live = true → c.loop.live = true ∧ e.input = c.e.input) → (∀ m, l = .handling m → c.loop = .handling m) →
      ∀ cl, Record (as ++ [a]) ⟨e, l, cl⟩ ms := by
    intro e l q1 q2 q3 q4 q5 cl
    refine ⟨?_, ⟨rest, ?_, ?_⟩, fun m hm => h4 m (q5 m hm)⟩
    · rw [seen_snoc, q1, List.append_nil, h1, q3]
    · rw [arrived_snoc, q2, List.append_nil]; exact h2
    · intro hl
      obtain ⟨l1, l2⟩ := q4 hl
      rw [h3 l1]; exact l2.symm
  cases hs with
  | start e hc hs =>
    refine ⟨ms, quiet e _ rfl rfl (by rw [hc]; rfl) (fun _ => ⟨by rw [hc]; rfl, ?_⟩) (by simp) _⟩
    cases hs; rfl
  | lock e hc hs =>
    refine ⟨ms, quiet e _ rfl rfl (by rw [hc]; rfl) (fun _ => ⟨by rw [hc]; rfl, ?_⟩) (by simp) _⟩
    cases hs <;> rfl
  | deliver e m hc hs =>
    rw [hc] at h1 h3
    generalize hr : Res.ok m = r at hs
    cases hs with
    | read _ p rest' hp hparts =>
      have hread : readMessage magic c.e.input = (.ok m, rest') := by
        unfold readMessage
        rw [hparts]
        show (openFrame magic p, rest') = _
        rw [← hr]
      obtain ⟨f, hf, hacc⟩ := (Props.C77_checksum_partial magic _ m rest').mp hread
      refine ⟨ms ++ [m], ?_, ⟨rest', ?_, fun _ => rfl⟩, ?_⟩
      · rw [seen_snoc, h1]
        simp [tail, Spec.seen]
      · rw [arrived_snoc, show Spec.arrived [CAct.deliver m] = [] from rfl, List.append_nil]
        rw [h3 rfl, hf] at h2
        exact carries_snoc h2 hacc
      · intro m' hm'
        cases hm'
        simp
  | refused e x hc hs =>
    rw [hc] at h1
    refine ⟨ms, ?_, ⟨rest, ?_, fun hl => by cases hl⟩, fun m hm => by cases hm⟩
    · rw [seen_snoc, h1]; simp [tail, Spec.seen]
    · rw [arrived_snoc, show Spec.arrived [CAct.refused] = [] from rfl, List.append_nil]; exact h2
  | crash e hc hs =>
    rw [hc] at h1
    refine ⟨ms, ?_, ⟨rest, ?_, fun hl => by cases hl⟩, fun m hm => by cases hm⟩
    · rw [seen_snoc, h1]; simp [tail, Spec.seen]
    · rw [arrived_snoc, show Spec.arrived [CAct.crash] = [] from rfl, List.append_nil]; exact h2
  | lost e late hc hs =>
    rw [hc] at h1
    refine ⟨ms, ?_, ⟨rest, ?_, fun hl => by cases hl⟩, fun m hm => by cases hm⟩
    · rw [seen_snoc, h1]; simp [tail, Spec.seen]
    · rw [arrived_snoc, show Spec.arrived [CAct.lost] = [] from rfl, List.append_nil]; exact h2
  | handler e b hc ha hcl hs =>
    exact ⟨ms, quiet e _ rfl rfl rfl (fun hl => ⟨hl, (sends_step ha hs).1⟩) (fun m hm => hm) _⟩
  | next e m hc hs =>
    refine ⟨ms, quiet e _ rfl rfl (by rw [hc]; rfl) (fun _ => ⟨by rw [hc]; rfl, ?_⟩) (by simp) _⟩
    cases hs; rfl
  | leave hc hp => exact ⟨ms, quiet c.e _ rfl rfl (by rw [hc]; rfl) (fun hl => by cases hl) (fun m hm => by cases hm) _⟩
  | other e t b hc ht ha hcl hs =>
    exact ⟨ms, quiet e _ rfl rfl rfl (fun hl => ⟨hl, (sends_step ha hs).1⟩) (fun m hm => hm) _⟩
  | arrive e bs hc hcl hs =>
    cases hs with
    | arrive =>
      refine ⟨ms, ?_, ⟨rest ++ bs, ?_, fun hl => ?_⟩, h4⟩
      · rw [seen_snoc, h1]; simp [Spec.seen]
      · rw [arrived_snoc, show Spec.arrived [CAct.arrive bs] = bs by simp [Spec.arrived]]
        exact carries_append h2
      · rw [h3 hl]
  | close hc => exact ⟨ms, quiet c.e _ rfl rfl rfl (fun hl => ⟨hl, rfl⟩) (fun m hm => hm) _⟩

theorem record_run {c : Conn} {as : List CAct} (hr : CRun magic Conn.init as c) : ∃ ms, Record as c ms := by
  induction hr with
  | refl =>
    exact ⟨[], rfl, ⟨[], rfl, fun _ => rfl⟩, fun m hm => by cases hm⟩
  | snoc _ hs ih =>
    obtain ⟨ms, h⟩ := ih
    exact record_step h hs

/-! ### The stream below -/

/-- what happens at the stream -/
def below : CAct → List Act → Prop
  | .start, as => as = [.callRead 0]
  | .lock, as => as = [.lock 0]
  | .deliver m, as => as = [.read 0 (.ok m)]
  | .refused, as => ∃ x, as = [.read 0 (.err x)]
  | .crash, as => as = [.read 0 .panic]
  | .lost, as => as = [.readFailed 0]
  | .handler a, as => as = [a] ∧ Sends 0 a
  | .next, as => as = [.callRead 0]
  | .leave, as => as = []
  | .other t a, as => as = [a] ∧ Sends t a
  | .arrive bs, as => as = [.arrive bs]
  | .close, as => as = []

theorem below_step {c c' : Conn} {a : CAct} (hs : CStep magic c a c') : ∃ as, below a as ∧ Run magic c.e as c'.e := by
  cases hs with
  | start e hc hs => exact ⟨_, rfl, run_one hs⟩
  | lock e hc hs => exact ⟨_, rfl, run_one hs⟩
  | deliver e m hc hs => exact ⟨_, rfl, run_one hs⟩
  | refused e x hc hs => exact ⟨_, ⟨x, rfl⟩, run_one hs⟩
  | crash e hc hs => exact ⟨_, rfl, run_one hs⟩
  | lost e late hc hs => exact ⟨_, rfl, run_one hs⟩
  | handler e b hc ha hcl hs => exact ⟨_, ⟨rfl, ha⟩, run_one hs⟩
  | next e m hc hs => exact ⟨_, rfl, run_one hs⟩
  | leave hc hp => exact ⟨_, rfl, .refl _⟩
  | other e t b hc ht ha hcl hs => exact ⟨_, ⟨rfl, ha⟩, run_one hs⟩
  | arrive e bs hc hcl hs => exact ⟨_, rfl, run_one hs⟩
  | close hc => exact ⟨_, rfl, .refl _⟩

theorem below_run {c c' : Conn} {as : List CAct} (hr : CRun magic c as c') : ∃ bs, Run magic c.e bs c'.e ∧
    completed bs = delivered as ∧ ∀ t m, Act.writeFailed t m ∈ bs → SendFailed as := by
  induction hr with
  | refl => exact ⟨[], .refl _, rfl, by simp⟩
  | @snoc c1 c2 as a hr hs ih =>
    obtain ⟨bs, h1, h2, h3⟩ := ih
    obtain ⟨b, hb, hrun⟩ := below_step hs
    have mono : SendFailed as → SendFailed (as ++ [a]) := by
      rintro ⟨t, m, h | h⟩
      · exact ⟨t, m, .inl (List.mem_append_left _ h)⟩
      · exact ⟨t, m, .inr (List.mem_append_left _ h)⟩
    have key : completed b = delivered [a] ∧ ∀ t m, Act.writeFailed t m ∈ b → SendFailed [a] := by
      cases a with
      | start => subst hb; exact ⟨rfl, by simp⟩
      | lock => subst hb; exact ⟨rfl, by simp⟩
      | deliver m => subst hb; exact ⟨rfl, by simp⟩
      | refused => obtain ⟨x, rfl⟩ := hb; exact ⟨rfl, by simp⟩
      | lost => subst hb; exact ⟨rfl, by simp⟩
      | crash => subst hb; exact ⟨rfl, by simp⟩
      | next => subst hb; exact ⟨rfl, by simp⟩
      | leave => subst hb; exact ⟨rfl, by simp⟩
      | arrive bs => subst hb; exact ⟨rfl, by simp⟩
      | close => subst hb; exact ⟨rfl, by simp⟩
      | handler x =>
        obtain ⟨rfl, hx⟩ := hb
        refine ⟨by cases hx <;> rfl, fun t m h => ?_⟩
        rw [← List.mem_singleton.mp h]
        exact ⟨t, m, .inr (by simp)⟩
      | other u x =>
        obtain ⟨rfl, hx⟩ := hb
        refine ⟨by cases hx <;> rfl, fun t m h => ?_⟩
        rw [← List.mem_singleton.mp h] at hx ⊢
        cases hx
        exact ⟨u, m, .inl (by simp)⟩
    refine ⟨bs ++ b, run_append h1 hrun, ?_, fun t m h => ?_⟩
    · rw [show completed (bs ++ b) = completed bs ++ completed b from List.filterMap_append,
        show delivered (as ++ [a]) = delivered as ++ delivered [a] from List.filterMap_append, h2, key.1]
    · rcases List.mem_append.mp h with h | h
      · exact mono (h3 t m h)
      · obtain ⟨t, m, h | h⟩ := key.2 t m h
        · exact ⟨t, m, .inl (List.mem_append_right _ h)⟩
        · exact ⟨t, m, .inr (List.mem_append_right _ h)⟩

theorem crun_append {c c' c'' : Conn} {as bs : List CAct} (h : CRun magic c as c') (h' : CRun magic c' bs c'') :
    CRun magic c (as ++ bs) c'' := by
  induction h' with
  | refl => simpa using h
  | snoc _ hs ih =>
    rw [← List.append_assoc]
    exact .snoc ih hs

theorem crun_one {c c' : Conn} {a : CAct} (h : CStep magic c a c') : CRun magic c [a] c' := .snoc (.refl c) h

/-- While the loop is in ReadMessage with the lock, until ReadMessage returns: nothing is sent, no Send returns. -/
theorem blocks_run {c c' : Conn} {as : List CAct} {late : Bool} (h : Good c) (hl : c.loop = .reading late) (hr : CRun magic c as c')
    (h1 : ∀ m, CAct.deliver m ∉ as) (h2 : CAct.refused ∉ as) (h3 : CAct.crash ∉ as) (h4 : CAct.lost ∉ as) :
    c'.loop = .reading late ∧ c'.e.sent = c.e.sent ∧ ∀ t m, ¬ Returned t m as := by
  induction hr with
  | refl => exact ⟨hl, rfl, fun t m hc => by rcases hc with hc | ⟨_, hc⟩ <;> cases hc⟩
  | @snoc c1 c2 as a hr hs ih =>
    have sub : ∀ x, x ∉ as ++ [a] → x ∉ as := fun x hx hm => hx (List.mem_append_left _ hm)
    obtain ⟨i1, i2, i3⟩ := ih (fun m => sub _ (h1 m)) (sub _ h2) (sub _ h3) (sub _ h4)
    have hg := good_run hr h
    have hp : c1.e.procs 0 = .reading := by have := hg.loop; rw [i1] at this; exact this
    have hhold : c1.e.holder = some 0 := (hg.excl 0).mp (by rw [hp]; trivial)
    -- goroutine t does not have the lock
    have out : ∀ t, t ≠ 0 → ¬ Inside (c1.e.procs t) := by
      intro t ht hc
      have := (hg.excl t).mp hc
      rw [hhold] at this
      exact ht (Option.some.inj this).symm
    cases hs with
    | start e hc hs => rw [i1] at hc; cases hc
    | lock e hc hs => rw [i1] at hc; cases hc
    | deliver e m hc hs => exact absurd (by simp) (h1 m)
    | refused e x hc hs => exact absurd (by simp) h2
    | crash e hc hs => exact absurd (by simp) h3
    | lost e late hc hs => exact absurd (by simp) h4
    | handler e b hc ha hcl hs => rcases hc with ⟨m, hc⟩ | hc <;> (rw [i1] at hc; cases hc)
    | next e m hc hs => rw [i1] at hc; cases hc
    | leave hc hp => rw [i1] at hc; cases hc
    | other e t b hc ht ha hcl hs =>
      have key : e.sent = c1.e.sent ∧ ∀ u m, b ≠ .wrote u m := by
        cases ha with
        | call m => cases hs with | callWrite _ _ hp => exact ⟨rfl, by simp⟩
        | lock =>
          cases hs with
          | lockWrite _ m hp hh => rw [hhold] at hh; cases hh
          | lockRead _ hp hh => rw [hhold] at hh; cases hh
        | put n => cases hs with | put _ m rest _ hp hb hn hl => exact absurd (by rw [hp]; trivial) (out t ht)
        | wrote m => cases hs with | wrote _ _ hp hb => exact absurd (by rw [hp]; trivial) (out t ht)
        | failed m =>
          cases hs with
          | writeFailed _ _ rest hp => exact absurd (by rw [hp]; trivial) (out t ht)
          | writeRefused _ _ hp => exact absurd (by rw [hp]; trivial) (out t ht)
      refine ⟨i1, key.1.trans i2, fun u m hc => ?_⟩
      rcases hc with hc | ⟨hu, hc⟩
      · rcases List.mem_append.mp hc with hc | hc
        · exact i3 u m (.inl hc)
        · have := List.mem_singleton.mp hc
          injection this with _ e2
          exact key.2 _ _ e2.symm
      · rcases List.mem_append.mp hc with hc | hc
        · exact i3 u m (.inr ⟨hu, hc⟩)
        · cases List.mem_singleton.mp hc
    | arrive e bs hc hcl hs =>
      cases hs with
      | arrive =>
        refine ⟨i1, i2, fun u m hc => ?_⟩
        rcases hc with hc | ⟨hu, hc⟩ <;> rcases List.mem_append.mp hc with hc | hc
        · exact i3 u m (.inl hc)
        · cases List.mem_singleton.mp hc
        · exact i3 u m (.inr ⟨hu, hc⟩)
        · cases List.mem_singleton.mp hc
    | close hc =>
      refine ⟨i1, i2, fun u m hc => ?_⟩
      rcases hc with hc | ⟨hu, hc⟩ <;> rcases List.mem_append.mp hc with hc | hc
      · exact i3 u m (.inl hc)
      · cases List.mem_singleton.mp hc
      · exact i3 u m (.inr ⟨hu, hc⟩)
      · cases List.mem_singleton.mp hc

/-! ### One handler at a time -/

theorem handling_run {c c' : Conn} {as : List CAct} {m : Msg} (hl : c.loop = .handling m) (hr : CRun magic c as c')
    (hn : CAct.next ∉ as) : c'.loop = .handling m := by
  induction hr with
  | refl => exact hl
  | @snoc c1 c2 as a hr hs ih =>
    have i1 := ih fun h => hn (List.mem_append_left _ h)
    cases hs with
    | next e m hc hs => exact absurd (by simp) hn
    | handler e b hc ha hcl hs => exact i1
    | other e t b hc ht ha hcl hs => exact i1
    | arrive e bs hc hcl hs => exact i1
    | close hc => exact i1
    | start e hc hs => rw [i1] at hc; cases hc
    | lock e hc hs => rw [i1] at hc; cases hc
    | deliver e m hc hs => rw [i1] at hc; cases hc
    | refused e x hc hs => rw [i1] at hc; cases hc
    | crash e hc hs => rw [i1] at hc; cases hc
    | lost e late hc hs => rw [i1] at hc; cases hc
    | leave hc hp => rw [i1] at hc; cases hc

theorem crun_split {c c' : Conn} {as bs : List CAct} (hr : CRun magic c (as ++ bs) c') :
    ∃ c1, CRun magic c as c1 ∧ CRun magic c1 bs c' := by
  induction bs using List.reverseRecOn generalizing c' with
  | nil => rw [List.append_nil] at hr; exact ⟨c', hr, .refl _⟩
  | append_singleton bs b ih =>
    rw [← List.append_assoc] at hr
    generalize hx : as ++ bs ++ [b] = xs at hr
    cases hr with
    | refl => simp at hx
    | @snoc c1 _ ys a hr hs =>
      obtain ⟨rfl, hb⟩ := List.append_inj' hx rfl
      cases hb
      obtain ⟨c2, h1, h2⟩ := ih hr
      exact ⟨c2, h1, .snoc h2 hs⟩

/-! ### After Close -/

/-- how many messages may still be delivered on a closed connection -/
def left : Loop → Nat
  | .reading false => 1
  | _ => 0

theorem read_sent {e e' : End} {t : Nat} {r : Res Msg} (hs : Step magic e (.read t r) e') : e'.sent = e.sent := by
  cases hs with
  | read _ p rest hp hr => rfl

theorem close_run {c c' : Conn} {as : List CAct} (hr : CRun magic c as c') (hc : c.closed = true) :
    c'.closed = true ∧ (as.countP fun | .deliver _ => true | _ => false) + left c'.loop ≤ left c.loop ∧
      c'.e.sent = c.e.sent := by
  induction hr with
  | refl => exact ⟨hc, by simp, rfl⟩
  | @snoc c1 c2 as a hr hs ih =>
    obtain ⟨i1, i2, i3⟩ := ih
    rw [List.countP_append]
    have nosend : ∀ {e : End} {t : Nat} {b : Act}, Sends t b → (∀ n, b ≠ .put t n) → Step magic c1.e b e → e.sent = c1.e.sent := by
      intro e t b ha hn hs
      cases ha with
      | call m => cases hs; rfl
      | lock => cases hs <;> rfl
      | put n => exact absurd rfl (hn n)
      | wrote m => cases hs; rfl
      | failed m => cases hs <;> rfl
    cases hs with
    | start e hc hs => exact ⟨i1, by rw [hc] at i2; simpa [left] using i2, by cases hs; exact i3⟩
    | lock e hc hs =>
      refine ⟨i1, ?_, by cases hs <;> exact i3⟩
      rw [hc] at i2
      rw [i1]
      simpa [left] using i2
    | deliver e m hc hs =>
      refine ⟨i1, ?_, (read_sent hs).trans i3⟩
      rw [hc] at i2
      simp only [left] at i2 ⊢
      simpa using i2
    | refused e x hc hs => exact ⟨i1, by simpa [left] using Nat.le_of_add_right_le i2, (read_sent hs).trans i3⟩
    | crash e hc hs => exact ⟨i1, by simpa [left] using Nat.le_of_add_right_le i2, (read_sent hs).trans i3⟩
    | lost e late hc hs => exact ⟨i1, by simpa [left] using Nat.le_of_add_right_le i2, by cases hs; exact i3⟩
    | handler e b hc ha hcl hs => exact ⟨i1, by simpa using i2, (nosend ha (hcl i1) hs).trans i3⟩
    | next e m hc hs => exact ⟨i1, by rw [hc] at i2; simpa [left] using i2, by cases hs; exact i3⟩
    | leave hc hp => exact ⟨i1, by simpa [left] using Nat.le_of_add_right_le i2, i3⟩
    | other e t b hc ht ha hcl hs => exact ⟨i1, by simpa using i2, (nosend ha (hcl i1) hs).trans i3⟩
    | arrive e bs hc hcl hs => rw [i1] at hcl; cases hcl
    | close hc => exact ⟨rfl, by simpa using i2, i3⟩

/-! ### Sending -/

/-- The loop is in a handler. -/
def Loop.inHandler : Loop → Prop
  | .handling _ | .leaving => True
  | _ => False

/-- the step of Send, with the goroutine that does it -/
def wrap : Act → CAct
  | .callWrite t m => if t = 0 then .handler (.callWrite t m) else .other t (.callWrite t m)
  | .lock t => if t = 0 then .handler (.lock t) else .other t (.lock t)
  | .put t n => if t = 0 then .handler (.put t n) else .other t (.put t n)
  | .wrote t m => if t = 0 then .handler (.wrote t m) else .other t (.wrote t m)
  | .writeFailed t m => if t = 0 then .handler (.writeFailed t m) else .other t (.writeFailed t m)
  | a => .handler a

omit [Hashes] in
theorem wrap_eq {t : Nat} {a : Act} (h : Sends t a) : wrap a = if t = 0 then .handler a else .other t a := by cases h <;> rfl

theorem lift_step {c : Conn} {e : End} {t : Nat} {a : Act} (ha : Sends t a) (h0 : t = 0 → c.loop.inHandler) (hc : c.loop ≠ .crashed)
    (hp : c.closed = true → ∀ n, a ≠ .put t n) (hs : Step magic c.e a e) : CStep magic c (wrap a) { c with e := e } := by
  rw [wrap_eq ha]
  by_cases ht : t = 0
  · subst ht
    rw [if_pos rfl]
    refine .handler c e a ?_ ha hp hs
    have := h0 rfl
    cases hl : c.loop with
    | handling m => exact .inl ⟨m, rfl⟩
    | leaving => exact .inr rfl
    | _ => rw [hl] at this; exact this.elim
  · rw [if_neg ht]
    exact .other c e t a hc ht ha hp hs

theorem lift_run {e e' : End} {as : List Act} {l : Loop} {cl : Bool} (hr : Run magic e as e') (hc : l ≠ .crashed)
    (ha : ∀ a ∈ as, ∃ t, Sends t a ∧ (t = 0 → l.inHandler) ∧ (cl = true → ∀ n, a ≠ .put t n)) :
    CRun magic ⟨e, l, cl⟩ (as.map wrap) ⟨e', l, cl⟩ := by
  induction hr with
  | refl => exact .refl _
  | @snoc e1 e2 as a hr hs ih =>
    rw [List.map_append]
    obtain ⟨t, h1, h2, h3⟩ := ha a (by simp)
    exact .snoc (ih fun b hb => ha b (List.mem_append_left _ hb)) (lift_step (c := ⟨e1, l, cl⟩) h1 h2 hc h3 hs)

omit [Hashes] in
/-- a goroutine in WriteMessage: if it is goroutine 0, the loop is in a handler -/
theorem writer_handler {c : Conn} {t : Nat} (h : Good c) (hc : c.loop ≠ .crashed)
    (hp : (∃ m, c.e.procs t = .wantWrite m) ∨ ∃ m rest, c.e.procs t = .writing m rest) : t = 0 → c.loop.inHandler := by
  rintro rfl
  have hl := h.loop
  cases hloop : c.loop with
  | handling m => trivial
  | leaving => trivial
  | crashed => exact absurd hloop hc
  | _ =>
    rw [hloop] at hl
    change c.e.procs 0 = _ at hl
    rw [hl] at hp
    simp at hp

omit [Hashes] in
/-- whoever has the lock while the loop is not in ReadMessage is a Send -/
theorem holder_writes {c : Conn} {u : Nat} (h : Good c) (hc : c.loop ≠ .crashed) (hr : ∀ late, c.loop ≠ .reading late)
    (hh : c.e.holder = some u) : ∃ m rest, c.e.procs u = .writing m rest := by
  have hi := (h.excl u).mpr hh
  have hw : c.e.procs u ≠ .reading := by
    intro hp
    by_cases hu : u = 0
    · subst hu
      have hl := h.loop
      rw [hp] at hl
      cases hloop : c.loop with
      | reading late => exact hr late hloop
      | crashed => exact hc hloop
      | handling m => rw [hloop] at hl; exact hl
      | leaving => rw [hloop] at hl; exact hl
      | _ => rw [hloop] at hl; cases hl
    · have := h.others u hu
      rw [hp] at this
      exact this
  cases hp : c.e.procs u with
  | writing m rest => exact ⟨m, rest, rfl⟩
  | reading => exact absurd hp hw
  | _ => rw [hp] at hi; exact hi.elim

omit [Hashes] in
theorem sends_done {u : Nat} {m : Msg} {a : Act} (h : a = .wrote u m ∨ ∃ n, a = .put u n) : Sends u a := by
  rcases h with rfl | ⟨n, rfl⟩
  · exact .wrote m
  · exact .put n

/-- A Send finishes by itself while the loop is not in ReadMessage. -/
theorem send_finishes {c : Conn} {t : Nat} {m : Msg} (h : Good c) (hcl : c.closed = false) (hb : c.e.broken = false)
    (hc : c.loop ≠ .crashed) (hr : ∀ late, c.loop ≠ .reading late) (hm : m ∈ pending (c.e.procs t)) :
    ∃ as e, CRun magic c as ⟨e, c.loop, false⟩ ∧ Returned t m as ∧ ∀ a ∈ as, ∃ u b, Sends u b ∧ (a = .handler b ∨ a = .other u b) := by
  obtain ⟨e, l, cl⟩ := c
  dsimp only at *
  subst hcl
  have key : ∀ (as : List Act) (e' : End), Run magic e as e' → Act.wrote t m ∈ as →
      (∀ a ∈ as, ∃ u, Sends u a ∧ (u = 0 → l.inHandler)) →
      ∃ as e', CRun magic ⟨e, l, false⟩ as ⟨e', l, false⟩ ∧ Returned t m as ∧
        ∀ a ∈ as, ∃ u b, Sends u b ∧ (a = .handler b ∨ a = .other u b) := by
    intro as e' hrun hw ha
    refine ⟨_, e', lift_run hrun hc (fun a h' => ?_), ?_, ?_⟩
    · obtain ⟨u, h1, h2⟩ := ha a h'
      exact ⟨u, h1, h2, fun hx => by cases hx⟩
    · have : wrap (.wrote t m) ∈ as.map wrap := List.mem_map_of_mem hw
      rw [wrap_eq (.wrote m)] at this
      by_cases ht : t = 0
      · subst ht; exact .inr ⟨rfl, this⟩
      · rw [if_neg ht] at this; exact .inl this
    · intro a ha'
      obtain ⟨b, hb, rfl⟩ := List.mem_map.mp ha'
      obtain ⟨u, h1, _⟩ := ha b hb
      refine ⟨u, b, h1, ?_⟩
      rw [wrap_eq h1]
      by_cases hu : u = 0
      · rw [if_pos hu]; exact .inl rfl
      · rw [if_neg hu]; exact .inr rfl
  cases hp : e.procs t with
  | idle => rw [hp] at hm; cases hm
  | wantRead => rw [hp] at hm; cases hm
  | reading => rw [hp] at hm; cases hm
  | writing m' rest =>
    rw [hp] at hm
    cases List.mem_singleton.mp hm
    obtain ⟨as, hrun, hw, ha⟩ := finish (magic := magic) hp hb
    exact key _ _ hrun hw fun a h' => ⟨t, sends_done (ha a h'), writer_handler h hc (.inr ⟨_, _, hp⟩)⟩
  | wantWrite m' =>
    rw [hp] at hm
    cases List.mem_singleton.mp hm
    have h0 := writer_handler (t := t) h hc (.inl ⟨_, hp⟩)
    have free : ∃ as e1, Run magic e as e1 ∧ e1.holder = none ∧ e1.broken = false ∧ e1.procs t = .wantWrite m ∧
        ∀ a ∈ as, ∃ u, Sends u a ∧ (u = 0 → l.inHandler) := by
      cases hh : e.holder with
      | none => exact ⟨[], e, .refl e, hh, hb, hp, by simp⟩
      | some u =>
        obtain ⟨n, rest, hu⟩ := holder_writes h hc hr hh
        obtain ⟨as, hrun, _, ha⟩ := finish (magic := magic) hu hb
        refine ⟨as, _, hrun, rfl, hb, ?_, fun a h' => ⟨u, sends_done (ha a h'), writer_handler h hc (.inr ⟨_, _, hu⟩)⟩⟩
        have : t ≠ u := by rintro rfl; rw [hp] at hu; cases hu
        exact (set_procs_ne e u t _ this).trans hp
    obtain ⟨as, e1, hrun, hh1, hb1, hp1, ha⟩ := free
    have hs := Step.lockWrite (magic := magic) e1 t m hp1 hh1
    obtain ⟨as', hr', hw, ha'⟩ := finish (magic := magic)
      (s := { e1.set t (.writing m (frame magic m)) with holder := some t }) (set_procs _ _ _) hb1
    refine key (as ++ [.lock t] ++ as') _ (run_append (.snoc hrun hs) hr') (by simp [hw]) fun a h' => ?_
    rw [List.mem_append, List.mem_append, List.mem_singleton] at h'
    rcases h' with (h' | rfl) | h'
    · exact ha a h'
    · exact ⟨t, .lock, h0⟩
    · exact ⟨t, sends_done (ha' a h'), h0⟩

/-! ### The loop can always end -/

/-- nothing arrives and nothing is delivered -/
def Silent (as : List CAct) : Prop := (∀ bs, CAct.arrive bs ∉ as) ∧ (∀ m, CAct.deliver m ∉ as) ∧ CAct.close ∉ as

omit [Hashes] in
theorem silent_nil : Silent [] := ⟨by simp, by simp, by simp⟩
omit [Hashes] in
theorem silent_append {as bs : List CAct} (h : Silent as) (h' : Silent bs) : Silent (as ++ bs) :=
  ⟨fun x hx => by rcases List.mem_append.mp hx with hx | hx; exacts [h.1 x hx, h'.1 x hx],
   fun x hx => by rcases List.mem_append.mp hx with hx | hx; exacts [h.2.1 x hx, h'.2.1 x hx],
   fun hx => by rcases List.mem_append.mp hx with hx | hx; exacts [h.2.2 hx, h'.2.2 hx]⟩
omit [Hashes] in
theorem silent_wrap {t : Nat} {a : Act} (h : Sends t a) : Silent [wrap a] := by
  rw [wrap_eq h]
  split <;> exact ⟨by simp, by simp, by simp⟩

/-- the lock can be made free -/
theorem frees {c : Conn} (h : Good c) (hc : c.loop ≠ .crashed) (hr : ∀ late, c.loop ≠ .reading late) :
    ∃ as e, CRun magic c as { c with e := e } ∧ Silent as ∧ e.holder = none ∧
      ∀ t, (¬ Inside (c.e.procs t) → e.procs t = c.e.procs t) := by
  cases hh : c.e.holder with
  | none => exact ⟨[], c.e, .refl c, silent_nil, hh, fun _ _ => rfl⟩
  | some u =>
    obtain ⟨m, rest, hu⟩ := holder_writes h hc hr hh
    have hs := Step.writeFailed (magic := magic) c.e u m rest hu
    refine ⟨_, _, crun_one (lift_step (.failed m) (writer_handler h hc (.inr ⟨_, _, hu⟩)) hc (fun _ n => by simp) hs),
      silent_wrap (.failed m), rfl, fun t ht => ?_⟩
    have : t ≠ u := by rintro rfl; exact ht ((h.excl t).mpr hh)
    exact set_procs_ne c.e u t _ this

/-- a handler can return -/
theorem settles {c : Conn} (h : Good c) (hc : c.loop.inHandler) :
    ∃ as e, CRun magic c as { c with e := e } ∧ Silent as ∧ e.procs 0 = .idle := by
  have hnc : c.loop ≠ .crashed := by intro hx; rw [hx] at hc; exact hc
  have hnr : ∀ late, c.loop ≠ .reading late := by intro late hx; rw [hx] at hc; exact hc
  have hw : Writer (c.e.procs 0) := by
    have hl := h.loop
    cases hloop : c.loop with
    | handling m => rw [hloop] at hl; exact hl
    | leaving => rw [hloop] at hl; exact hl
    | _ => rw [hloop] at hc; exact hc.elim
  cases hp : c.e.procs 0 with
  | idle => exact ⟨[], c.e, .refl c, silent_nil, hp⟩
  | wantRead => rw [hp] at hw; exact hw.elim
  | reading => rw [hp] at hw; exact hw.elim
  | writing m rest =>
    exact ⟨_, _, crun_one (lift_step (.failed m) (fun _ => hc) hnc (fun _ n => by simp) (Step.writeFailed (magic := magic) c.e 0 m rest hp)),
      silent_wrap (.failed m), set_procs c.e 0 .idle⟩
  | wantWrite m =>
    obtain ⟨as, e, hr, hs, hh, hk⟩ := frees (magic := magic) h hnc hnr
    have hp1 : e.procs 0 = .wantWrite m := by rw [hk 0 (by rw [hp]; simp [Inside]), hp]
    have s1 := lift_step (c := { c with e := e }) (magic := magic) (.lock (t := 0)) (fun _ => hc) hnc (fun _ n => by simp)
      (Step.lockWrite e 0 m hp1 hh)
    have s2 := lift_step (c := { c with e := { e.set 0 (.writing m (frame magic m)) with holder := some 0 } }) (magic := magic)
      (.failed (t := 0) m) (fun _ => hc) hnc (fun _ n => by simp) (Step.writeFailed _ 0 m (frame magic m) (set_procs e 0 _))
    exact ⟨_, _, .snoc (.snoc hr s1) s2, silent_append (silent_append hs (silent_wrap .lock)) (silent_wrap (.failed m)),
      set_procs (e.set 0 (.writing m (frame magic m))) 0 .idle⟩

theorem reading_ends {c : Conn} {late : Bool} (h : Good c) (hl : c.loop = .reading late) :
    ∃ as c', CRun magic c as c' ∧ Silent as ∧ c'.loop = .done := by
  have hp : c.e.procs 0 = .reading := by have := h.loop; rw [hl] at this; exact this
  have hs := CStep.lost (magic := magic) c _ late hl (Step.readFailed c.e 0 0 hp)
  exact ⟨_, _, .snoc (crun_one hs) (.leave _ rfl (set_procs c.e 0 .idle)), ⟨by simp, by simp, by simp⟩, rfl⟩

theorem waiting_ends {c : Conn} (h : Good c) (hl : c.loop = .waiting) : ∃ as c', CRun magic c as c' ∧ Silent as ∧ c'.loop = .done := by
  have hp : c.e.procs 0 = .wantRead := by have := h.loop; rw [hl] at this; exact this
  obtain ⟨as, e, hr, hs, hh, hk⟩ := frees (magic := magic) h (by rw [hl]; simp) (by rw [hl]; simp)
  have hp1 : e.procs 0 = .wantRead := by rw [hk 0 (by rw [hp]; simp [Inside]), hp]
  have s1 := CStep.lock (magic := magic) { c with e := e } _ hl (Step.lockRead e 0 hp1 hh)
  obtain ⟨as', c', hr', hs', hd⟩ := reading_ends (magic := magic) (good_step (good_run hr h) s1) rfl
  exact ⟨_, c', crun_append (.snoc hr s1) hr', silent_append (silent_append hs ⟨by simp, by simp, by simp⟩) hs', hd⟩

theorem ends {c : Conn} (h : Good c) (hc : c.loop ≠ .crashed) : ∃ as c', CRun magic c as c' ∧ Silent as ∧ c'.loop = .done := by
  have hl := h.loop
  cases hloop : c.loop with
  | crashed => exact absurd hloop hc
  | done => exact ⟨[], c, .refl c, silent_nil, hloop⟩
  | waiting => exact waiting_ends h hloop
  | reading late => exact reading_ends h hloop
  | notStarted =>
    rw [hloop] at hl
    have s1 := CStep.start (magic := magic) c _ hloop (Step.callRead c.e 0 hl)
    obtain ⟨as', c', hr', hs', hd⟩ := waiting_ends (magic := magic) (good_step h s1) rfl
    exact ⟨_, c', crun_append (crun_one s1) hr', silent_append ⟨by simp, by simp, by simp⟩ hs', hd⟩
  | leaving =>
    obtain ⟨as, e, hr, hs, hp⟩ := settles (magic := magic) h (by rw [hloop]; trivial)
    exact ⟨_, _, .snoc hr (.leave { c with e := e } hloop hp), silent_append hs ⟨by simp, by simp, by simp⟩, rfl⟩
  | handling m =>
    obtain ⟨as, e, hr, hs, hp⟩ := settles (magic := magic) h (by rw [hloop]; trivial)
    have s1 := CStep.next (magic := magic) { c with e := e } _ m hloop (Step.callRead e 0 hp)
    obtain ⟨as', c', hr', hs', hd⟩ := waiting_ends (magic := magic) (good_step (good_run hr h) s1) rfl
    exact ⟨_, c', crun_append (.snoc hr s1) hr', silent_append (silent_append hs ⟨by simp, by simp, by simp⟩) hs', hd⟩

end Toku.Connection
