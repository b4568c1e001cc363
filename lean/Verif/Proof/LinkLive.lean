import Verif.Proof.LinkSend
/-
From where two connected peers can go on until everything that was sent has been handed over.
-/
namespace Toku.Connection
open Toku.Protocol Toku.Stream Toku.Spec Toku.Props

variable [Hashes] {magic : Bytes}

/-- nothing that ends a connection or breaks it, and no new Send -/
def Fine (a : CAct) : Prop :=
  a ≠ .lost ∧ a ≠ .close ∧ a ≠ .refused ∧ a ≠ .crash ∧ (∀ t u m, a ≠ .other t (.writeFailed u m)) ∧ (∀ u m, a ≠ .handler (.writeFailed u m)) ∧
    (∀ t u m, a ≠ .other t (.callWrite u m)) ∧ ∀ u m, a ≠ .handler (.callWrite u m)

/-- a step of a Send that goes well, after the call -/
def Goes (t : Nat) (a : Act) : Prop := a = .lock t ∨ (∃ n, a = .put t n) ∨ ∃ m, a = .wrote t m

omit [Hashes] in
theorem goes_sends {t : Nat} {a : Act} (h : Goes t a) : Sends t a := by
  rcases h with rfl | ⟨n, rfl⟩ | ⟨m, rfl⟩
  · exact .lock
  · exact .put n
  · exact .wrote m

omit [Hashes] in
theorem goes_fine {t : Nat} {a : Act} (h : Goes t a) : Fine (wrap a) ∧ (∀ x, wrap a ≠ .arrive x) ∧ ∀ m, wrap a ≠ .deliver m := by
  rw [wrap_eq (goes_sends h)]
  rcases h with rfl | ⟨n, rfl⟩ | ⟨m, rfl⟩ <;> split <;> simp [Fine]

/-- Steps of Sends that go well, as steps of a connection. -/
structure Well (c : Conn) (as : List CAct) (c' : Conn) : Prop where
  run : CRun magic c as c'
  fine : ∀ a ∈ as, Fine a
  arrive : ∀ x, CAct.arrive x ∉ as
  deliver : ∀ m, CAct.deliver m ∉ as
  input : c'.e.input = c.e.input
  closed : c'.closed = c.closed
  broken : c'.e.broken = c.e.broken

theorem well_refl (c : Conn) : Well (magic := magic) c [] c := ⟨.refl c, by simp, by simp, by simp, rfl, rfl, rfl⟩

theorem well_append {c c' c'' : Conn} {as bs : List CAct} (h : Well (magic := magic) c as c') (h' : Well (magic := magic) c' bs c'') :
    Well (magic := magic) c (as ++ bs) c'' := by
  refine ⟨crun_append h.run h'.run, ?_, ?_, ?_, h'.input.trans h.input, h'.closed.trans h.closed, h'.broken.trans h.broken⟩
  · intro a ha
    rcases List.mem_append.mp ha with ha | ha
    exacts [h.fine a ha, h'.fine a ha]
  · intro a ha
    rcases List.mem_append.mp ha with ha | ha
    exacts [h.arrive a ha, h'.arrive a ha]
  · intro a ha
    rcases List.mem_append.mp ha with ha | ha
    exacts [h.deliver a ha, h'.deliver a ha]

theorem well_lift {c : Conn} {e : End} {as : List Act} {t : Nat} (hr : Run magic c.e as e) (hc : c.loop ≠ .crashed) (hcl : c.closed = false)
    (h0 : t = 0 → c.loop.inHandler) (ha : ∀ a ∈ as, Goes t a) (hi : e.input = c.e.input) (hb : e.broken = c.e.broken) :
    Well (magic := magic) c (as.map wrap) { c with e := e } := by
  refine ⟨lift_run (l := c.loop) (cl := c.closed) hr hc fun a h => ⟨t, goes_sends (ha a h), h0, by rw [hcl]; simp⟩, ?_, ?_, ?_, hi, rfl, hb⟩
  · intro a h
    obtain ⟨x, hx, rfl⟩ := List.mem_map.mp h
    exact (goes_fine (ha x hx)).1
  · intro y h
    obtain ⟨x, hx, he⟩ := List.mem_map.mp h
    exact (goes_fine (ha x hx)).2.1 y he
  · intro y h
    obtain ⟨x, hx, he⟩ := List.mem_map.mp h
    exact (goes_fine (ha x hx)).2.2 y he

/-- A write under way finishes. -/
theorem well_finish {c : Conn} {t : Nat} {m : Msg} {rest : Bytes} (h : Good c) (hc : c.loop ≠ .crashed) (hcl : c.closed = false)
    (hb : c.e.broken = false) (hp : c.e.procs t = .writing m rest) :
    ∃ as e, Well (magic := magic) c as { c with e := e } ∧ Returned t m as ∧ e.holder = none ∧ e.procs t = .idle ∧
      ∀ u, u ≠ t → e.procs u = c.e.procs u := by
  obtain ⟨as, hr, hw, ha⟩ := finish (magic := magic) hp hb
  refine ⟨_, _, well_lift (t := t) hr hc hcl (writer_handler h hc (.inr ⟨_, _, hp⟩)) ?_ rfl rfl, ?_, rfl, set_procs _ _ _,
    fun u hu => set_procs_ne c.e t u _ hu⟩
  · intro a h
    rcases ha a h with rfl | ⟨n, rfl⟩
    · exact .inr (.inr ⟨m, rfl⟩)
    · exact .inr (.inl ⟨n, rfl⟩)
  · have : wrap (.wrote t m) ∈ as.map wrap := List.mem_map_of_mem hw
    rw [wrap_eq (.wrote m)] at this
    by_cases ht : t = 0
    · subst ht; exact .inr ⟨rfl, this⟩
    · rw [if_neg ht] at this; exact .inl this

/-- The lock becomes free. -/
theorem well_frees {c : Conn} (h : Good c) (hc : c.loop ≠ .crashed) (hr : ∀ late, c.loop ≠ .reading late) (hcl : c.closed = false)
    (hb : c.e.broken = false) : ∃ as e, Well (magic := magic) c as { c with e := e } ∧ e.holder = none ∧
      ∀ t, ¬ Inside (c.e.procs t) → e.procs t = c.e.procs t := by
  cases hh : c.e.holder with
  | none => exact ⟨[], c.e, well_refl c, hh, fun _ _ => rfl⟩
  | some u =>
    obtain ⟨m, rest, hu⟩ := holder_writes h hc hr hh
    obtain ⟨as, e, h1, _, h3, _, h5⟩ := well_finish (magic := magic) h hc hcl hb hu
    exact ⟨as, e, h1, h3, fun t ht => h5 t (by rintro rfl; exact ht ((h.excl t).mpr hh))⟩

/-- A Send that has been called finishes, and the lock is free. -/
theorem well_send {c : Conn} {t : Nat} {m : Msg} (h : Good c) (hc : c.loop ≠ .crashed) (hr : ∀ late, c.loop ≠ .reading late)
    (hcl : c.closed = false) (hb : c.e.broken = false) (hm : m ∈ pending (c.e.procs t)) :
    ∃ as e, Well (magic := magic) c as { c with e := e } ∧ Returned t m as ∧ e.holder = none ∧ e.procs t = .idle := by
  cases hp : c.e.procs t with
  | idle => rw [hp] at hm; cases hm
  | wantRead => rw [hp] at hm; cases hm
  | reading => rw [hp] at hm; cases hm
  | writing m' rest =>
    rw [hp] at hm
    cases List.mem_singleton.mp hm
    obtain ⟨as, e, h1, h2, h3, h4, _⟩ := well_finish (magic := magic) h hc hcl hb hp
    exact ⟨as, e, h1, h2, h3, h4⟩
  | wantWrite m' =>
    rw [hp] at hm
    cases List.mem_singleton.mp hm
    obtain ⟨as, e, h1, h2, h3⟩ := well_frees (magic := magic) h hc hr hcl hb
    have hp1 : e.procs t = .wantWrite m := by rw [h3 t (by rw [hp]; simp [Inside]), hp]
    have hb1 : e.broken = false := h1.broken.trans hb
    have hl := Step.lockWrite (magic := magic) e t m hp1 h2
    have w2 := well_lift (c := { c with e := e }) (t := t) (run_one hl) hc hcl (writer_handler (good_run h1.run h) hc (.inl ⟨m, hp1⟩))
      (by intro a ha; rw [List.mem_singleton.mp ha]; exact .inl rfl) rfl rfl
    have g2 := good_run w2.run (good_run h1.run h)
    obtain ⟨as', e', k1, k2, k3, k4, _⟩ := well_finish (magic := magic) g2 hc hcl hb1 (set_procs e t (.writing m (frame magic m)))
    refine ⟨_, e', well_append (well_append h1 w2) k1, ?_, k3, k4⟩
    rcases k2 with k2 | ⟨k2, k5⟩
    · exact .inl (List.mem_append_right _ k2)
    · exact .inr ⟨k2, List.mem_append_right _ k5⟩

/-- Nobody is in a call of Send when the lock is free; the lock can be made free anyway. -/
theorem well_one {c c' : Conn} {a : CAct} (hs : CStep magic c a c') (hf : Fine a) (h1 : ∀ x, a ≠ .arrive x) (h2 : ∀ m, a ≠ .deliver m)
    (hi : c'.e.input = c.e.input) (hc : c'.closed = c.closed) (hb : c'.e.broken = c.e.broken) : Well (magic := magic) c [a] c' :=
  ⟨crun_one hs, by intro x hx; rw [List.mem_singleton.mp hx]; exact hf,
    fun x hx => h1 x (List.mem_singleton.mp hx).symm, fun x hx => h2 x (List.mem_singleton.mp hx).symm, hi, hc, hb⟩

theorem well_waits {c : Conn} (h : Good c) (hl : c.loop = .waiting) (hcl : c.closed = false) (hb : c.e.broken = false) :
    ∃ as c', Well (magic := magic) c as c' ∧ c'.loop = .reading false := by
  have hp : c.e.procs 0 = .wantRead := by have := h.loop; rw [hl] at this; exact this
  obtain ⟨as, e, h1, h2, h3⟩ := well_frees (magic := magic) h (by rw [hl]; simp) (by rw [hl]; simp) hcl hb
  have hp1 : e.procs 0 = .wantRead := by rw [h3 0 (by rw [hp]; simp [Inside]), hp]
  have s1 := CStep.lock (magic := magic) { c with e := e } _ hl (Step.lockRead e 0 hp1 h2)
  exact ⟨_, _, well_append h1 (well_one s1 (by simp [Fine]) (by simp) (by simp) rfl rfl rfl), by show Loop.reading c.closed = _; rw [hcl]⟩

/-- The loop of a side that has not ended comes to wait for input. -/
theorem well_listens {c : Conn} (h : Good c) (hcl : c.closed = false) (hb : c.e.broken = false) (hlate : c.loop ≠ .reading true)
    (hc : c.loop ≠ .crashed) (he : ¬ c.loop.ended) : ∃ as c', Well (magic := magic) c as c' ∧ c'.loop = .reading false := by
  have hl := h.loop
  cases hloop : c.loop with
  | crashed => exact absurd hloop hc
  | done => exact absurd (.inr hloop) he
  | leaving => exact absurd (.inl hloop) he
  | waiting => exact well_waits h hloop hcl hb
  | reading late =>
    cases late with
    | false => exact ⟨[], c, well_refl c, hloop⟩
    | true => exact absurd hloop hlate
  | notStarted =>
    rw [hloop] at hl
    have s1 := CStep.start (magic := magic) c _ hloop (Step.callRead c.e 0 hl)
    have w1 := well_one s1 (by simp [Fine]) (by simp) (by simp) rfl rfl rfl
    obtain ⟨as, c', h1, h2⟩ := well_waits (magic := magic) (good_step h s1) rfl hcl hb
    exact ⟨_, c', well_append w1 h1, h2⟩
  | handling m =>
    rw [hloop] at hl
    have free : ∃ as e, Well (magic := magic) c as { c with e := e } ∧ e.procs 0 = .idle := by
      cases hp : c.e.procs 0 with
      | idle => exact ⟨[], c.e, well_refl c, hp⟩
      | wantRead => rw [hp] at hl; exact hl.elim
      | reading => rw [hp] at hl; exact hl.elim
      | wantWrite k =>
        obtain ⟨as, e, h1, _, _, h4⟩ := well_send (magic := magic) (t := 0) (m := k) h hc (by rw [hloop]; simp) hcl hb
          (by rw [hp]; exact List.mem_singleton.mpr rfl)
        exact ⟨as, e, h1, h4⟩
      | writing k rest =>
        obtain ⟨as, e, h1, _, _, h4⟩ := well_send (magic := magic) (t := 0) (m := k) h hc (by rw [hloop]; simp) hcl hb
          (by rw [hp]; exact List.mem_singleton.mpr rfl)
        exact ⟨as, e, h1, h4⟩
    obtain ⟨as, e, h1, h2⟩ := free
    have s1 := CStep.next (magic := magic) { c with e := e } _ m hloop (Step.callRead e 0 h2)
    have w1 := well_one s1 (by simp [Fine]) (by simp) (by simp) rfl rfl rfl
    obtain ⟨as', c', h3, h4⟩ := well_waits (magic := magic) (good_step (good_run h1.run h) s1) rfl hcl (h1.broken.trans hb)
    exact ⟨_, c', well_append (well_append h1 w1) h3, h4⟩

/-- Frames that are there are handed over, one after the other. -/
theorem drains {c : Conn} (hm : magic.length = 4) (ms : List Msg) (hs : ∀ m ∈ ms, Fits m ∧ Sendable m) (h : Good c) (hcl : c.closed = false)
    (hl : c.loop = .reading false) (hi : c.e.input = ms.flatMap (frame magic)) :
    ∃ as c', CRun magic c as c' ∧ (∀ a ∈ as, Fine a) ∧ (∀ x, CAct.arrive x ∉ as) ∧
      as.filterMap (fun | .deliver m => some m | _ => none) = ms.map arrives ∧ delivered as = [] ∧ c'.loop = .reading false := by
  induction ms generalizing c with
  | nil => exact ⟨[], c, .refl c, by simp, by simp, rfl, rfl, hl⟩
  | cons m ms ih =>
    obtain ⟨e, l, cl⟩ := c
    dsimp only at hcl hl hi
    subst hcl hl
    have hp : e.procs 0 = .reading := h.loop
    have hr := readParts_ok (partsOf magic m) (partsOf_ok hm (hs m (by simp)).2.1) (ms.flatMap (frame magic))
    rw [← frame_eq, ← List.flatMap_cons, ← hi] at hr
    have s1 := Step.read (magic := magic) e 0 _ _ hp hr
    rw [open_partsOf magic magic hm m (hs m (by simp)).1 (hs m (by simp)).2] at s1
    have k1 := CStep.deliver (magic := magic) ⟨e, .reading false, false⟩ _ (arrives m) rfl s1
    have k2 := CStep.next (magic := magic) ⟨{ e.set 0 .idle with holder := none, input := ms.flatMap (frame magic) }, .handling (arrives m), false⟩
      _ (arrives m) rfl (Step.callRead _ 0 (set_procs e 0 .idle))
    have k3 := CStep.lock (magic := magic) ⟨({ e.set 0 .idle with holder := none, input := ms.flatMap (frame magic) } : End).set 0 .wantRead,
      .waiting, false⟩ _ rfl (Step.lockRead _ 0 (set_procs _ _ _) rfl)
    obtain ⟨as, c', h1, h2, h3, h4, h5, h6⟩ := ih (fun x hx => hs x (List.mem_cons_of_mem _ hx))
      (good_step (good_step (good_step h k1) k2) k3) rfl rfl rfl
    refine ⟨[.deliver (arrives m)] ++ [.next] ++ [.lock] ++ as, c', crun_append (.snoc (.snoc (crun_one k1) k2) k3) h1, ?_, ?_, ?_, ?_, h6⟩
    · intro a ha
      rcases List.mem_append.mp ha with ha | ha
      · simp only [List.mem_append, List.mem_singleton] at ha
        rcases ha with (rfl | rfl) | rfl <;> simp [Fine]
      · exact h2 a ha
    · intro x hx
      rcases List.mem_append.mp hx with hx | hx
      · simp at hx
      · exact h3 x hx
    · rw [List.filterMap_append, h4]
      rfl
    · unfold delivered at h5 ⊢
      rw [List.filterMap_append, h5]
      rfl

/-! ### Both sides of a run -/

theorem side_run_a {l l' : Link} {as : List (Who × CAct)} (hr : LRun magic l as l') : CRun magic l.a (side .a as) l'.a := by
  induction hr with
  | refl => exact .refl _
  | snoc _ hs ih =>
    rw [side_snoc]
    cases hs with
    | a act c hs _ => exact .snoc ih hs
    | b act c hs _ => rw [if_neg (by decide), List.append_nil]; exact ih
    | arriveA k c _ _ hs => exact .snoc ih hs
    | arriveB k c _ _ hs => rw [if_neg (by decide), List.append_nil]; exact ih

theorem side_run_b {l l' : Link} {as : List (Who × CAct)} (hr : LRun magic l as l') : CRun magic l.b (side .b as) l'.b := by
  induction hr with
  | refl => exact .refl _
  | snoc _ hs ih =>
    rw [side_snoc]
    cases hs with
    | b act c hs _ => exact .snoc ih hs
    | a act c hs _ => rw [if_neg (by decide), List.append_nil]; exact ih
    | arriveB k c _ _ hs => exact .snoc ih hs
    | arriveA k c _ _ hs => rw [if_neg (by decide), List.append_nil]; exact ih

/-- a call of ReadMessage that came late came after Close -/
theorem late_run {c c' : Conn} {as : List CAct} (hr : CRun magic c as c') (h : c.loop = .reading true → c.closed = true) :
    c'.loop = .reading true → c'.closed = true := by
  induction hr with
  | refl => exact h
  | snoc _ hs ih =>
    cases hs with
    | lock e hc _ => intro hx; simpa using hx
    | start e hc _ => intro hx; cases hx
    | deliver e m hc _ => intro hx; cases hx
    | refused e x hc _ => intro hx; cases hx
    | crash e hc _ => intro hx; cases hx
    | lost e late hc _ => intro hx; cases hx
    | next e m hc _ => intro hx; cases hx
    | leave hc hp => intro hx; cases hx
    | close hc => intro _; rfl
    | _ => exact ih

/-- no Send has failed, so the writer works -/
theorem unbroken {c : Conn} {as : List CAct} (hr : CRun magic Conn.init as c) (hf : ¬ SendFailed as) : c.e.broken = false := by
  obtain ⟨bs, h1, _, h3⟩ := below_run hr
  obtain ⟨tail, h⟩ := wire_run h1
  cases hb : c.e.broken with
  | false => rfl
  | true =>
    obtain ⟨t, m, h4, _⟩ := h.failed hb
    exact absurd (h3 t m h4) hf

end Toku.Connection
