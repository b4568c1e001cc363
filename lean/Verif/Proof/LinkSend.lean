import Verif.Proof.LinkUnder
import Verif.Props.Connection
/-
Whole calls of Send and of ReadMessage, without disturbance.
-/
namespace Toku.Connection
open Toku.Protocol Toku.Stream Toku.Spec Toku.Props

variable [Hashes] {magic : Bytes}

/-- nobody is in a call -/
structure Calm (e : End) : Prop where
  idle : ∀ t, e.procs t = .idle
  free : e.holder = none
  whole : e.broken = false

/-- A whole call of WriteMessage. -/
theorem write_now {e : End} (h : Calm e) (t : Nat) (m : Msg) (hf : frame magic m ≠ []) : ∃ e', Run magic e
    [.callWrite t m, .lock t, .put t (frame magic m).length, .wrote t m] e' ∧ Calm e' ∧ e'.sent = e.sent ++ frame magic m ∧
      e'.input = e.input := by
  have s1 := Step.callWrite (magic := magic) e t m (h.idle t)
  have s2 := Step.lockWrite (magic := magic) (e.set t (.wantWrite m)) t m (set_procs _ _ _) h.free
  have s3 := Step.put (magic := magic) { (e.set t (.wantWrite m)).set t (.writing m (frame magic m)) with holder := some t } t m
    (frame magic m) (frame magic m).length (set_procs _ _ _) h.whole (List.length_pos_iff.mpr hf) le_rfl
  rw [List.drop_length, List.take_length] at s3
  have s4 := Step.wrote (magic := magic) { (({ (e.set t (.wantWrite m)).set t (.writing m (frame magic m)) with holder := some t } : End).set t
    (.writing m [])) with sent := e.sent ++ frame magic m } t m (set_procs _ _ _) h.whole
  refine ⟨_, .snoc (.snoc (.snoc (run_one s1) s2) s3) s4, ⟨fun u => ?_, rfl, h.whole⟩, rfl, rfl⟩
  show Function.update (Function.update (Function.update (Function.update e.procs t _) t _) t _) t _ u = _
  by_cases hu : u = t
  · subst hu; simp
  · simp [Function.update_of_ne hu, h.idle]

/-- A whole call of ReadMessage that has its frame, until it returns. -/
theorem read_now {e : End} (h : Calm e) (m : Msg) (hm : magic.length = 4) (hf : Fits m) (hs : Sendable m)
    (hi : e.input = frame magic m) : ∃ e1 e2 e3, Step magic e (.callRead 0) e1 ∧ Step magic e1 (.lock 0) e2 ∧
      Step magic e2 (.read 0 (.ok (arrives m))) e3 ∧ Calm e3 ∧ e3.sent = e.sent ∧ e3.input = [] := by
  have s1 := Step.callRead (magic := magic) e 0 (h.idle 0)
  have s2 := Step.lockRead (magic := magic) (e.set 0 .wantRead) 0 (set_procs _ _ _) h.free
  have hr := readParts_ok (partsOf magic m) (partsOf_ok hm hs.1) []
  rw [List.append_nil, ← frame_eq, ← hi] at hr
  have s3 := Step.read (magic := magic) { (e.set 0 .wantRead).set 0 .reading with holder := some 0 } 0 _ [] (set_procs (e.set 0 .wantRead) 0 .reading) hr
  rw [open_partsOf magic magic hm m hf hs] at s3
  refine ⟨_, _, _, s1, s2, s3, ⟨fun u => ?_, rfl, h.whole⟩, rfl, rfl⟩
  show Function.update (Function.update (Function.update e.procs 0 _) 0 _) 0 _ u = _
  by_cases hu : u = 0
  · subst hu; simp
  · simp [Function.update_of_ne hu, h.idle]

/-- A whole call of Send. -/
theorem send_now {c : Conn} (h : Calm c.e) (hc : c.closed = false) (hl : c.loop ≠ .crashed) (t : Nat) (ht : t = 0 → c.loop.inHandler)
    (m : Msg) (hf : frame magic m ≠ []) : ∃ e', CRun magic c
    ([.callWrite t m, .lock t, .put t (frame magic m).length, .wrote t m].map wrap) { c with e := e' } ∧ Calm e' ∧
      e'.sent = c.e.sent ++ frame magic m ∧ e'.input = c.e.input := by
  obtain ⟨e', h1, h2, h3, h4⟩ := write_now (magic := magic) h t m hf
  refine ⟨e', lift_run (l := c.loop) (cl := c.closed) h1 hl ?_, h2, h3, h4⟩
  intro a ha
  rw [hc]
  simp only [List.mem_cons, List.not_mem_nil, or_false] at ha
  rcases ha with rfl | rfl | rfl | rfl
  · exact ⟨t, .call m, ht, by simp⟩
  · exact ⟨t, .lock, ht, by simp⟩
  · exact ⟨t, .put _, ht, by simp⟩
  · exact ⟨t, .wrote m, ht, by simp⟩

/-- The loop starts and takes a message that is there. -/
theorem receive_now {c : Conn} (h : Calm c.e) (hc : c.closed = false) (hl : c.loop = .notStarted) (m : Msg) (hm : magic.length = 4)
    (hf : Fits m) (hs : Sendable m) (hi : c.e.input = frame magic m) : ∃ e', CRun magic c [.start, .lock, .deliver (arrives m)]
      { c with e := e', loop := .handling (arrives m) } ∧ Calm e' ∧ e'.sent = c.e.sent ∧ e'.input = [] := by
  obtain ⟨e1, e2, e3, s1, s2, s3, h1, h2, h3⟩ := read_now h m hm hf hs hi
  refine ⟨e3, .snoc (.snoc (crun_one (.start c e1 hl s1)) (.lock { c with e := e1, loop := .waiting } e2 rfl s2))
    (.deliver { c with e := e2, loop := .reading c.closed } e3 (arrives m) (by dsimp only; rw [hc]) s3), h1, h2, h3⟩

end Toku.Connection
