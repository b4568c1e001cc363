import Verif.Proof.Connection
import Verif.Props.Stream
/-
Property C110: a connection with its read loop, its handlers, and goroutines that send.
-/
namespace Toku.Props
open Toku.Protocol Toku.Spec Toku.Stream Toku.Connection

/-- The loop has started and waits for input. -/
theorem opened [Hashes] (magic w : Bytes) : ∃ c, CRun magic Conn.init [.arrive w, .start, .lock] c ∧ c.loop = .reading false ∧
    c.closed = false ∧ c.e.procs 0 = .reading ∧ c.e.input = w := by
  have s1 := CStep.arrive (magic := magic) Conn.init _ w (by simp [Conn.init]) rfl (Step.arrive End.init w)
  have s2 := CStep.start (magic := magic) { Conn.init with e := { End.init with input := End.init.input ++ w } } _ rfl
    (Step.callRead { End.init with input := End.init.input ++ w } 0 rfl)
  have s3 := CStep.lock (magic := magic)
    { Conn.init with e := ({ End.init with input := End.init.input ++ w } : End).set 0 .wantRead, loop := .waiting } _ rfl
    (Step.lockRead (({ End.init with input := End.init.input ++ w } : End).set 0 .wantRead) 0 (set_procs _ _ _) rfl)
  exact ⟨_, .snoc (.snoc (.snoc (.refl _) s1) s2) s3, rfl, rfl,
    set_procs (({ End.init with input := End.init.input ++ w } : End).set 0 .wantRead) 0 .reading, rfl⟩

/-- A whole frame that has arrived: ReadMessage can return what the decoder makes of it. -/
theorem opened_frame [Hashes] (magic own field data : Bytes) (hm : magic.length = 4) (hf : field.length = 12) (hd : data.length < 2^32) :
    ∃ c e, CRun own Conn.init [.arrive (frameOf magic field data), .start, .lock] c ∧ c.loop = .reading false ∧ c.closed = false ∧
      Step own c.e (.read 0 (decode (makeEmptyMessage (trimZeros field)) data)) e ∧ e.procs 0 = .idle ∧ e.holder = none ∧ e.broken = c.e.broken := by
  obtain ⟨c, h1, h2, h3, h4, h5⟩ := opened own (frameOf magic field data)
  obtain ⟨hp, hb⟩ := (isFrame_iff _ _ _ _).mp (⟨hm, hf, hd, rfl⟩ : IsFrame (frameOf magic field data) magic field data)
  have hr := readParts_ok _ hp []
  rw [List.append_nil, ← hb, ← h5] at hr
  have hs := Step.read (magic := own) c.e 0 _ [] h4 hr
  rw [Parts.tuple, openFrame_good] at hs
  exact ⟨c, _, h1, h2, h3, hs, set_procs c.e 0 .idle, rfl, rfl⟩

/-- **C110, order.** In every run of a connection the receive handler has been called for the messages of the first frames that have
arrived, once each and in wire order; then, if the loop has ended, the disconnect handler once, and nothing after it. The one other end is
a crash of the process. While the receive handler runs, it runs for the last of these messages. -/
theorem C110_order [Hashes] (magic : Bytes) (as : List CAct) (c : Conn) (hr : CRun magic Conn.init as c) :
    ∃ ms rest, Carries (Spec.arrived as) ms rest ∧
      seen as = ms.map .receive ++ (match c.loop with | .leaving => [.disconnect] | .done => [.disconnect] | .crashed => [.crash] | _ => []) ∧
      ∀ m, c.loop = .handling m → ms.getLast? = some m := by
  obtain ⟨ms, h⟩ := record_run hr
  obtain ⟨rest, h1, _⟩ := h.carried
  refine ⟨ms, rest, h1, ?_, h.last⟩
  rw [h.seen]
  cases c.loop <;> rfl

theorem readLoop_carries [Hashes] (magic : Bytes) (ms : List Msg) (w rest : Bytes) (h : Carries w ms rest) :
    readLoop magic w = ms.map .receive ++ readLoop magic rest := by
  induction ms generalizing w with
  | nil => change w = rest at h; rw [h]; rfl
  | cons m ms ih =>
    obtain ⟨f, t, rfl, hf, h⟩ := h
    rw [readLoop_eq, (C77_checksum_partial magic _ m t).mpr ⟨f, rfl, hf⟩]
    show Event.receive m :: readLoop magic t = _
    rw [ih t h]
    rfl

/-- **C110, the messages.** They are the first of those that the loop on its own makes of the same bytes (C79), however the bytes come in
and whatever the handlers and the other goroutines do. -/
theorem C110_prefix [Hashes] (magic : Bytes) (as : List CAct) (c : Conn) (hr : CRun magic Conn.init as c) :
    (seen as).filter (fun | .receive _ => true | _ => false) <+: readLoop magic (Spec.arrived as) := by
  obtain ⟨ms, rest, h1, h2, _⟩ := C110_order magic as c hr
  rw [readLoop_carries magic ms _ rest h1, h2, List.filter_append]
  have e1 : (ms.map Event.receive).filter (fun | .receive _ => true | _ => false) = ms.map .receive := by
    rw [List.filter_eq_self]
    intro x hx
    obtain ⟨m, _, rfl⟩ := List.mem_map.mp hx
    rfl
  rw [e1]
  cases c.loop <;> simp

/-- **C110, one handler at a time.** Between a call of the receive handler and the next call of a handler the first has returned. -/
theorem C110_one_at_a_time [Hashes] (magic : Bytes) (as bs : List CAct) (m : Msg) (a : CAct) (c : Conn)
    (hr : CRun magic Conn.init (as ++ [.deliver m] ++ bs ++ [a]) c) (ha : (∃ m', a = .deliver m') ∨ a = .refused ∨ a = .lost) :
    CAct.next ∈ bs := by
  by_contra hn
  obtain ⟨c1, h1, h2⟩ := crun_split hr
  obtain ⟨c2, h3, h4⟩ := crun_split h1
  obtain ⟨c3, _, h5⟩ := crun_split h3
  have hd : c2.loop = .handling m := by
    generalize hx : [CAct.deliver m] = xs at h5
    cases h5 with
    | refl => cases hx
    | @snoc c4 _ ys b hr hs =>
      obtain ⟨_, hb⟩ := List.append_inj' (show [] ++ [CAct.deliver m] = ys ++ [b] from hx) rfl
      cases hb
      cases hs; rfl
  have hd' := handling_run hd h4 hn
  generalize hx : [a] = xs at h2
  cases h2 with
  | refl => cases hx
  | @snoc c4 _ ys b hr hs =>
    obtain ⟨hy, hb⟩ := List.append_inj' (show [] ++ [a] = ys ++ [b] from hx) rfl
    cases hb
    subst hy
    have e : c4.loop = .handling m := by
      generalize hz : ([] : List CAct) = zs at hr
      cases hr with
      | refl => exact hd'
      | snoc _ _ => simp at hz
    rcases ha with ⟨m', rfl⟩ | rfl | rfl <;> cases hs <;> simp_all

/-- **C110, whole frames.** When no Send is writing and none has failed, the bytes sent are the frames of the messages of the Sends that
have returned, handlers' and other goroutines' alike, in the order in which they returned. -/
theorem C110_whole_frames [Hashes] (magic : Bytes) (as : List CAct) (c : Conn) (hr : CRun magic Conn.init as c)
    (hq : ∀ t m rest, c.e.procs t ≠ .writing m rest) (hf : ¬ SendFailed as) :
    c.e.sent = (delivered as).flatMap (frame magic) := by
  obtain ⟨bs, h1, h2, h3⟩ := below_run hr
  rw [← h2]
  exact C80_whole_frames magic bs c.e h1 hq fun t m h => hf (h3 t m h)

/-- **C110, sending waits for receiving.** From the moment the loop waits for input until a message, an error or the end of the connection
comes, no Send of any goroutine returns and not one byte is sent. -/
theorem C110_send_waits [Hashes] (magic : Bytes) (as : List CAct) (c : Conn) (hr : CRun magic Conn.init as c) (late : Bool)
    (hl : c.loop = .reading late) (bs : List CAct) (c' : Conn) (hr' : CRun magic c bs c') (h1 : ∀ m, CAct.deliver m ∉ bs)
    (h2 : CAct.refused ∉ bs) (h3 : CAct.crash ∉ bs) (h4 : CAct.lost ∉ bs) : c'.e.sent = c.e.sent ∧ ∀ t m, ¬ Returned t m bs :=
  (blocks_run (good_run hr good_init) hl hr' h1 h2 h3 h4).2

/-- **C110, a handler can send.** While the loop is not in ReadMessage — before it starts, in a handler, after it has ended, or when it
still waits for the lock — every Send that has been called, by the handler or by another goroutine, can run to its end by steps of Sends
alone, as long as the connection is not closed and no write has failed. -/
theorem C110_send_completes [Hashes] (magic : Bytes) (as : List CAct) (c : Conn) (hr : CRun magic Conn.init as c)
    (hcl : c.closed = false) (hf : ¬ SendFailed as) (hc : c.loop ≠ .crashed) (hl : ∀ late, c.loop ≠ .reading late) (t : Nat) (m : Msg)
    (hm : m ∈ pending (c.e.procs t)) :
    ∃ bs c', CRun magic c bs c' ∧ Returned t m bs ∧ c'.loop = c.loop ∧
      ∀ a ∈ bs, ∃ u b, Sends u b ∧ (a = .handler b ∨ a = .other u b) := by
  obtain ⟨bs, h1, _, h3⟩ := below_run hr
  obtain ⟨tail, h⟩ := wire_run h1
  have hb : c.e.broken = false := by
    cases hb : c.e.broken with
    | false => rfl
    | true =>
      obtain ⟨t, m, h4, _⟩ := h.failed hb
      exact absurd (h3 t m h4) hf
  obtain ⟨bs, e, h5, h6, h7⟩ := send_finishes (good_run hr good_init) hcl hb hc hl hm
  exact ⟨bs, _, h5, h6, rfl, h7⟩

/-- **C110, Close.** After Close not one more byte is sent, and at most one more message is handed over: one only if the loop is already
waiting for input when the connection is closed. -/
theorem C110_close [Hashes] (magic : Bytes) (c : Conn) (hc : c.closed = true) (bs : List CAct) (c' : Conn) (hr : CRun magic c bs c') :
    c'.e.sent = c.e.sent ∧ (bs.countP fun | .deliver _ => true | _ => false) ≤ 1 ∧
      (c.loop ≠ .reading false → ∀ m, CAct.deliver m ∉ bs) := by
  obtain ⟨_, h2, h3⟩ := close_run hr hc
  have hle : left c.loop ≤ 1 := by unfold left; split <;> omega
  refine ⟨h3, (Nat.le_of_add_right_le h2).trans hle, fun hl m hm => ?_⟩
  have h0 : left c.loop = 0 := by
    unfold left
    split
    · exact absurd ‹_› hl
    · rfl
  rw [h0] at h2
  have := List.countP_eq_zero.mp (Nat.eq_zero_of_add_eq_zero_right (Nat.le_zero.mp h2)) _ hm
  simp at this

/-- A message that is handed over after Close. -/
example [Hashes] (magic : Bytes) (hm : magic.length = 4) : ∃ as c c', CRun magic Conn.init (as ++ [.close]) c ∧ c.closed = true ∧
    CRun magic c [.deliver .verack] c' := by
  obtain ⟨c, e, h1, h2, h3, h4, h5, h6, h7⟩ := opened_frame magic magic
    (ascii ['v', 'e', 'r', 'a', 'c', 'k', '\x00', '\x00', '\x00', '\x00', '\x00', '\x00']) [] hm rfl (by decide)
  have hd : decode (makeEmptyMessage (trimZeros (ascii ['v', 'e', 'r', 'a', 'c', 'k', '\x00', '\x00', '\x00', '\x00', '\x00', '\x00'])))
      [] = .ok .verack := by rfl
  rw [hd] at h4
  exact ⟨_, _, _, .snoc h1 (.close c (by rw [h2]; simp)), rfl, crun_one (.deliver { c with closed := true } e .verack h2 h4)⟩

/-- **C110, the loop can end.** From every state of a connection whose process has not crashed there is a run to the end of the loop in
which nothing more arrives, nothing more is handed over, and nobody calls Close: no handler and no Send can keep it from ending. -/
theorem C110_ends [Hashes] (magic : Bytes) (as : List CAct) (c : Conn) (hr : CRun magic Conn.init as c) (hc : c.loop ≠ .crashed) :
    ∃ bs c', CRun magic c bs c' ∧ (∀ x, CAct.arrive x ∉ bs) ∧ (∀ m, CAct.deliver m ∉ bs) ∧ CAct.close ∉ bs ∧ c'.loop = .done := by
  obtain ⟨bs, c', h1, ⟨h2, h3, h4⟩, h5⟩ := ends (magic := magic) (good_run hr good_init) hc
  exact ⟨bs, c', h1, h2, h3, h4, h5⟩

/-- **C110, the crash.** A peer can end the process with one frame: the disconnect handler is not called. -/
theorem C110_crash [Hashes] (magic own : Bytes) (hm : magic.length = 4) : ∃ as c, CRun own Conn.init as c ∧ c.loop = .crashed ∧
    Spec.arrived as = frameOf magic (ascii ['r', 'e', 'j', 'e', 'c', 't', '\x00', '\x00', '\x00', '\x00', '\x00', '\x00']) badReject ∧
    seen as = [.crash] := by
  obtain ⟨c, e, h1, h2, h3, h4, _⟩ := opened_frame magic own (ascii ['r', 'e', 'j', 'e', 'c', 't', '\x00', '\x00', '\x00', '\x00', '\x00', '\x00'])
    badReject hm rfl (by decide)
  have hd : decode (makeEmptyMessage (trimZeros (ascii ['r', 'e', 'j', 'e', 'c', 't', '\x00', '\x00', '\x00', '\x00', '\x00', '\x00'])))
      badReject = .panic := by decide +kernel
  rw [hd] at h4
  exact ⟨_, _, .snoc h1 (.crash c e h2 h4), rfl, by simp [Spec.arrived], by simp [seen]⟩

/-- A `verack` arrives; its handler sends a `pong`, which goes out; then the connection ends. -/
example [Hashes] (magic : Bytes) (hm : magic.length = 4) : ∃ as c as' c' bs bs' c'', CRun magic Conn.init as c ∧ c.loop = .handling .verack ∧
    pending (c.e.procs 0) = [.pong 7] ∧ CRun magic c as' c' ∧ Returned 0 (.pong 7) as' ∧ CRun magic c' (bs ++ bs') c'' ∧ c''.loop = .done ∧
    seen (as ++ as' ++ (bs ++ bs')) = [.receive .verack, .disconnect] := by
  obtain ⟨c, e, h1, h2, h3, h4, h5, h6, h7⟩ := opened_frame magic magic
    (ascii ['v', 'e', 'r', 'a', 'c', 'k', '\x00', '\x00', '\x00', '\x00', '\x00', '\x00']) [] hm rfl (by decide)
  have hd : decode (makeEmptyMessage (trimZeros (ascii ['v', 'e', 'r', 'a', 'c', 'k', '\x00', '\x00', '\x00', '\x00', '\x00', '\x00'])))
      [] = .ok .verack := by rfl
  rw [hd] at h4
  have s1 := CStep.deliver c e .verack h2 h4
  have s2 := CStep.handler (magic := magic) { c with e := e, loop := .handling .verack } _ (.callWrite 0 (.pong 7)) (.inl ⟨_, rfl⟩)
    (.call _) (fun _ n => by simp) (Step.callWrite e 0 (.pong 7) h5)
  have r2 := CRun.snoc (.snoc h1 s1) s2
  have hp : pending ((e.set 0 (.wantWrite (.pong 7))).procs 0) = [.pong 7] := by rw [set_procs]; rfl
  obtain ⟨as', c', h8, h9, h10, h11⟩ := C110_send_completes magic _ _ r2 h3 (by rintro ⟨t, m, h | h⟩ <;> simp at h) (by simp) (by simp) 0 (.pong 7)
    (by rw [hp]; simp)
  obtain ⟨bs, c'', h12, h13, h14, h15, h16⟩ := C110_ends magic _ _ (crun_append r2 h8) (by rw [h10]; simp)
  refine ⟨_, _, as', c', bs, [], c'', r2, rfl, hp, h8, h9, by rw [List.append_nil]; exact h12, h16, ?_⟩
  obtain ⟨ms, rest, hc, hs, _⟩ := C110_order magic _ _ (crun_append (crun_append r2 h8) h12)
  rw [h16] at hs
  have q1 : seen as' = [] := by
    rw [seen, List.filterMap_eq_nil_iff]
    intro a ha
    obtain ⟨u, b, _, rfl | rfl⟩ := h11 a ha <;> rfl
  have key : ∀ m, Event.receive m ∉ seen bs := by
    intro m hm
    obtain ⟨a, ha, he⟩ := List.mem_filterMap.mp hm
    cases a <;> simp at he
    subst he
    exact h14 _ ha
  have q3 : ∀ x y z : List CAct, seen (x ++ y ++ z) = seen x ++ seen y ++ seen z := fun x y z => by
    simp [seen, List.filterMap_append]
  rw [List.append_nil, hs]
  rw [q3, q1] at hs
  change Event.receive .verack :: ([] ++ seen bs) = _ at hs
  cases ms with
  | nil => simp at hs
  | cons m ms =>
    simp at hs
    obtain ⟨rfl, hs⟩ := hs
    cases ms with
    | nil => rfl
    | cons m' ms => exact absurd (by rw [hs]; simp) (key m')

end Toku.Props
