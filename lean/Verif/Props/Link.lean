import Verif.Proof.LinkSend
/-
Property C132: two connected peers, each with its read loop, its handlers and goroutines that send.
-/
namespace Toku.Props
open Toku.Protocol Toku.Spec Toku.Stream Toku.Connection

theorem delivery_b [Hashes] (magic : Bytes) (hm : magic.length = 4) (as : List (Who × CAct)) (l : Link)
    (hr : LRun magic Link.init as l) (hs : ∀ m, Called .a m as → Fits m ∧ Sendable m) :
    ∃ sent : List Msg, handed .b as = sent.map arrives ∧
      (sent <+: delivered (side .a as) ∨
        ∃ as0 m, as0 <+: as ∧ Called .a m as0 ∧ sent = delivered (side .a as0) ++ [m]) ∧
      (Who.b, CAct.refused) ∉ as ∧ (Who.b, CAct.crash) ∉ as := by
  -- as long as the loop has not given up
  have base : ∀ (as : List (Who × CAct)) (l : Link), LRun magic Link.init as l → (∀ m, Called .a m as → Fits m ∧ Sendable m) →
      (Who.b, CAct.lost) ∉ as → ∃ sent : List Msg, handed .b as = sent.map arrives ∧
      (sent <+: delivered (side .a as) ∨ ∃ m, Called .a m as ∧ sent = delivered (side .a as) ++ [m]) ∧
      (Who.b, CAct.refused) ∉ as ∧ (Who.b, CAct.crash) ∉ as := by
    intro as l hr hs hn
    obtain ⟨bs, hu, hnet⟩ := under_run hr
    obtain ⟨a1, _, _, a4, _⟩ := under_facts hu .a
    obtain ⟨_, b2, b3, _, b5⟩ := under_facts hu .b
    obtain ⟨sent, h1, h2⟩ := C94_delivery magic hm bs _ hnet (fun v h => hn (b3 v h)) (fun t m h => hs m (a4 t m h))
    have ok : ∀ r ∈ reads (of .b bs), ∃ m, r = .ok m := by
      intro r hr
      rw [h1] at hr
      obtain ⟨m, _, rfl⟩ := List.mem_map.mp hr
      exact ⟨_, rfl⟩
    refine ⟨sent, ?_, ?_, fun h => ?_, fun h => ?_⟩
    · rw [← b2, h1]
      simp [oks, List.filterMap_map]
    · rw [a1] at h2
      rcases h2 with h2 | ⟨t, m, h2, h3, _⟩
      · exact .inl h2
      · exact .inr ⟨m, a4 t m h2, h3⟩
    · obtain ⟨r, h3, h4⟩ := b5 (.inl h)
      obtain ⟨m, h5⟩ := ok r h3
      exact h4 m h5
    · obtain ⟨r, h3, h4⟩ := b5 (.inr h)
      obtain ⟨m, h5⟩ := ok r h3
      exact h4 m h5
  by_cases hl : (Who.b, CAct.lost) ∈ as
  · obtain ⟨x, y, rfl, hx⟩ := List.eq_append_cons_of_mem hl
    obtain ⟨l1, r1, r2⟩ := lrun_split hr
    rw [show (Who.b, CAct.lost) :: y = [(Who.b, CAct.lost)] ++ y from rfl] at r2
    obtain ⟨l2, r3, r4⟩ := lrun_split r2
    have hend : l2.b.loop.ended := by
      generalize hz : [(Who.b, CAct.lost)] = zs at r3
      cases r3 with
      | refl => cases hz
      | @snoc l3 _ ys w b hr hs =>
        obtain ⟨_, hb⟩ := List.append_inj' (show [] ++ [(Who.b, CAct.lost)] = ys ++ [(w, b)] from hz) rfl
        cases hb
        cases hs with
        | b _ c hs _ => cases hs; exact .inl rfl
    obtain ⟨_, h1, h2, h3⟩ := after_lost r4 hend
    have sub : ∀ m, Called .a m x → Called .a m (x ++ (Who.b, CAct.lost) :: y) := by
      rintro m ⟨t, h | h⟩
      · exact ⟨t, .inl (List.mem_append_left _ h)⟩
      · exact ⟨t, .inr (List.mem_append_left _ h)⟩
    obtain ⟨sent, k1, k2, k3, k4⟩ := base x l1 r1 (fun m h => hs m (sub m h)) hx
    have hside : ∀ w, side w (x ++ (Who.b, CAct.lost) :: y) = side w x ++ (side w [(Who.b, CAct.lost)] ++ side w y) := by
      intro w
      unfold side
      rw [show x ++ (Who.b, CAct.lost) :: y = x ++ ([(Who.b, CAct.lost)] ++ y) from rfl, List.filterMap_append, List.filterMap_append]
    refine ⟨sent, ?_, ?_, ?_, ?_⟩
    · have : handed .b (x ++ (Who.b, CAct.lost) :: y) = handed .b x ++ (handed .b [(Who.b, CAct.lost)] ++ handed .b y) := by
        unfold handed
        rw [hside, List.filterMap_append, List.filterMap_append]
      rw [this, h1, k1, show handed .b [(Who.b, CAct.lost)] = [] from rfl]
      simp
    · rcases k2 with k2 | ⟨m, k2, k5⟩
      · left
        rw [hside .a, show delivered (side .a x ++ (side .a [(Who.b, CAct.lost)] ++ side .a y)) =
          delivered (side .a x) ++ delivered (side .a [(Who.b, CAct.lost)] ++ side .a y) from List.filterMap_append]
        exact k2.trans (List.prefix_append _ _)
      · exact .inr ⟨x, m, List.prefix_append _ _, k2, k5⟩
    · simp only [List.mem_append, List.mem_cons, Prod.mk.injEq, not_or]
      exact ⟨k3, by simp, h2⟩
    · simp only [List.mem_append, List.mem_cons, Prod.mk.injEq, not_or]
      exact ⟨k4, by simp, h3⟩
  · obtain ⟨sent, k1, k2, k3⟩ := base as l hr hs hl
    refine ⟨sent, k1, ?_, k3⟩
    rcases k2 with k2 | ⟨m, k2, k5⟩
    · exact .inl k2
    · exact .inr ⟨as, m, List.prefix_rfl, k2, k5⟩

/-- **C132, what is handed over.** In every run of two connected peers, with any number of goroutines on both sides, handlers that send,
deadlines that pass and ends that close: the messages for which the receive handler of one side `w` has been called are the first of those
the other side has sent, in the order in which the Sends returned, possibly with one more for which Send has been called. And neither makes
the other disconnect because of a frame, or crash. The messages must be such as the decoder understands (C75), and `arrives` is what C76
says of them. -/
theorem C132_delivery [Hashes] (magic : Bytes) (hm : magic.length = 4) (as : List (Who × CAct)) (l : Link)
    (hr : LRun magic Link.init as l) (w v : Who) (hwv : w ≠ v) (hs : ∀ m, Called v m as → Fits m ∧ Sendable m) :
    ∃ sent : List Msg, handed w as = sent.map arrives ∧
      (sent <+: delivered (side v as) ∨
        ∃ as0 m, as0 <+: as ∧ Called v m as0 ∧ sent = delivered (side v as0) ++ [m]) ∧
      (w, CAct.refused) ∉ as ∧ (w, CAct.crash) ∉ as := by
  have calls : ∀ (bs : List (Who × CAct)) (m : Msg), Called .a m (swapped bs) ↔ Called .b m bs := by
    intro bs m
    unfold Called
    simp only [mem_swapped, Connection.flip]
  cases w with
  | b =>
    cases v with
    | a => exact delivery_b magic hm as l hr hs
    | b => exact absurd rfl hwv
  | a =>
    cases v with
    | a => exact absurd rfl hwv
    | b =>
      obtain ⟨sent, h1, h2, h3, h4⟩ := delivery_b magic hm (swapped as) _ (swap_run hr) (fun m h => hs m ((calls as m).mp h))
      refine ⟨sent, ?_, ?_, ?_, ?_⟩
      · rw [← h1]
        unfold handed
        rw [side_swapped]
        rfl
      · rw [side_swapped] at h2
        rcases h2 with h2 | ⟨as0, m, h2, h5, h6⟩
        · exact .inl h2
        · refine .inr ⟨swapped as0, m, ?_, ?_, ?_⟩
          · obtain ⟨z, hz⟩ := h2
            refine ⟨swapped z, ?_⟩
            rw [show swapped as0 ++ swapped z = swapped (as0 ++ z) from (List.map_append ..).symm, hz, swapped_swapped]
          · rw [← calls, swapped_swapped]
            exact h5
          · rw [h6, side_swapped]
            rfl
      · rwa [mem_swapped] at h3
      · rwa [mem_swapped] at h4

/-- Both loops wait for input, everything sent has arrived, and neither has a whole frame. -/
def BothWait (l : Link) : Prop :=
  (∃ late, l.a.loop = .reading late) ∧ (∃ late, l.b.loop = .reading late) ∧ l.toA = l.b.e.sent.length ∧ l.toB = l.a.e.sent.length ∧
    readParts l.a.e.input = none ∧ readParts l.b.e.input = none

/-- **C132, negation: two that listen never talk.** Once the loops of both sides wait for input with nothing under way, no run, however
long, whatever is sent and whichever deadlines pass, hands a message to both: at least one of the two receive handlers is never called
again. -/
theorem C132_negation_talk [Hashes] (magic : Bytes) (as : List (Who × CAct)) (l : Link) (hr : LRun magic Link.init as l)
    (hw : BothWait l) (bs : List (Who × CAct)) (l' : Link) (hr' : LRun magic l bs l') :
    handed .a bs = [] ∨ handed .b bs = [] := by
  obtain ⟨ra, rb, ta, tb, ia, ib⟩ := hw
  have nil : ∀ w, (∀ m, (w, CAct.deliver m) ∉ bs) → handed w bs = [] := by
    intro w h
    unfold handed
    rw [List.filterMap_eq_nil_iff]
    intro a ha
    obtain ⟨⟨v, b⟩, h1, h2⟩ := List.mem_filterMap.mp ha
    dsimp only at h2
    split at h2
    · rename_i hv
      cases h2
      subst hv
      cases a with
      | deliver m => exact absurd h1 (h m)
      | _ => rfl
    · cases h2
  rcases lstuck_run (good_lrun hr ⟨good_init, good_init⟩) ⟨ra, rb, ia, ib, ta, tb⟩ hr' with ⟨_, h⟩ | ⟨_, h⟩ | ⟨_, h⟩
  · exact .inl (nil _ (h _))
  · exact .inl (nil _ h)
  · exact .inr (nil _ h)

/-- **C132, negation: and until a deadline passes nothing happens.** From there, until one of the loops gives up, no Send returns at either
end, not a byte is sent, and both still wait. -/
theorem C132_negation_silence [Hashes] (magic : Bytes) (as : List (Who × CAct)) (l : Link) (hr : LRun magic Link.init as l)
    (hw : BothWait l) (bs : List (Who × CAct)) (l' : Link) (hr' : LRun magic l bs l') (hn : ∀ w, (w, CAct.lost) ∉ bs) :
    BothWait l' ∧ (∀ w, delivered (side w bs) = []) ∧ l'.a.e.sent = l.a.e.sent ∧ l'.b.e.sent = l.b.e.sent := by
  obtain ⟨ra, rb, ta, tb, ia, ib⟩ := hw
  obtain ⟨⟨a1, a2, a3, a4, a5, a6⟩, h2, h3, h4⟩ :=
    lstuck_silent (good_lrun hr ⟨good_init, good_init⟩) ⟨ra, rb, ia, ib, ta, tb⟩ hr' hn
  refine ⟨⟨a1, a2, a5, a6, a3, a4⟩, fun w => ?_, h3, h4⟩
  unfold delivered
  rw [List.filterMap_eq_nil_iff]
  intro a ha
  obtain ⟨⟨v, b⟩, k1, k2⟩ := List.mem_filterMap.mp ha
  dsimp only at k2
  split at k2
  · cases k2
    have := h2 _ k1
    unfold delivered at this
    rw [List.filterMap_eq_nil_iff] at this
    exact this a (List.mem_singleton.mpr rfl)
  · cases k2

/-- One side has started its loop and called Send from another goroutine. -/
theorem listening [Hashes] (magic : Bytes) (m : Msg) : ∃ c, CRun magic Conn.init [.start, .lock, .other 1 (.callWrite 1 m)] c ∧
    c.loop = .reading false ∧ c.e.sent = [] ∧ c.e.input = [] ∧ c.closed = false := by
  have s1 := Step.callRead (magic := magic) End.init 0 rfl
  have s2 := Step.lockRead (magic := magic) (End.init.set 0 .wantRead) 0 (set_procs _ _ _) rfl
  have s3 := Step.callWrite (magic := magic) { (End.init.set 0 .wantRead).set 0 .reading with holder := some 0 } 1 m
    (by simp [End.set, Function.update, End.init])
  exact ⟨_, .snoc (.snoc (crun_one (.start Conn.init _ rfl s1)) (.lock { Conn.init with e := _, loop := .waiting } _ rfl s2))
    (.other { Conn.init with e := _, loop := .reading false } _ 1 _ (by simp) (by decide) (.call m) (by simp) s3), rfl, rfl, rfl, rfl⟩

/-- **C132, negation.** It comes to this when both peers do the plain thing, to start the loop and then send: whatever the messages, there
is a run in which both have called Send and after which no run hands a message to both. -/
theorem C132_negation [Hashes] (magic : Bytes) (m m' : Msg) : ∃ as l, LRun magic Link.init as l ∧
    side .a as = [.start, .lock, .other 1 (.callWrite 1 m)] ∧ side .b as = [.start, .lock, .other 1 (.callWrite 1 m')] ∧ BothWait l ∧
    ∀ bs l', LRun magic l bs l' → handed .a (as ++ bs) = [] ∨ handed .b (as ++ bs) = [] := by
  obtain ⟨c, h1, h2, h3, h4, _⟩ := listening magic m
  obtain ⟨c', k1, k2, k3, k4, _⟩ := listening magic m'
  have r := lrun_append (lrun_a (l := Link.init) h1 (by simp)) (lrun_b (l := { Link.init with a := c }) k1 (by simp))
  have none : readParts [] = none := by rfl
  have hw : BothWait { Link.init with a := c, b := c' } :=
    ⟨⟨_, h2⟩, ⟨_, k2⟩, by show 0 = c'.e.sent.length; rw [k3]; rfl, by show 0 = c.e.sent.length; rw [h3]; rfl,
      by show readParts c.e.input = _; rw [h4]; exact none, by show readParts c'.e.input = _; rw [k4]; exact none⟩
  refine ⟨_, _, r, by simp [side], by simp [side], hw, fun bs l' hr' => ?_⟩
  have e : ∀ w, handed w (([.start, .lock, .other 1 (.callWrite 1 m)].map fun x => (Who.a, x)) ++
      ([.start, .lock, .other 1 (.callWrite 1 m')].map fun x => (Who.b, x)) ++ bs) = handed w bs := by
    intro w
    cases w <;> simp [handed, side]
  rw [e, e]
  exact C132_negation_talk magic _ _ r hw bs l' hr'

/-- **C132, partial: the one who speaks first sends before it listens.** Whatever the two messages, if one peer calls Send before it starts
its loop, and the other answers from its handler, both messages can arrive. -/
theorem C132_answer_partial [Hashes] (magic : Bytes) (hm : magic.length = 4) (m m' : Msg) (hf : Fits m) (hs : Sendable m) (hf' : Fits m')
    (hs' : Sendable m') : ∃ as l, LRun magic Link.init as l ∧ handed .b as = [arrives m] ∧ handed .a as = [arrives m'] ∧
      delivered (side .a as) = [m] ∧ delivered (side .b as) = [m'] ∧ l.a.loop = .handling (arrives m') ∧
      l.b.loop = .handling (arrives m) ∧ ∀ w k, Called w k as → k = m ∨ k = m' := by
  have ne : ∀ k : Msg, frame magic k ≠ [] := by
    intro k h
    have := congrArg List.length h
    rw [frame_eq] at this
    simp [Parts.bytes, partsOf] at this
  have calm : Calm End.init := ⟨fun _ => rfl, rfl, rfl⟩
  -- a sends
  obtain ⟨e1, r1, c1, s1, i1⟩ := send_now (magic := magic) (c := Conn.init) calm rfl (by simp [Conn.init]) 1 (by simp) m (ne m)
  have l1 := lrun_a (l := Link.init) r1 (by simp [wrap])
  -- it arrives at b
  have s1' : e1.sent = frame magic m := s1
  have st2 := LStep.arriveB (magic := magic) { Link.init with a := { Conn.init with e := e1 } } (frame magic m).length _
    (List.length_pos_iff.mpr (ne m)) (by show 0 + _ ≤ e1.sent.length; rw [s1']; omega)
    (.arrive Conn.init _ _ (by simp [Conn.init]) rfl (.arrive End.init _))
  have tk : ((({ Link.init with a := { Conn.init with e := e1 } } : Link).a.e.sent.drop
      ({ Link.init with a := { Conn.init with e := e1 } } : Link).toB).take (frame magic m).length) = frame magic m := by
    show (e1.sent.drop 0).take _ = _
    rw [s1', List.drop_zero, List.take_length]
  rw [tk] at st2
  -- b takes it and answers
  obtain ⟨e3, r3, c3, s3, i3⟩ := receive_now (magic := magic) (c := { Conn.init with e := { End.init with input := End.init.input ++ frame magic m } })
    ⟨fun _ => rfl, rfl, rfl⟩ rfl rfl m hm hf hs rfl
  obtain ⟨e4, r4, c4, s4, i4⟩ := send_now (magic := magic)
    (c := ⟨e3, .handling (arrives m), false⟩) c3 rfl (by simp) 0 (fun _ => trivial) m' (ne m')
  have l34 := lrun_b (l := { Link.init with a := { Conn.init with e := e1 }, b := { Conn.init with e := { End.init with input := End.init.input ++ frame magic m } }, toB := 0 + (frame magic m).length })
    (crun_append r3 r4) (by simp [wrap])
  -- the answer arrives at a
  have s4' : e4.sent = frame magic m' := by rw [s4]; show e3.sent ++ _ = _; rw [s3]; rfl
  have st5 := LStep.arriveA (magic := magic) ⟨{ Conn.init with e := e1 }, ⟨e4, .handling (arrives m), false⟩, 0, 0 + (frame magic m).length⟩
    (frame magic m').length _ (List.length_pos_iff.mpr (ne m')) (by show 0 + _ ≤ e4.sent.length; rw [s4']; omega)
    (.arrive { Conn.init with e := e1 } _ _ (by simp [Conn.init]) rfl (.arrive e1 _))
  have tk5 : (((⟨{ Conn.init with e := e1 }, ⟨e4, .handling (arrives m), false⟩, 0, 0 + (frame magic m).length⟩ : Link).b.e.sent.drop 0).take
      (frame magic m').length) = frame magic m' := by
    show (e4.sent.drop 0).take _ = _
    rw [s4', List.drop_zero, List.take_length]
  rw [show (⟨{ Conn.init with e := e1 }, ⟨e4, .handling (arrives m), false⟩, 0, 0 + (frame magic m).length⟩ : Link).toA = 0 from rfl, tk5] at st5
  -- a takes it
  obtain ⟨e6, r6, c6, s6, i6⟩ := receive_now (magic := magic) (c := { Conn.init with e := { e1 with input := e1.input ++ frame magic m' } })
    ⟨c1.idle, c1.free, c1.whole⟩ rfl rfl m' hm hf' hs' (by show e1.input ++ _ = _; rw [i1]; rfl)
  have l6 := lrun_a (l := ⟨{ Conn.init with e := { e1 with input := e1.input ++ frame magic m' } }, ⟨e4, .handling (arrives m), false⟩,
    0 + (frame magic m').length, 0 + (frame magic m).length⟩) r6 (by simp)
  refine ⟨_, _, lrun_append (.snoc (lrun_append (.snoc l1 st2) l34) st5) l6, ?_, ?_, ?_, ?_, rfl, rfl, ?_⟩
  · simp [handed, side, wrap]
  · simp [handed, side, wrap]
  · simp [side, delivered, wrap]
  · simp [side, delivered, wrap]
  · rintro w k ⟨t, h | h⟩ <;> simp [wrap] at h <;> simp [h]

/-- Two peers, a `verack` and a `ping`: the hypotheses of C132_delivery hold both ways and the lists it speaks of are not empty. -/
example [Hashes] : ∃ as l, LRun [0xf9, 0xbe, 0xb4, 0xd9] Link.init as l ∧ handed .b as = [.verack] ∧ handed .a as = [arrives (.ping 7)] ∧
    ∀ w m, Called w m as → Fits m ∧ Sendable m := by
  have f1 : Fits .verack ∧ Sendable .verack := ⟨trivial, by decide, by simp⟩
  have f2 : Fits (.ping 7) ∧ Sendable (.ping 7) := ⟨trivial, by decide, by simp⟩
  obtain ⟨as, l, h1, h2, h3, _, _, _, _, h8⟩ := C132_answer_partial [0xf9, 0xbe, 0xb4, 0xd9] rfl .verack (.ping 7) f1.1 f1.2 f2.1 f2.2
  refine ⟨as, l, h1, h2, h3, fun w m hm => ?_⟩
  rcases h8 w m hm with rfl | rfl
  · exact f1
  · exact f2

end Toku.Props
