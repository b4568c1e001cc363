import Verif.Proof.Stream
import Verif.Props.Protocol
/-
Properties C80, C81 and C94: streams used by several goroutines, at both ends of a connection.
-/
namespace Toku.Props
open Toku.Protocol Toku.Spec Toku.Stream

/-! ### C80 -/

/-- **C80.** Whatever the goroutines of one end do, and in whatever pieces the bytes go out: when no write is in progress
and none has failed, the bytes on the wire are the frames of the completed writes, one after another, in the order in
which the writes returned. -/
theorem C80_whole_frames [Hashes] (magic : Bytes) (as : List Act) (s : End) (hr : Run magic End.init as s)
    (hq : ∀ t m rest, s.procs t ≠ .writing m rest) (hf : ∀ t m, Act.writeFailed t m ∉ as) :
    s.sent = (completed as).flatMap (frame magic) := by
  obtain ⟨tail, h⟩ := wire_run hr
  have hb : s.broken = false := by
    cases hb : s.broken with
    | false => rfl
    | true =>
      obtain ⟨t, m, h1, _⟩ := h.failed hb
      exact absurd h1 (hf t m)
  rw [h.sent, h.none hq hb, List.append_nil]

/-- **C80, at every moment.** At any time the wire carries the frames of the completed writes, in order of return,
followed by a beginning of one frame: of the message that is being written, or of one whose write has failed. -/
theorem C80_always [Hashes] (magic : Bytes) (as : List Act) (s : End) (hr : Run magic End.init as s) :
    ∃ tail, s.sent = (completed as).flatMap (frame magic) ++ tail ∧
      (tail = [] ∨ (∃ t m rest, s.procs t = .writing m rest ∧ tail ++ rest = frame magic m) ∨
        ∃ t m, Act.writeFailed t m ∈ as ∧ tail <+: frame magic m) := by
  obtain ⟨tail, h⟩ := wire_run hr
  refine ⟨tail, h.sent, ?_⟩
  cases hb : s.broken with
  | true => exact .inr (.inr (h.failed hb))
  | false =>
    by_cases hq : ∀ t m rest, s.procs t ≠ .writing m rest
    · exact .inl (h.none hq hb)
    · push Not at hq
      obtain ⟨t, m, rest, hp⟩ := hq
      exact .inr (.inl ⟨t, m, rest, hp, h.cur t m rest hp hb⟩)

/-- **C80, one return for each call.** The calls of WriteMessage by a goroutine return in the order they were made, each
once; at most the last one has not returned. -/
theorem C80_calls [Hashes] (magic : Bytes) (as : List Act) (s : End) (hr : Run magic End.init as s) (t : Nat) :
    calls t as = returns t as ++ pending (s.procs t) := calls_run hr t

/-- **C80, exclusion.** Two goroutines are never both inside ReadMessage or WriteMessage past the lock. -/
theorem C80_exclusion [Hashes] (magic : Bytes) (as : List Act) (s : End) (hr : Run magic End.init as s) (t u : Nat)
    (ht : s.procs t = .reading ∨ ∃ m rest, s.procs t = .writing m rest)
    (hu : s.procs u = .reading ∨ ∃ m rest, s.procs u = .writing m rest) : t = u := by
  have hx := excl_run hr excl_init
  have key : ∀ v, (s.procs v = .reading ∨ ∃ m rest, s.procs v = .writing m rest) → s.holder = some v := by
    rintro v (h | ⟨m, rest, h⟩) <;> exact (hx v).mp (by rw [h]; trivial)
  have := (key t ht).symm.trans (key u hu)
  exact Option.some.inj this

/-- A run in which two goroutines call WriteMessage before either has the lock, and the second gets it first: both writes
return and nothing fails. -/
example [Hashes] (magic : Bytes) (m m' : Msg) : ∃ as s, Run magic End.init as s ∧
    (∀ t n rest, s.procs t ≠ .writing n rest) ∧ (∀ t n, Act.writeFailed t n ∉ as) ∧ completed as = [m', m] := by
  have h1 := run_one (Step.callWrite (magic := magic) End.init 0 m rfl)
  have h2 := Run.snoc h1 (Step.callWrite (magic := magic) _ 1 m' (by rw [set_procs_ne _ _ _ _ (by decide)]; rfl))
  obtain ⟨as, s1, r1, h3, h4, h5, h6, h7, h8⟩ := lock_and_finish (magic := magic) (set_procs (End.init.set 0 (.wantWrite m)) 1
    (.wantWrite m')) rfl rfl
  have h9 : s1.procs 0 = .wantWrite m := by
    rw [h6 0 (by decide), set_procs_ne _ _ _ _ (by decide), set_procs]
  obtain ⟨bs, s2, r2, k3, k4, k5, k6, k7, k8⟩ := lock_and_finish (magic := magic) h9 h3 h4
  refine ⟨_, s2, run_append (run_append h2 r1) r2, ?_, ?_, ?_⟩
  · intro t n rest hw
    have := (excl_run (run_append (run_append h2 r1) r2) excl_init t).mp (by rw [hw]; trivial)
    rw [k3] at this
    cases this
  · intro t n hc
    simp only [List.mem_append] at hc
    rcases hc with (hc | hc) | hc
    · simp at hc
    · exact h8 t n hc
    · exact k8 t n hc
  · rw [completed_append, completed_append, h7, k7]
    simp [completed]

/-! ### C81 -/

/-- **C81, negation: a reader keeps writers out.** From the moment a goroutine waits for input in ReadMessage until that
call returns, no WriteMessage on the same stream returns and not one byte is sent, whatever else happens. -/
theorem C81_reader_blocks [Hashes] (magic : Bytes) (as : List Act) (s : End) (hr : Run magic End.init as s) (t : Nat)
    (ht : s.procs t = .reading) (bs : List Act) (s' : End) (hr' : Run magic s bs s') (h1 : ∀ r, Act.read t r ∉ bs)
    (h2 : Act.readFailed t ∉ bs) : s'.sent = s.sent ∧ ∀ u m, Act.wrote u m ∉ bs := by
  obtain ⟨_, h3, h4⟩ := read_blocks hr' (excl_run hr excl_init) ht h1 h2
  refine ⟨h3, fun u m hm => ?_⟩
  have : m ∈ completed bs := List.mem_filterMap.mpr ⟨_, hm, rfl⟩
  rw [h4] at this
  cases this

/-- **C81, negation: two peers that read block each other.** If at both ends a goroutine waits for input, everything sent
has arrived, and no whole frame is there, then until one of the reads gives up nothing is read, no write returns, and
nothing is sent, in every run. -/
theorem C81_deadlock [Hashes] (magic : Bytes) (as : List (Who × Act)) (n : Net) (hr : NetRun magic Net.init as n) (t u : Nat)
    (ht : n.a.procs t = .reading) (hu : n.b.procs u = .reading) (ha : n.toA = n.b.sent.length)
    (hb : n.toB = n.a.sent.length) (ia : readParts n.a.input = none) (ib : readParts n.b.input = none)
    (bs : List (Who × Act)) (n' : Net) (hr' : NetRun magic n bs n') (hf : ∀ w v, (w, Act.readFailed v) ∉ bs) :
    (∀ w v r, (w, Act.read v r) ∉ bs) ∧ (∀ w v m, (w, Act.wrote v m) ∉ bs) ∧ n'.a.sent = n.a.sent ∧ n'.b.sent = n.b.sent :=
  (stuck_run ⟨excl_run (net_run_a hr) excl_init, excl_run (net_run_b hr) excl_init, ht, hu, ia, ib, ha, hb⟩ hr' hf).2

/-- **C81, negation.** Two peers can come to this: both read, both have another goroutine that has called WriteMessage,
and until a read gives up neither write returns. -/
theorem C81_negation [Hashes] (magic : Bytes) (m m' : Msg) : ∃ as n, NetRun magic Net.init as n ∧
    (Who.a, Act.callWrite 1 m) ∈ as ∧ (Who.b, Act.callWrite 1 m') ∈ as ∧
    ∀ bs n', NetRun magic n bs n' → (∀ w v, (w, Act.readFailed v) ∉ bs) → ∀ w v k, (w, Act.wrote v k) ∉ as ++ bs := by
  have key : ∀ k : Msg, ∃ s : End, (∀ n : Net, n.a = End.init → NetRun magic n [(.a, .callRead 0), (.a, .lock 0),
      (.a, .callWrite 1 k)] { n with a := s }) ∧ (∀ n : Net, n.b = End.init → NetRun magic n [(.b, .callRead 0), (.b, .lock 0),
      (.b, .callWrite 1 k)] { n with b := s }) ∧ Excl s ∧ s.procs 0 = .reading ∧ s.input = [] ∧ s.sent = [] := by
    intro k
    have s1 := Step.callRead (magic := magic) End.init 0 rfl
    have s2 := Step.lockRead (magic := magic) _ 0 (set_procs End.init 0 .wantRead) rfl
    have s3 := Step.callWrite (magic := magic) _ 1 k
      (show ({ (End.init.set 0 .wantRead).set 0 .reading with holder := some 0 } : End).procs 1 = .idle by
        simp [End.set, Function.update, End.init])
    refine ⟨_, ?_, ?_, excl_step (excl_step (excl_step excl_init s1) s2) s3, ?_, rfl, rfl⟩
    · rintro ⟨a, b, x, y⟩ rfl
      exact .snoc (.snoc (.snoc (.refl _) (.a _ _ _ s1 (by simp))) (.a _ _ _ s2 (by simp))) (.a _ _ _ s3 (by simp))
    · rintro ⟨a, b, x, y⟩ rfl
      exact .snoc (.snoc (.snoc (.refl _) (.b _ _ _ s1 (by simp))) (.b _ _ _ s2 (by simp))) (.b _ _ _ s3 (by simp))
    · rw [set_procs_ne _ _ _ _ (by decide)]
      exact set_procs (End.init.set 0 .wantRead) 0 .reading
  obtain ⟨s, hs, _, xs, rs, is, ss⟩ := key m
  obtain ⟨s', _, hs', xs', rs', is', ss'⟩ := key m'
  have app : ∀ {n n' n'' : Net} {as bs}, NetRun magic n as n' → NetRun magic n' bs n'' → NetRun magic n (as ++ bs) n'' := by
    intro n n' n'' as bs h h'
    induction h' with
    | refl => simpa using h
    | snoc _ hs ih =>
      rw [← List.append_assoc]
      exact .snoc ih hs
  have hr := app (hs Net.init rfl) (hs' { Net.init with a := s } rfl)
  refine ⟨_, _, hr, by simp, by simp, ?_⟩
  intro bs n' hr' hf w v k hc
  have none : readParts [] = none := by rfl
  have := (stuck_run (t := 0) (u := 0) ⟨xs, xs', rs, rs', by rw [show _ = s.input from rfl, is]; exact none,
    by rw [show _ = s'.input from rfl, is']; exact none, by show 0 = s'.sent.length; rw [ss']; rfl,
    by show 0 = s.sent.length; rw [ss]; rfl⟩ hr' hf).2.2.1 w v k
  rcases List.mem_append.mp hc with hc | hc
  · simp at hc
  · exact this hc

/-- **C81, partial.** A goroutine that has called WriteMessage can finish, without any further input, whenever no
goroutine is inside ReadMessage waiting for more bytes than have arrived. What is missing: the case of a waiting reader,
in which it cannot (`C81_reader_blocks`). -/
theorem C81_write_completes_partial [Hashes] (magic : Bytes) (as : List Act) (s : End) (hr : Run magic End.init as s)
    (hf : ∀ u n, Act.writeFailed u n ∉ as) (t : Nat) (m : Msg) (hm : m ∈ pending (s.procs t))
    (hread : ∀ u, s.procs u = .reading → readParts s.input ≠ none) :
    ∃ bs s', Run magic s bs s' ∧ Act.wrote t m ∈ bs ∧ (∀ u n, Act.writeFailed u n ∉ bs) ∧ (∀ u, Act.readFailed u ∉ bs) ∧
      ∀ x, Act.arrive x ∉ bs := by
  obtain ⟨tail, h⟩ := wire_run hr
  have hb : s.broken = false := by
    cases hb : s.broken with
    | false => rfl
    | true =>
      obtain ⟨t, m, h1, _⟩ := h.failed hb
      exact absurd h1 (hf t m)
  exact progress (excl_run hr excl_init) hb hm hread

/-- A reader waits with a whole `verack` in its input while another goroutine wants to write. -/
example [Hashes] (magic : Bytes) (hm : magic.length = 4) : ∃ as s, Run magic End.init as s ∧
    (∀ u n, Act.writeFailed u n ∉ as) ∧ s.procs 0 = .reading ∧ Msg.ping 7 ∈ pending (s.procs 1) ∧
    ∀ u, s.procs u = .reading → readParts s.input ≠ none := by
  have s1 := run_one (Step.callRead (magic := magic) End.init 0 rfl)
  have s2 := Run.snoc s1 (Step.lockRead (magic := magic) _ 0 (set_procs End.init 0 .wantRead) rfl)
  have s3 := Run.snoc s2 (Step.callWrite (magic := magic) _ 1 (.ping 7) (by simp [End.set, Function.update, End.init]))
  have s4 := Run.snoc s3 (Step.arrive (magic := magic) _ (frame magic .verack))
  refine ⟨_, _, s4, by simp, ?_, ?_, ?_⟩
  · simp [End.set, Function.update]
  · simp [End.set, Function.update, pending]
  · intro u _
    show readParts ([] ++ frame magic .verack) ≠ none
    have := readParts_ok (partsOf magic .verack) (partsOf_ok hm (by decide)) []
    rw [List.nil_append, frame_eq, ← List.append_nil (partsOf magic Msg.verack).bytes, this]
    simp

/-! ### C94 -/

theorem open_partsOf [Hashes] (own magic : Bytes) (hm : magic.length = 4) (m : Msg) (hf : Fits m) (hs : Sendable m) :
    openFrame own (partsOf magic m).tuple = .ok (arrives m) := by
  have h1 := readMessage_frame own magic hm m hf hs []
  rw [frame_eq, readMessage_ok own _ (partsOf_ok hm hs.1)] at h1
  exact (Prod.mk.inj h1).1

/-- **C94.** Two peers, any number of goroutines on both sides, any interleaving, any division of the bytes in transit:
as long as no read has given up, the messages read at one end are the first ones written at the other, in the order in
which their writes returned, possibly with one more whose write has not returned or has failed. -/
theorem C94_delivery [Hashes] (magic : Bytes) (hm : magic.length = 4) (as : List (Who × Act)) (n : Net)
    (hr : NetRun magic Net.init as n) (hf : ∀ v, (Who.b, Act.readFailed v) ∉ as)
    (hs : ∀ t m, (Who.a, Act.callWrite t m) ∈ as → Fits m ∧ Sendable m) :
    ∃ sent : List Msg, reads (of .b as) = sent.map (fun m => .ok (arrives m)) ∧
      (sent <+: completed (of .a as) ∨ ∃ t m, (Who.a, Act.callWrite t m) ∈ as ∧ sent = completed (of .a as) ++ [m] ∧
        ((Who.a, Act.writeFailed t m) ∈ as ∨ m ∈ pending (n.a.procs t))) := by
  have ha := net_run_a hr
  have mem_of : ∀ w (x : Act), x ∈ of w as → (w, x) ∈ as := by
    intro w x hx
    obtain ⟨⟨w', y⟩, h1, h2⟩ := List.mem_filterMap.mp hx
    dsimp only at h2
    split at h2
    · rename_i hw
      cases h2
      cases hw
      exact h1
    · cases h2
  -- every message written was handed to WriteMessage
  have called : ∀ t m, m ∈ returns t (of .a as) ++ pending (n.a.procs t) → (Who.a, Act.callWrite t m) ∈ as := by
    intro t m h
    rw [← calls_run ha t] at h
    obtain ⟨x, h1, h2⟩ := List.mem_filterMap.mp h
    cases x <;> simp at h2
    obtain ⟨rfl, rfl⟩ := h2
    exact mem_of _ _ h1
  have comp : ∀ m ∈ completed (of .a as), Fits m ∧ Sendable m := by
    intro m h
    obtain ⟨x, h1, h2⟩ := List.mem_filterMap.mp h
    cases x <;> simp at h2
    rename_i t m'
    subst h2
    exact hs t m' (called t m' (List.mem_append_left _ (List.mem_filterMap.mpr ⟨_, h1, by simp⟩)))
  obtain ⟨tail, hsent, hcase⟩ := C80_always magic _ _ ha
  obtain ⟨hle, ps, hok, hrd, hin⟩ := arrived hr hf
  have hsplit : ps.flatMap Parts.bytes ++ n.b.input ++ n.a.sent.drop n.toB = n.a.sent := by
    rw [hin, List.take_append_drop]
  have fin : ∀ (ms : List Msg) (z : Bytes), (∀ m ∈ ms, Fits m ∧ Sendable m) → n.a.sent ++ z = ms.flatMap (frame magic) →
      ∃ k ≤ ms.length, reads (of .b as) = (ms.take k).map (fun m => .ok (arrives m)) := by
    intro ms z hms hz
    have hz' : ps.flatMap Parts.bytes ++ n.b.input ++ (n.a.sent.drop n.toB ++ z) = ms.flatMap (frame magic) := by
      rw [← List.append_assoc, hsplit, hz]
    obtain ⟨k, hk, hps⟩ := frames_parse hok hm (fun m h => (hms m h).2.1) hz'
    refine ⟨k, hk, ?_⟩
    rw [hrd, hps, List.map_map]
    apply List.map_congr_left
    intro m h
    have := hms m (List.mem_of_mem_take h)
    exact open_partsOf magic magic hm m this.1 this.2
  have last : ∀ t m, (Who.a, Act.callWrite t m) ∈ as → ((Who.a, Act.writeFailed t m) ∈ as ∨ m ∈ pending (n.a.procs t)) →
      tail <+: frame magic m → ∃ sent : List Msg, reads (of .b as) = sent.map (fun m => .ok (arrives m)) ∧
      (sent <+: completed (of .a as) ∨ ∃ t m, (Who.a, Act.callWrite t m) ∈ as ∧ sent = completed (of .a as) ++ [m] ∧
        ((Who.a, Act.writeFailed t m) ∈ as ∨ m ∈ pending (n.a.procs t))) := by
    rintro t m hc hp ⟨z, hz⟩
    obtain ⟨k, hk, he⟩ := fin (completed (of .a as) ++ [m]) z (by
      intro x hx
      rcases List.mem_append.mp hx with hx | hx
      · exact comp x hx
      · rw [List.mem_singleton.mp hx]; exact hs t m hc) (by
      rw [hsent, List.append_assoc, hz]
      simp)
    refine ⟨_, he, ?_⟩
    by_cases hlt : k ≤ (completed (of .a as)).length
    · left
      rw [List.take_append_of_le_length hlt]
      exact List.take_prefix _ _
    · right
      refine ⟨t, m, hc, ?_, hp⟩
      apply List.take_of_length_le
      simp at hk ⊢
      omega
  rcases hcase with rfl | ⟨t, m, rest, hp, hz⟩ | ⟨t, m, hfl, hz⟩
  · obtain ⟨k, hk, he⟩ := fin (completed (of .a as)) [] comp (by rw [hsent]; simp)
    exact ⟨_, he, .inl (List.take_prefix _ _)⟩
  · have hpend : m ∈ pending (n.a.procs t) := by rw [hp]; exact List.mem_singleton.mpr rfl
    exact last t m (called t m (List.mem_append_right _ hpend)) (.inr hpend) ⟨rest, hz⟩
  · refine last t m (called t m (List.mem_append_left _ (List.mem_filterMap.mpr ⟨_, hfl, by simp⟩))) (.inl (mem_of _ _ hfl)) hz

/-- A run in which one peer writes a `verack` and the other reads it. -/
example [Hashes] (magic : Bytes) (hm : magic.length = 4) : ∃ as n, NetRun magic Net.init as n ∧
    (∀ v, (Who.b, Act.readFailed v) ∉ as) ∧ (∀ t m, (Who.a, Act.callWrite t m) ∈ as → Fits m ∧ Sendable m) ∧
    reads (of .b as) = [.ok .verack] ∧ completed (of .a as) = [.verack] := by
  have hl : 0 < (frame magic .verack).length := by simp [frame, commandField_length]
  have hf : Fits .verack ∧ Sendable .verack := ⟨trivial, by decide, by simp⟩
  have a1 := Step.callWrite (magic := magic) End.init 0 .verack rfl
  have a2 := Step.lockWrite (magic := magic) _ 0 .verack (set_procs End.init 0 (.wantWrite .verack)) rfl
  have a3 := Step.put (magic := magic) _ 0 .verack (frame magic .verack) (frame magic .verack).length
    (show ({ (End.init.set 0 (.wantWrite .verack)).set 0 (.writing .verack (frame magic .verack)) with holder := some 0 } :
      End).procs 0 = _ from set_procs (End.init.set 0 (.wantWrite .verack)) 0 _) rfl hl le_rfl
  have n3 := NetRun.snoc (.snoc (.snoc (.refl Net.init) (.a _ _ _ a1 (by simp))) (.a _ _ _ a2 (by simp))) (.a _ _ _ a3 (by simp))
  generalize hn : Net.mk _ _ _ _ = nn at n3
  have e1 : nn.a.sent = frame magic .verack := by subst hn; simp [End.init, End.set]
  have e2 : nn.a.procs 0 = .writing .verack [] := by subst hn; simp [End.set]
  have e3 : nn.a.broken = false := by subst hn; rfl
  have e4 : nn.b = End.init := by subst hn; rfl
  have e5 : nn.toB = 0 := by subst hn; rfl
  have n4 := NetRun.snoc n3 (.a _ _ _ (Step.wrote (magic := magic) nn.a 0 .verack e2 e3) (by simp))
  have n5 := NetRun.snoc n4 (.arriveB _ (frame magic .verack).length _ hl (by show nn.toB + _ ≤ nn.a.sent.length; rw [e5, e1]; omega)
    (Step.arrive _ _))
  have n6 := NetRun.snoc n5 (.b _ _ _ (Step.callRead _ 0 (by show nn.b.procs 0 = _; rw [e4]; rfl)) (by simp))
  have n7 := NetRun.snoc n6 (.b _ _ _ (Step.lockRead _ 0 (set_procs _ 0 .wantRead) (by show nn.b.holder = _; rw [e4]; rfl)) (by simp))
  have hin : ∀ x, readParts (nn.b.input ++ ((nn.a.sent.drop nn.toB).take (frame magic .verack).length) ++ x) =
      some ((partsOf magic .verack).tuple, x) := by
    intro x
    rw [e4, e5, e1, List.drop_zero, List.take_length, frame_eq]
    exact readParts_ok _ (partsOf_ok hm (by decide)) x
  have hin := hin []
  rw [List.append_nil] at hin
  have n8 := NetRun.snoc n7 (.b _ _ _ (Step.read _ 0 _ [] (by simp [End.set]) hin) (by simp))
  refine ⟨_, _, n8, by simp, ?_, ?_, ?_⟩
  · intro t m h
    simp at h
    rw [h.2]
    exact hf
  · simp [of, reads]
    exact open_partsOf magic magic hm .verack hf.1 hf.2
  · simp [of, completed]

end Toku.Props
