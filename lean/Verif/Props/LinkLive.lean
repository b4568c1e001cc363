import Verif.Proof.LinkLive
import Verif.Props.Link
/-
Property C132, continued: from where everything sent can still be handed over.
-/
namespace Toku.Props
open Toku.Protocol Toku.Spec Toku.Stream Toku.Connection

/-- A read that gives up, Close, a frame refused, a crash, a Send that fails, or a new Send. -/
def Disturbs (a : CAct) : Prop :=
  a = .lost ∨ a = .close ∨ a = .refused ∨ a = .crash ∨ (∃ t u m, a = .other t (.writeFailed u m)) ∨ (∃ u m, a = .handler (.writeFailed u m)) ∨
    (∃ t u m, a = .other t (.callWrite u m)) ∨ ∃ u m, a = .handler (.callWrite u m)

theorem fine_iff (a : CAct) : Fine a ↔ ¬ Disturbs a := by
  unfold Fine Disturbs
  push Not
  rfl

theorem side_append (w : Who) (as bs : List (Who × CAct)) : side w (as ++ bs) = side w as ++ side w bs := List.filterMap_append
theorem side_same (w : Who) (as : List CAct) : side w (as.map fun x => (w, x)) = as := by
  simp [side, List.filterMap_map]
theorem side_other (w v : Who) (h : v ≠ w) (as : List CAct) : side w (as.map fun x => (v, x)) = [] := by
  simp [side, List.filterMap_map, h]

theorem oks_ok (ms : List Msg) : oks (ms.map Res.ok) = ms := by
  induction ms with
  | nil => rfl
  | cons m ms ih => exact congrArg (m :: ·) ih

/-- **C132, partial: it can be caught up with.** In every reachable state of two peers in which neither end is closed, no Send has failed,
the loop of the receiving side has not ended, and the loop of the sending side is not inside ReadMessage: a Send that has been called can
return, and everything sent up to then be handed over at the other end, by a run in which no deadline passes, nobody closes, nothing
fails and nobody calls Send anew. What is missing: a sender whose loop is inside ReadMessage, where this fails (`C132_negation_talk`). -/
theorem C132_catches_up_partial [Hashes] (magic : Bytes) (hm : magic.length = 4) (as : List (Who × CAct)) (l : Link)
    (hr : LRun magic Link.init as l) (hs : ∀ m, Called .a m as → Fits m ∧ Sendable m)
    (ca : l.a.closed = false) (cb : l.b.closed = false) (fa : ¬ SendFailed (side .a as)) (fb : ¬ SendFailed (side .b as))
    (xa : l.a.loop ≠ .crashed) (ra : ∀ late, l.a.loop ≠ .reading late)
    (xb : l.b.loop ≠ .crashed) (eb : l.b.loop ≠ .leaving) (db : l.b.loop ≠ .done)
    (t : Nat) (m : Msg) (hp : m ∈ pending (l.a.e.procs t)) :
    ∃ bs l', LRun magic l bs l' ∧ (∀ p ∈ bs, ¬ Disturbs p.2) ∧ Returned t m (side .a bs) ∧
      handed .b (as ++ bs) = (delivered (side .a (as ++ bs))).map arrives := by
  have hend : ¬ l.b.loop.ended := by rintro (h | h); exacts [eb h, db h]
  obtain ⟨ga, gb⟩ := good_lrun hr ⟨good_init, good_init⟩
  have ba := unbroken (side_run_a hr) fa
  have bb := unbroken (side_run_b hr) fb
  -- a sends, and its lock is free
  obtain ⟨s1, e1, w1, ret1, free1, _⟩ := well_send (magic := magic) ga xa ra ca ba hp
  have r1 := lrun_a (l := l) w1.run w1.arrive
  -- b listens
  have late : l.b.loop ≠ .reading true := by
    intro h
    have := late_run (side_run_b hr) (by simp [Link.init, Conn.init]) h
    rw [cb] at this
    cases this
  obtain ⟨s2, c2, w2, loop2⟩ := well_listens (magic := magic) gb cb bb late xb hend
  have r2 := lrun_b (l := { l with a := { l.a with e := e1 } }) w2.run w2.arrive
  -- the rest arrives
  have r12 := lrun_append r1 r2
  obtain ⟨z, l3, r3, hz, ha3, hb3, hbc3, hto⟩ : ∃ z l3, LRun magic { l with a := { l.a with e := e1 }, b := c2 } z l3 ∧
      (∀ p ∈ z, ∃ x, p = (Who.b, CAct.arrive x)) ∧ l3.a = { l.a with e := e1 } ∧ l3.b.loop = .reading false ∧ l3.b.closed = false ∧
      e1.sent.length ≤ l3.toB := by
    by_cases hlt : l.toB < e1.sent.length
    · have st := LStep.arriveB (magic := magic) { l with a := { l.a with e := e1 }, b := c2 } (e1.sent.length - l.toB) _ (by omega)
        (by show l.toB + _ ≤ e1.sent.length; omega) (.arrive c2 _ _ (by rw [loop2]; simp) (w2.closed.trans cb) (.arrive c2.e _))
      refine ⟨_, _, lrun_one st, ?_, rfl, loop2, w2.closed.trans cb, ?_⟩
      · intro p h
        exact ⟨_, List.mem_singleton.mp h⟩
      · show _ ≤ l.toB + (e1.sent.length - l.toB)
        omega
    · exact ⟨[], _, .refl _, by simp, rfl, loop2, w2.closed.trans cb, by show _ ≤ l.toB; omega⟩
  have r123 := lrun_append r12 r3
  have rall := lrun_append hr r123
  -- where that is
  have fine : ∀ p ∈ s1.map (fun x => (Who.a, x)) ++ s2.map (fun x => (Who.b, x)) ++ z, Fine p.2 := by
    intro p h
    rw [List.mem_append, List.mem_append] at h
    rcases h with (h | h) | h
    · obtain ⟨x, hx, rfl⟩ := List.mem_map.mp h
      exact w1.fine x hx
    · obtain ⟨x, hx, rfl⟩ := List.mem_map.mp h
      exact w2.fine x hx
    · obtain ⟨x, rfl⟩ := hz p h
      simp [Fine]
  have nolost : (Who.b, CAct.lost) ∉ as ++ (s1.map (fun x => (Who.a, x)) ++ s2.map (fun x => (Who.b, x)) ++ z) := by
    intro h
    rcases List.mem_append.mp h with h | h
    · obtain ⟨x, y, rfl⟩ := List.append_of_mem h
      obtain ⟨l4, _, q2⟩ := lrun_split hr
      rw [show (Who.b, CAct.lost) :: y = [(Who.b, CAct.lost)] ++ y from rfl] at q2
      obtain ⟨l5, q3, q4⟩ := lrun_split q2
      refine hend (after_lost q4 ?_).1
      generalize hzz : [(Who.b, CAct.lost)] = zs at q3
      cases q3 with
      | refl => cases hzz
      | @snoc l6 _ ys w b hr hs =>
        obtain ⟨_, hb⟩ := List.append_inj' (show [] ++ [(Who.b, CAct.lost)] = ys ++ [(w, b)] from hzz) rfl
        cases hb
        cases hs with
        | b _ c hs _ => cases hs; exact .inl rfl
    · exact (fine _ h).1 rfl
  generalize hw : s1.map (fun x => (Who.a, x)) ++ s2.map (fun x => (Who.b, x)) ++ z = zs at *
  have called : ∀ k, Called .a k (as ++ zs) → Fits k ∧ Sendable k := by
    rintro k ⟨u, h | h⟩ <;> rcases List.mem_append.mp h with h | h
    · exact hs k ⟨u, .inl h⟩
    · exact absurd rfl ((fine _ h).2.2.2.2.2.2.1 u u k)
    · exact hs k ⟨u, .inr h⟩
    · exact absurd rfl ((fine _ h).2.2.2.2.2.2.2 u k)
  have mem_side : ∀ (x : CAct) (ps : List (Who × CAct)), x ∈ side .a ps → (Who.a, x) ∈ ps := by
    intro x ps hx
    obtain ⟨⟨w, y⟩, h1, h2⟩ := List.mem_filterMap.mp hx
    dsimp only at h2
    split at h2
    · rename_i he
      cases h2
      cases he
      exact h1
    · cases h2
  have fall : ¬ SendFailed (side .a (as ++ zs)) := by
    rw [side_append]
    rintro ⟨u, k, h | h⟩ <;> rcases List.mem_append.mp h with h | h
    · exact fa ⟨u, k, .inl h⟩
    · exact absurd rfl ((fine _ (mem_side _ _ h)).2.2.2.2.1 u u k)
    · exact fa ⟨u, k, .inr h⟩
    · exact absurd rfl ((fine _ (mem_side _ _ h)).2.2.2.2.2.1 u k)
  obtain ⟨ga3, gb3⟩ := good_lrun rall ⟨good_init, good_init⟩
  have hsent : l3.a.e.sent = (delivered (side .a (as ++ zs))).flatMap (frame magic) := by
    refine C110_whole_frames magic _ _ (side_run_a rall) (fun u k rest h => ?_) fall
    refine not_writing ga3.excl ?_ u k rest h
    rw [ha3]
    exact free1
  obtain ⟨bs, hu, hnet⟩ := under_run rall
  obtain ⟨a1, _, _, a4, _⟩ := under_facts hu .a
  obtain ⟨_, b2, b3, _, _⟩ := under_facts hu .b
  obtain ⟨hle, ps, hok, hrd, hin⟩ := arrived hnet (fun v h => nolost (b3 v h))
  have htake : l3.net.a.sent.take l3.net.toB = l3.a.e.sent := by
    refine List.take_of_length_le ?_
    show l3.a.e.sent.length ≤ l3.toB
    rw [ha3]
    exact hto
  rw [htake] at hin
  change _ ++ l3.b.e.input = _ at hin
  generalize hms : delivered (side .a (as ++ zs)) = ms at *
  have good : ∀ k ∈ ms, Fits k ∧ Sendable k := by
    intro k hk
    rw [← a1] at hk
    obtain ⟨x, h1, h2⟩ := List.mem_filterMap.mp hk
    cases x <;> simp at h2
    rename_i u k'
    subst h2
    have h3 : k' ∈ calls u (of .a bs) := by
      rw [calls_run (net_run_a hnet) u]
      exact List.mem_append_left _ (List.mem_filterMap.mpr ⟨_, h1, by simp⟩)
    obtain ⟨y, h4, h5⟩ := List.mem_filterMap.mp h3
    cases y <;> simp at h5
    obtain ⟨rfl, rfl⟩ := h5
    obtain ⟨⟨w, y⟩, h6, h7⟩ := List.mem_filterMap.mp h4
    dsimp only at h7
    split at h7
    · rename_i he
      cases h7
      cases he
      exact called _ (a4 _ _ h6)
    · cases h7
  obtain ⟨k, hk, hps⟩ := frames_parse (magic := magic) (y := l3.b.e.input) (z := []) hok hm (fun k hk => (good k hk).2.1)
    (by rw [List.append_nil, hin, hsent])
  have hrest : l3.b.e.input = (ms.drop k).flatMap (frame magic) := by
    have e1 : ps.flatMap Parts.bytes = (ms.take k).flatMap (frame magic) := by
      rw [hps, List.flatMap_map]
      congr 1
      funext x
      exact (frame_eq magic x).symm
    rw [hsent, e1] at hin
    conv_rhs at hin => rw [← List.take_append_drop k ms, List.flatMap_append]
    exact List.append_cancel_left hin
  have hhand : handed .b (as ++ zs) = (ms.take k).map arrives := by
    have e : reads (of .b bs) = ((ms.take k).map arrives).map Res.ok := by
      rw [hrd, hps, List.map_map, List.map_map]
      refine List.map_congr_left fun x hx => ?_
      have hx := good x (List.mem_of_mem_take hx)
      exact open_partsOf magic magic hm x hx.1 hx.2
    rw [← b2, e]
    exact oks_ok _
  -- b takes what is there
  obtain ⟨s4, c4, r4, f4, n4, d4, e4, _⟩ := drains (magic := magic) hm (ms.drop k) (fun x hx => good x (List.mem_of_mem_drop hx)) gb3 hbc3 hb3 hrest
  have rb4 := lrun_b (l := l3) r4 n4
  refine ⟨zs ++ s4.map (fun x => (Who.b, x)), _, lrun_append r123 rb4, ?_, ?_, ?_⟩
  · intro p h
    rw [← fine_iff]
    rcases List.mem_append.mp h with h | h
    · exact fine p h
    · obtain ⟨x, hx, rfl⟩ := List.mem_map.mp h
      exact f4 x hx
  · have sub : ∀ x ∈ s1, x ∈ side .a (zs ++ s4.map (fun x => (Who.b, x))) := by
      intro x hx
      rw [← hw, side_append, side_append, side_append, side_same]
      simp [hx]
    rcases ret1 with h | ⟨h, h'⟩
    · exact .inl (sub _ h)
    · exact .inr ⟨h, sub _ h'⟩
  · rw [← List.append_assoc]
    have e1 : side .a (as ++ zs ++ s4.map (fun x => (Who.b, x))) = side .a (as ++ zs) := by
      rw [side_append, side_other _ _ (by decide), List.append_nil]
    have e2 : handed .b (as ++ zs ++ s4.map (fun x => (Who.b, x))) = handed .b (as ++ zs) ++ (ms.drop k).map arrives := by
      unfold handed
      rw [side_append, List.filterMap_append, side_same]
      exact congrArg _ d4
    rw [e1, e2, hms, hhand, ← List.map_append, List.take_append_drop]

/-- A peer that has called Send before it starts its loop, and one whose loop already waits for input: the theorem applies. -/
example [Hashes] : ∃ as l, LRun [0xf9, 0xbe, 0xb4, 0xd9] Link.init as l ∧ (∀ m, Called .a m as → Fits m ∧ Sendable m) ∧
    l.a.closed = false ∧ l.b.closed = false ∧ ¬ SendFailed (side .a as) ∧ ¬ SendFailed (side .b as) ∧ l.a.loop = .notStarted ∧
    l.b.loop = .reading false ∧ Msg.verack ∈ pending (l.a.e.procs 1) := by
  have s1 := CStep.other (magic := [0xf9, 0xbe, 0xb4, 0xd9]) Conn.init _ 1 _ (by simp [Conn.init]) (by decide) (.call .verack) (by simp)
    (Step.callWrite End.init 1 .verack rfl)
  obtain ⟨c, h1, h2, _, _, hc⟩ := listening [0xf9, 0xbe, 0xb4, 0xd9] (.ping 7)
  refine ⟨_, _, lrun_append (lrun_a (l := Link.init) (crun_one s1) (by simp)) (lrun_b (l := { Link.init with a := _ }) h1 (by simp)), ?_, rfl,
    hc, ?_, ?_, rfl, h2, ?_⟩
  · rintro m ⟨t, h | h⟩ <;> simp at h
    obtain ⟨_, rfl⟩ := h
    exact ⟨trivial, by decide, by simp⟩
  · rintro ⟨t, m, h | h⟩ <;> simp [side] at h
  · rintro ⟨t, m, h | h⟩ <;> simp [side] at h
  · show Msg.verack ∈ pending ((End.init.set 1 (.wantWrite .verack)).procs 1)
    rw [set_procs]
    exact List.mem_singleton.mpr rfl

end Toku.Props
