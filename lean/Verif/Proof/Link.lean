import Verif.Model.Link
import Verif.Proof.Connection
/-
Invariants of two connected peers.
-/
namespace Toku.Connection
open Toku.Protocol Toku.Stream Toku.Spec

variable [Hashes] {magic : Bytes}

theorem lrun_append {l l' l'' : Link} {as bs : List (Who × CAct)} (h : LRun magic l as l') (h' : LRun magic l' bs l'') :
    LRun magic l (as ++ bs) l'' := by
  induction h' with
  | refl => simpa using h
  | snoc _ hs ih =>
    rw [← List.append_assoc]
    exact .snoc ih hs

theorem lrun_one {l l' : Link} {w : Who} {a : CAct} (h : LStep magic l w a l') : LRun magic l [(w, a)] l' := .snoc (.refl l) h

theorem lrun_split {l l' : Link} {as bs : List (Who × CAct)} (hr : LRun magic l (as ++ bs) l') :
    ∃ l1, LRun magic l as l1 ∧ LRun magic l1 bs l' := by
  induction bs using List.reverseRecOn generalizing l' with
  | nil => rw [List.append_nil] at hr; exact ⟨l', hr, .refl _⟩
  | append_singleton bs a ih =>
    rw [← List.append_assoc] at hr
    generalize hx : (as ++ bs ++ [a]) = xs at hr
    cases hr with
    | refl => simp at hx
    | @snoc l2 _ ys w b hr hs =>
      obtain ⟨hy, hb⟩ := List.append_inj' hx rfl
      subst hy
      cases hb
      obtain ⟨l1, h1, h2⟩ := ih hr
      exact ⟨l1, h1, .snoc h2 hs⟩

/-- Steps of one side. -/
theorem lrun_a {l : Link} {c : Conn} {as : List CAct} (hr : CRun magic l.a as c) (ha : ∀ x, CAct.arrive x ∉ as) :
    LRun magic l (as.map fun x => (Who.a, x)) { l with a := c } := by
  obtain ⟨a, b, x, y⟩ := l
  dsimp only at hr
  induction hr with
  | refl => exact .refl _
  | snoc hr hs ih =>
    rw [List.map_append]
    exact .snoc (ih fun x h => ha x (List.mem_append_left _ h))
      (.a _ _ _ hs fun bs h => ha bs (by rw [h]; simp))

theorem lrun_b {l : Link} {c : Conn} {as : List CAct} (hr : CRun magic l.b as c) (ha : ∀ x, CAct.arrive x ∉ as) :
    LRun magic l (as.map fun x => (Who.b, x)) { l with b := c } := by
  obtain ⟨a, b, x, y⟩ := l
  dsimp only at hr
  induction hr with
  | refl => exact .refl _
  | snoc hr hs ih =>
    rw [List.map_append]
    exact .snoc (ih fun x h => ha x (List.mem_append_left _ h))
      (.b _ _ _ hs fun bs h => ha bs (by rw [h]; simp))

theorem good_lrun {l l' : Link} {as : List (Who × CAct)} (hr : LRun magic l as l') (h : Good l.a ∧ Good l.b) : Good l'.a ∧ Good l'.b := by
  induction hr with
  | refl => exact h
  | snoc _ hs ih =>
    cases hs with
    | a act c hs _ => exact ⟨good_step ih.1 hs, ih.2⟩
    | b act c hs _ => exact ⟨ih.1, good_step ih.2 hs⟩
    | arriveA k c _ _ hs => exact ⟨good_step ih.1 hs, ih.2⟩
    | arriveB k c _ _ hs => exact ⟨ih.1, good_step ih.2 hs⟩

/-- the loop has ended -/
def Loop.ended (l : Loop) : Prop := l = .leaving ∨ l = .done

omit [Hashes] in
theorem not_ended {l : Loop} (h : l.ended) : l ≠ .notStarted ∧ l ≠ .waiting ∧ (∀ b, l ≠ .reading b) ∧ ∀ m, l ≠ .handling m := by
  rcases h with rfl | rfl <;> simp

theorem ended_step {c c' : Conn} {a : CAct} (h : c.loop.ended) (hs : CStep magic c a c') :
    c'.loop.ended ∧ (∀ m, a ≠ .deliver m) ∧ a ≠ .refused ∧ a ≠ .crash := by
  obtain ⟨n1, n2, n3, n4⟩ := not_ended h
  cases hs with
  | start e hc _ => exact absurd hc n1
  | lock e hc _ => exact absurd hc n2
  | deliver e m hc _ => exact absurd hc (n3 _)
  | refused e x hc _ => exact absurd hc (n3 _)
  | crash e hc _ => exact absurd hc (n3 _)
  | lost e late hc _ => exact absurd hc (n3 _)
  | next e m hc _ => exact absurd hc (n4 m)
  | leave hc hp => exact ⟨.inr rfl, by simp, by simp, by simp⟩
  | _ => exact ⟨h, by simp, by simp, by simp⟩

/-- A connection whose loop waits and which has no whole frame: nothing happens until the loop gives up. -/
theorem stuck_conn {c c' : Conn} {a : CAct} {late : Bool} (hg : Good c) (hl : c.loop = .reading late) (hi : readParts c.e.input = none)
    (hs : CStep magic c a c') (ha : ∀ bs, a ≠ .arrive bs) :
    (a = .lost ∧ c'.loop = .leaving) ∨
      (a ≠ .lost ∧ c'.loop = .reading late ∧ c'.e.input = c.e.input ∧ c'.e.sent = c.e.sent ∧ (∀ m, a ≠ .deliver m) ∧
        delivered [a] = []) := by
  have hp : c.e.procs 0 = .reading := by have := hg.loop; rw [hl] at this; exact this
  have sends : ∀ (t : Nat) (x : Act) (e : End), Sends t x → Step magic c.e x e →
      e.input = c.e.input ∧ e.sent = c.e.sent ∧ ∀ u m, x ≠ .wrote u m := by
    intro t x e hx hs
    obtain ⟨_, _, h3, h4, _, h6⟩ := stuck_end hg.excl hp hi hs (by cases hx <;> simp) (by cases hx <;> simp)
    exact ⟨h3, h4, h6⟩
  cases hs with
  | start e hc _ => rw [hl] at hc; cases hc
  | lock e hc _ => rw [hl] at hc; cases hc
  | deliver e m hc hs =>
    generalize hz : (Res.ok m : Res Msg) = z at hs
    cases hs with | read _ p rest _ hq => rw [hi] at hq; cases hq
  | refused e x hc hs =>
    generalize hz : (Res.err x : Res Msg) = z at hs
    cases hs with | read _ p rest _ hq => rw [hi] at hq; cases hq
  | crash e hc hs =>
    generalize hz : (Res.panic : Res Msg) = z at hs
    cases hs with | read _ p rest _ hq => rw [hi] at hq; cases hq
  | lost e late hc hs => exact .inl ⟨rfl, rfl⟩
  | handler e b hc _ _ _ => rcases hc with ⟨m, hc⟩ | hc <;> rw [hl] at hc <;> cases hc
  | next e m hc _ => rw [hl] at hc; cases hc
  | leave hc hp => rw [hl] at hc; cases hc
  | other e t b hc ht hb hcl hs =>
    obtain ⟨h1, h2, h3⟩ := sends t b e hb hs
    refine .inr ⟨by simp, hl, h1, h2, by simp, ?_⟩
    cases b with
    | wrote u m => exact absurd rfl (h3 u m)
    | _ => rfl
  | arrive e bs hc hcl hs => exact absurd rfl (ha bs)
  | close hc => exact .inr ⟨by simp, hl, rfl, rfl, by simp, rfl⟩

/-- Both loops wait, and nothing is under way. -/
structure LStuck (l : Link) : Prop where
  ra : ∃ late, l.a.loop = .reading late
  rb : ∃ late, l.b.loop = .reading late
  ia : readParts l.a.e.input = none
  ib : readParts l.b.e.input = none
  ta : l.toA = l.b.e.sent.length
  tb : l.toB = l.a.e.sent.length

theorem lstuck_step {l l' : Link} {w : Who} {a : CAct} (hg : Good l.a ∧ Good l.b) (h : LStuck l) (hs : LStep magic l w a l') :
    (a = .lost ∧ ((w = .a ∧ l'.a.loop.ended) ∨ (w = .b ∧ l'.b.loop.ended))) ∨
      (a ≠ .lost ∧ LStuck l' ∧ (∀ m, a ≠ .deliver m) ∧ delivered [a] = [] ∧ l'.a.e.sent = l.a.e.sent ∧
        l'.b.e.sent = l.b.e.sent) := by
  obtain ⟨⟨la, ra⟩, ⟨lb, rb⟩, ia, ib, ta, tb⟩ := h
  cases hs with
  | a act c hs ha =>
    rcases stuck_conn hg.1 ra ia hs ha with ⟨h1, h2⟩ | ⟨h1, h2, h3, h4, h5, h6⟩
    · exact .inl ⟨h1, .inl ⟨rfl, .inl h2⟩⟩
    · exact .inr ⟨h1, ⟨⟨_, h2⟩, ⟨_, rb⟩, by rw [h3]; exact ia, ib, ta, by rw [h4]; exact tb⟩, h5, h6, h4, rfl⟩
  | b act c hs ha =>
    rcases stuck_conn hg.2 rb ib hs ha with ⟨h1, h2⟩ | ⟨h1, h2, h3, h4, h5, h6⟩
    · exact .inl ⟨h1, .inr ⟨rfl, .inl h2⟩⟩
    · exact .inr ⟨h1, ⟨⟨_, ra⟩, ⟨_, h2⟩, ia, by rw [h3]; exact ib, by rw [h4]; exact ta, tb⟩, h5, h6, rfl, h4⟩
  | arriveA k c hk hl hs => omega
  | arriveB k c hk hl hs => omega

theorem lstuck_run {l l' : Link} {as : List (Who × CAct)} (hg : Good l.a ∧ Good l.b) (h : LStuck l) (hr : LRun magic l as l') :
    (LStuck l' ∧ (∀ w m, (w, CAct.deliver m) ∉ as)) ∨ (l'.a.loop.ended ∧ ∀ m, (Who.a, CAct.deliver m) ∉ as) ∨
      (l'.b.loop.ended ∧ ∀ m, (Who.b, CAct.deliver m) ∉ as) := by
  induction hr with
  | refl => exact .inl ⟨h, by simp⟩
  | @snoc l1 l2 as w a hr hs ih =>
    have not : ∀ v x, (∀ m, (v, CAct.deliver m) ∉ as) → (v = w → ∀ m, x ≠ CAct.deliver m) → x = a → ∀ m, (v, CAct.deliver m) ∉ as ++ [(w, a)] := by
      rintro v x h1 h2 rfl m hm
      rcases List.mem_append.mp hm with hm | hm
      · exact h1 m hm
      · have := List.mem_singleton.mp hm
        cases this
        exact h2 rfl m rfl
    rcases ih with ⟨h1, h2⟩ | ⟨h1, h2⟩ | ⟨h1, h2⟩
    · rcases lstuck_step (good_lrun hr hg) h1 hs with ⟨rfl, ⟨rfl, h3⟩ | ⟨rfl, h3⟩⟩ | ⟨_, h4, h5, _⟩
      · exact .inr (.inl ⟨h3, not _ _ (h2 _) (fun _ => by simp) rfl⟩)
      · exact .inr (.inr ⟨h3, not _ _ (h2 _) (fun _ => by simp) rfl⟩)
      · exact .inl ⟨h4, fun v => not v a (h2 v) (fun _ => h5) rfl⟩
    · refine .inr (.inl ?_)
      cases hs with
      | a act c hs _ => exact ⟨(ended_step h1 hs).1, not _ _ h2 (fun _ => (ended_step h1 hs).2.1) rfl⟩
      | b act c hs _ => exact ⟨h1, not _ _ h2 (fun hw => by cases hw) rfl⟩
      | arriveA k c _ _ hs => exact ⟨(ended_step h1 hs).1, not _ _ h2 (fun _ => by simp) rfl⟩
      | arriveB k c _ _ hs => exact ⟨h1, not _ _ h2 (fun hw => by cases hw) rfl⟩
    · refine .inr (.inr ?_)
      cases hs with
      | b act c hs _ => exact ⟨(ended_step h1 hs).1, not _ _ h2 (fun _ => (ended_step h1 hs).2.1) rfl⟩
      | a act c hs _ => exact ⟨h1, not _ _ h2 (fun hw => by cases hw) rfl⟩
      | arriveB k c _ _ hs => exact ⟨(ended_step h1 hs).1, not _ _ h2 (fun _ => by simp) rfl⟩
      | arriveA k c _ _ hs => exact ⟨h1, not _ _ h2 (fun hw => by cases hw) rfl⟩

theorem lstuck_silent {l l' : Link} {as : List (Who × CAct)} (hg : Good l.a ∧ Good l.b) (h : LStuck l) (hr : LRun magic l as l')
    (hn : ∀ w, (w, CAct.lost) ∉ as) :
    LStuck l' ∧ (∀ p ∈ as, delivered [p.2] = []) ∧ l'.a.e.sent = l.a.e.sent ∧ l'.b.e.sent = l.b.e.sent := by
  induction hr with
  | refl => exact ⟨h, by simp, rfl, rfl⟩
  | @snoc l1 l2 as w a hr hs ih =>
    obtain ⟨h1, h2, h3, h4⟩ := ih fun v hv => hn v (List.mem_append_left _ hv)
    rcases lstuck_step (good_lrun hr hg) h1 hs with ⟨rfl, _⟩ | ⟨_, h5, _, h6, h7, h8⟩
    · exact absurd (by simp) (hn w)
    · refine ⟨h5, fun p hp => ?_, h7.trans h3, h8.trans h4⟩
      rcases List.mem_append.mp hp with hp | hp
      · exact h2 p hp
      · rw [List.mem_singleton.mp hp]
        exact h6

/-! ### The streams below -/

theorem net_append {n n' n'' : Net} {as bs : List (Who × Act)} (h : NetRun magic n as n') (h' : NetRun magic n' bs n'') :
    NetRun magic n (as ++ bs) n'' := by
  induction h' with
  | refl => simpa using h
  | snoc _ hs ih =>
    rw [← List.append_assoc]
    exact .snoc ih hs

/-- the two ends of a link -/
def Link.net (l : Link) : Net := ⟨l.a.e, l.b.e, l.toA, l.toB⟩

/-- what happens at the two streams -/
inductive Under : List (Who × CAct) → List (Who × Act) → Prop where
  | nil : Under [] []
  | snoc {as : List (Who × CAct)} {bs : List (Who × Act)} {w : Who} {a : CAct} {b : List Act} : Under as bs → below a b →
      Under (as ++ [(w, a)]) (bs ++ b.map fun x => (w, x))

/-- the actions of one step of one side, not an arrival -/
theorem below_act {c c' : Conn} {a : CAct} (hs : CStep magic c a c') :
    ∃ as, below a as ∧ ((as = [] ∧ c'.e = c.e) ∨ ∃ x, as = [x] ∧ Step magic c.e x c'.e) := by
  cases hs with
  | start e hc hs => exact ⟨_, rfl, .inr ⟨_, rfl, hs⟩⟩
  | lock e hc hs => exact ⟨_, rfl, .inr ⟨_, rfl, hs⟩⟩
  | deliver e m hc hs => exact ⟨_, rfl, .inr ⟨_, rfl, hs⟩⟩
  | refused e x hc hs => exact ⟨_, ⟨x, rfl⟩, .inr ⟨_, rfl, hs⟩⟩
  | crash e hc hs => exact ⟨_, rfl, .inr ⟨_, rfl, hs⟩⟩
  | lost e late hc hs => exact ⟨_, rfl, .inr ⟨_, rfl, hs⟩⟩
  | handler e b hc ha hcl hs => exact ⟨_, ⟨rfl, ha⟩, .inr ⟨_, rfl, hs⟩⟩
  | next e m hc hs => exact ⟨_, rfl, .inr ⟨_, rfl, hs⟩⟩
  | leave hc hp => exact ⟨_, rfl, .inl ⟨rfl, rfl⟩⟩
  | other e t b hc ht ha hcl hs => exact ⟨_, ⟨rfl, ha⟩, .inr ⟨_, rfl, hs⟩⟩
  | arrive e bs hc hcl hs => exact ⟨_, rfl, .inr ⟨_, rfl, hs⟩⟩
  | close hc => exact ⟨_, rfl, .inl ⟨rfl, rfl⟩⟩

omit [Hashes] in
theorem below_arrive {a : CAct} {bs : Bytes} {as : List Act} (h : below a as) (hm : Act.arrive bs ∈ as) : a = .arrive bs := by
  cases a with
  | start => cases h; simp at hm
  | lock => cases h; simp at hm
  | deliver m => cases h; simp at hm
  | refused => obtain ⟨x, rfl⟩ := h; simp at hm
  | lost => cases h; simp at hm
  | crash => cases h; simp at hm
  | next => cases h; simp at hm
  | leave => cases h; simp at hm
  | arrive x => cases h; simp at hm; rw [hm]
  | close => cases h; simp at hm
  | handler x => obtain ⟨rfl, hx⟩ := h; rw [List.mem_singleton] at hm; subst hm; cases hx
  | other u x => obtain ⟨rfl, hx⟩ := h; rw [List.mem_singleton] at hm; subst hm; cases hx

theorem under_run {l l' : Link} {as : List (Who × CAct)} (hr : LRun magic l as l') :
    ∃ bs, Under as bs ∧ NetRun magic l.net bs l'.net := by
  induction hr with
  | refl => exact ⟨[], .nil, .refl _⟩
  | @snoc l1 l2 as w a hr hs ih =>
    obtain ⟨bs, h1, h2⟩ := ih
    cases hs with
    | a _ c hs ha =>
      obtain ⟨b, hb, ⟨rfl, he⟩ | ⟨x, rfl, hx⟩⟩ := below_act hs
      · refine ⟨_, .snoc h1 hb, ?_⟩
        rw [List.map_nil, List.append_nil]
        unfold Link.net at h2 ⊢
        dsimp only
        rw [he]
        exact h2
      · exact ⟨_, .snoc h1 hb, .snoc h2 (.a l1.net x c.e hx fun y hy => ha y (below_arrive hb (by rw [hy]; simp)))⟩
    | b _ c hs ha =>
      obtain ⟨b, hb, ⟨rfl, he⟩ | ⟨x, rfl, hx⟩⟩ := below_act hs
      · refine ⟨_, .snoc h1 hb, ?_⟩
        rw [List.map_nil, List.append_nil]
        unfold Link.net at h2 ⊢
        dsimp only
        rw [he]
        exact h2
      · exact ⟨_, .snoc h1 hb, .snoc h2 (.b l1.net x c.e hx fun y hy => ha y (below_arrive hb (by rw [hy]; simp)))⟩
    | arriveA k c hk hl hs =>
      cases hs with
      | arrive e _ hc hcl hs => exact ⟨_, .snoc h1 rfl, .snoc h2 (.arriveA l1.net k e hk hl hs)⟩
    | arriveB k c hk hl hs =>
      cases hs with
      | arrive e _ hc hcl hs => exact ⟨_, .snoc h1 rfl, .snoc h2 (.arriveB l1.net k e hk hl hs)⟩

end Toku.Connection
