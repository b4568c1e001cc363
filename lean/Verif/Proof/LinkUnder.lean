import Verif.Proof.Link
import Verif.Spec.Link
/-
What the runs of two connections and of the streams below have in common.
-/
namespace Toku.Connection
open Toku.Protocol Toku.Stream Toku.Spec

/-- the messages among results -/
def oks (xs : List (Res Msg)) : List Msg := xs.filterMap fun | .ok m => some m | _ => none

/-- one action of a connection and those of its stream -/
theorem below_one {a : CAct} {b : List Act} (h : below a b) :
    completed b = delivered [a] ∧ oks (reads b) = [a].filterMap (fun | .deliver m => some m | _ => none) ∧
    (∀ v, Act.readFailed v ∈ b → a = .lost) ∧
    (∀ t m, Act.callWrite t m ∈ b → a = .other t (.callWrite t m) ∨ a = .handler (.callWrite t m)) ∧
    (a = .refused ∨ a = .crash → ∃ r ∈ reads b, ∀ m, r ≠ .ok m) := by
  cases a with
  | start => cases h; exact ⟨rfl, rfl, by simp, by simp, by simp⟩
  | lock => cases h; exact ⟨rfl, rfl, by simp, by simp, by simp⟩
  | deliver m => cases h; exact ⟨rfl, rfl, by simp, by simp, by simp⟩
  | refused => obtain ⟨x, rfl⟩ := h; exact ⟨rfl, rfl, by simp, by simp, fun _ => ⟨.err x, List.mem_singleton.mpr rfl, by simp⟩⟩
  | lost => cases h; exact ⟨rfl, rfl, by simp, by simp, by simp⟩
  | crash => cases h; exact ⟨rfl, rfl, by simp, by simp, fun _ => ⟨.panic, List.mem_singleton.mpr rfl, by simp⟩⟩
  | next => cases h; exact ⟨rfl, rfl, by simp, by simp, by simp⟩
  | leave => cases h; exact ⟨rfl, rfl, by simp, by simp, by simp⟩
  | arrive x => cases h; exact ⟨rfl, rfl, by simp, by simp, by simp⟩
  | close => cases h; exact ⟨rfl, rfl, by simp, by simp, by simp⟩
  | handler x => obtain ⟨rfl, hx⟩ := h; cases hx <;> exact ⟨rfl, rfl, by simp, by simp, by simp⟩
  | other u x =>
    obtain ⟨rfl, hx⟩ := h
    cases hx with
    | call m =>
      refine ⟨rfl, rfl, by simp, fun t m h => ?_, by simp⟩
      simp at h
      obtain ⟨rfl, rfl⟩ := h
      exact .inl rfl
    | _ => exact ⟨rfl, rfl, by simp, by simp, by simp⟩

theorem of_map (w v : Who) (b : List Act) : of w (b.map fun x => (v, x)) = if v = w then b else [] := by
  by_cases h : v = w
  · simp [of, h, List.filterMap_map]
  · simp [of, h, List.filterMap_map]

theorem side_snoc (w v : Who) (as : List (Who × CAct)) (a : CAct) :
    side w (as ++ [(v, a)]) = side w as ++ if v = w then [a] else [] := by
  unfold side
  rw [List.filterMap_append]
  by_cases h : v = w <;> simp [h]

theorem under_facts {as : List (Who × CAct)} {bs : List (Who × Act)} (h : Under as bs) (w : Who) :
    completed (of w bs) = delivered (side w as) ∧ oks (reads (of w bs)) = handed w as ∧
    (∀ v, (w, Act.readFailed v) ∈ bs → (w, CAct.lost) ∈ as) ∧
    (∀ t m, (w, Act.callWrite t m) ∈ bs → Called w m as) ∧
    ((w, CAct.refused) ∈ as ∨ (w, CAct.crash) ∈ as → ∃ r ∈ reads (of w bs), ∀ m, r ≠ .ok m) := by
  induction h with
  | nil => exact ⟨rfl, rfl, by simp, by simp, by simp⟩
  | @snoc as bs v a b hu hb ih =>
    obtain ⟨h1, h2, h3, h4, h5⟩ := ih
    obtain ⟨k1, k2, k3, k4, k5⟩ := below_one hb
    have mono : ∀ m, Called w m as → Called w m (as ++ [(v, a)]) := by
      rintro m ⟨t, h | h⟩
      · exact ⟨t, .inl (List.mem_append_left _ h)⟩
      · exact ⟨t, .inr (List.mem_append_left _ h)⟩
    have app : ∀ x y : List Act, reads (x ++ y) = reads x ++ reads y := fun x y => List.filterMap_append
    have appo : ∀ x y, oks (x ++ y) = oks x ++ oks y := fun x y => List.filterMap_append
    have appd : ∀ x y, delivered (x ++ y) = delivered x ++ delivered y := fun x y => List.filterMap_append
    have appc : ∀ x y : List Act, completed (x ++ y) = completed x ++ completed y := fun x y => List.filterMap_append
    have appf : of w (bs ++ b.map fun x => (v, x)) = of w bs ++ of w (b.map fun x => (v, x)) := List.filterMap_append
    rw [appf, of_map]
    refine ⟨?_, ?_, ?_, ?_, ?_⟩
    · rw [side_snoc, appc, appd, h1]
      split
      · rw [k1]
      · rfl
    · unfold handed
      rw [side_snoc, app, appo, List.filterMap_append, h2]
      split
      · rw [k2]; rfl
      · rfl
    · intro u hm
      rcases List.mem_append.mp hm with hm | hm
      · exact List.mem_append_left _ (h3 u hm)
      · obtain ⟨x, hx, he⟩ := List.mem_map.mp hm
        cases he
        rw [k3 u hx]
        simp
    · intro t m hm
      rcases List.mem_append.mp hm with hm | hm
      · exact mono m (h4 t m hm)
      · obtain ⟨x, hx, he⟩ := List.mem_map.mp hm
        cases he
        rcases k4 t m hx with rfl | rfl
        · exact ⟨t, .inl (by simp)⟩
        · exact ⟨t, .inr (by simp)⟩
    · intro hm
      rw [app]
      have hm' : ((w, CAct.refused) ∈ as ∨ (w, CAct.crash) ∈ as) ∨ (v = w ∧ (a = .refused ∨ a = .crash)) := by
        rcases hm with hm | hm <;> rcases List.mem_append.mp hm with hm | hm
        · exact .inl (.inl hm)
        · have := List.mem_singleton.mp hm
          cases this
          exact .inr ⟨rfl, .inl rfl⟩
        · exact .inl (.inr hm)
        · have := List.mem_singleton.mp hm
          cases this
          exact .inr ⟨rfl, .inr rfl⟩
      rcases hm' with hm' | ⟨rfl, hm'⟩
      · obtain ⟨r, hr, hn⟩ := h5 hm'
        exact ⟨r, List.mem_append_left _ hr, hn⟩
      · obtain ⟨r, hr, hn⟩ := k5 hm'
        rw [if_pos rfl]
        exact ⟨r, List.mem_append_right _ hr, hn⟩

variable [Hashes] {magic : Bytes}

/-- After the loop of one side has given up, its receive handler is not called any more. -/
theorem after_lost {l l' : Link} {as : List (Who × CAct)} (hr : LRun magic l as l') (h : l.b.loop.ended) :
    l'.b.loop.ended ∧ handed .b as = [] ∧ (Who.b, CAct.refused) ∉ as ∧ (Who.b, CAct.crash) ∉ as := by
  induction hr with
  | refl => exact ⟨h, rfl, by simp, by simp⟩
  | @snoc l1 l2 as w a hr hs ih =>
    obtain ⟨h1, h2, h3, h4⟩ := ih
    have key : l2.b.loop.ended ∧ (w = .b → (∀ m, a ≠ .deliver m) ∧ a ≠ .refused ∧ a ≠ .crash) := by
      cases hs with
      | a act c hs _ => exact ⟨h1, fun hw => by cases hw⟩
      | b act c hs _ => exact ⟨(ended_step h1 hs).1, fun _ => (ended_step h1 hs).2⟩
      | arriveA k c _ _ hs => exact ⟨h1, fun hw => by cases hw⟩
      | arriveB k c _ _ hs => exact ⟨(ended_step h1 hs).1, fun _ => (ended_step h1 hs).2⟩
    refine ⟨key.1, ?_, ?_, ?_⟩
    · unfold handed at h2 ⊢
      rw [side_snoc, List.filterMap_append, h2, List.nil_append]
      split
      · rename_i hw
        cases a with
        | deliver m => exact absurd rfl ((key.2 hw).1 m)
        | _ => rfl
      · rfl
    · intro hm
      rcases List.mem_append.mp hm with hm | hm
      · exact h3 hm
      · have := List.mem_singleton.mp hm
        cases this
        exact (key.2 rfl).2.1 rfl
    · intro hm
      rcases List.mem_append.mp hm with hm | hm
      · exact h4 hm
      · have := List.mem_singleton.mp hm
        cases this
        exact (key.2 rfl).2.2 rfl

/-! ### The other way round -/

/-- the other one -/
def flip : Who → Who
  | .a => .b
  | .b => .a

def Link.swap (l : Link) : Link := ⟨l.b, l.a, l.toB, l.toA⟩

def swapped (as : List (Who × CAct)) : List (Who × CAct) := as.map fun p => (flip p.1, p.2)

theorem swap_run {l l' : Link} {as : List (Who × CAct)} (hr : LRun magic l as l') : LRun magic l.swap (swapped as) l'.swap := by
  induction hr with
  | refl => exact .refl _
  | snoc _ hs ih =>
    unfold swapped
    rw [List.map_append]
    cases hs with
    | a act c hs ha => exact .snoc ih (.b _ _ _ hs ha)
    | b act c hs ha => exact .snoc ih (.a _ _ _ hs ha)
    | arriveA k c h1 h2 hs => exact .snoc ih (.arriveB (Link.swap _) k c h1 h2 hs)
    | arriveB k c h1 h2 hs => exact .snoc ih (.arriveA (Link.swap _) k c h1 h2 hs)

omit [Hashes] in
theorem flip_flip (w : Who) : flip (flip w) = w := by cases w <;> rfl

omit [Hashes] in
theorem flip_eq (w v : Who) : flip w = v ↔ w = flip v := by
  constructor
  · rintro rfl; rw [flip_flip]
  · rintro rfl; rw [flip_flip]

omit [Hashes] in
theorem swapped_swapped (as : List (Who × CAct)) : swapped (swapped as) = as := by
  unfold swapped
  rw [List.map_map]
  conv_rhs => rw [← List.map_id as]
  refine List.map_congr_left fun p _ => ?_
  show (flip (flip p.1), p.2) = p
  rw [flip_flip]

omit [Hashes] in
theorem mem_swapped (w : Who) (a : CAct) (as : List (Who × CAct)) : (w, a) ∈ swapped as ↔ (flip w, a) ∈ as := by
  unfold swapped
  rw [List.mem_map]
  constructor
  · rintro ⟨⟨v, b⟩, h1, h2⟩
    cases h2
    rw [flip_flip]
    exact h1
  · intro h
    exact ⟨_, h, by rw [flip_flip]⟩

omit [Hashes] in
theorem side_swapped (w : Who) (as : List (Who × CAct)) : side w (swapped as) = side (flip w) as := by
  unfold side swapped
  rw [List.filterMap_map]
  congr 1
  funext p
  show (if flip p.1 = w then some p.2 else none) = _
  rw [ite_congr (propext (flip_eq p.1 w)) (fun _ => rfl) (fun _ => rfl)]

end Toku.Connection
