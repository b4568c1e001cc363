import Verif.Model.Slices
import Verif.Proof.VM
/-
Helper lemmas for slices.
-/
namespace Toku.Slices
variable {α : Type}

theorem array_set_self {h : Heap α} {s : Slice} (hs : s.arr < h.length) (a : List α) : (h.set s.arr a).getD s.arr [] = a := by
  simp [List.getD_eq_getElem?_getD, hs]

theorem array_set_ne {h : Heap α} {i j : ℕ} (hne : i ≠ j) (a : List α) : (h.set i a).getD j [] = h.getD j [] := by
  simp [List.getD_eq_getElem?_getD, List.getElem?_set_ne hne]

theorem array_push {h : Heap α} {j : ℕ} (hj : j < h.length) (a : List α) : (h ++ [a]).getD j [] = h.getD j [] := by
  simp [List.getD_eq_getElem?_getD, List.getElem?_append_left hj]

theorem array_push_new {h : Heap α} (a : List α) : (h ++ [a]).getD h.length [] = a := by
  simp [List.getD_eq_getElem?_getD]

theorem writeAt_length {a : List α} {i : ℕ} {xs : List α} (h : i + xs.length ≤ a.length) : (writeAt a i xs).length = a.length := by
  unfold writeAt
  simp only [List.length_append, List.length_take, List.length_drop]
  omega

theorem elems_length {h : Heap α} {s : Slice} (hs : Ok h s) : (elems h s).length = s.len := by
  unfold elems
  rw [List.length_take, List.length_drop]
  have := hs.2
  omega

theorem elems_writeAt {a : List α} {off len : ℕ} {xs : List α} (h : off + len + xs.length ≤ a.length) :
    ((writeAt a (off + len) xs).drop off).take (len + xs.length) = (a.drop off).take len ++ xs := by
  unfold writeAt
  rw [List.append_assoc, List.drop_append_of_le_length (by rw [List.length_take]; omega), List.drop_take,
    show off + len - off = len by omega, ← List.append_assoc, List.take_append_of_le_length
      (by simp only [List.length_append, List.length_take, List.length_drop]; omega), List.take_of_length_le]
  simp only [List.length_append, List.length_take, List.length_drop]
  omega

theorem append_read {extra : List α} {h : Heap α} {s : Slice} (hs : Ok h s) (xs : List α) :
    elems (append extra h s xs).1 (append extra h s xs).2 = elems h s ++ xs ∧ Ok (append extra h s xs).1 (append extra h s xs).2 := by
  unfold append
  have := hs.2
  split
  · next hc =>
    unfold capacity at hc
    have e : s.off + s.len + xs.length ≤ (array h s).length := by omega
    unfold elems Ok array
    dsimp only
    rw [array_set_self hs.1]
    refine ⟨elems_writeAt e, by rw [List.length_set]; exact hs.1, ?_⟩
    unfold array at e
    rw [writeAt_length e]
    omega
  · have hl := elems_length hs
    have e : array (h ++ [elems h s ++ xs ++ extra]) ⟨h.length, 0, s.len + xs.length⟩ = elems h s ++ xs ++ extra := array_push_new _
    refine ⟨?_, by simp, ?_⟩
    · change ((array (h ++ [elems h s ++ xs ++ extra]) ⟨h.length, 0, s.len + xs.length⟩).drop 0).take (s.len + xs.length) = _
      rw [e]
      rw [List.drop_zero, List.take_append_of_le_length (by simp [hl]), List.take_of_length_le (by simp [hl])]
    · rw [e]
      simp only [List.length_append, hl]
      omega

/-- The array of the result is the old one or a new one. -/
theorem append_arr (extra : List α) (h : Heap α) (s : Slice) (xs : List α) :
    ((append extra h s xs).2.arr = s.arr ∨ (append extra h s xs).2.arr = h.length) ∧ h.length ≤ (append extra h s xs).1.length := by
  unfold append
  split
  · exact ⟨.inl rfl, by simp⟩
  · exact ⟨.inr rfl, by simp⟩

theorem append_other {extra : List α} {h : Heap α} {s t : Slice} (ht : Ok h t) (hne : s.arr ≠ t.arr) (xs : List α) :
    elems (append extra h s xs).1 t = elems h t ∧ Ok (append extra h s xs).1 t := by
  have key : array (append extra h s xs).1 t = array h t := by
    unfold append array
    split
    · exact array_set_ne hne _
    · exact array_push ht.1 _
  unfold elems Ok
  rw [key]
  exact ⟨rfl, lt_of_lt_of_le ht.1 (append_arr extra h s xs).2, ht.2⟩

theorem elems_take {h : Heap α} {s : Slice} (n : ℕ) (hn : n ≤ s.len) : elems h { s with len := n } = (elems h s).take n := by
  unfold elems array
  rw [List.take_take, min_eq_left hn]

theorem elems_drop {h : Heap α} {s : Slice} (n : ℕ) : elems h ⟨s.arr, s.off + n, s.len - n⟩ = (elems h s).drop n := by
  unfold elems array
  rw [List.drop_take, List.drop_drop]

theorem Ok.shorter {h : Heap α} {s : Slice} (hs : Ok h s) {n : ℕ} (hn : n ≤ s.len) : Ok h { s with len := n } :=
  ⟨hs.1, le_trans (by dsimp only; omega) hs.2⟩

theorem nipN_cases {extra : List α} {h : Heap α} {s : Slice} (hs : Ok h s) (idx : ℕ) :
    (s.len < idx + 1 ∧ nipN extra h s idx = .err VM.errIndex) ∨
    (idx < s.len ∧ ∃ x, (elems h s)[s.len - idx - 1]? = some x ∧
      nipN extra h s idx = .ok (x, append extra h { s with len := s.len - idx - 1 } ((elems h s).drop (s.len - idx - 1 + 1)))) := by
  unfold nipN
  split
  · next hc => exact .inl ⟨hc, rfl⟩
  · next hc =>
    have hl := elems_length hs
    refine .inr ⟨by omega, (elems h s)[s.len - idx - 1]'(by omega), List.getElem?_eq_getElem _, ?_⟩
    dsimp only
    rw [List.getElem?_eq_getElem (by omega), elems_drop]

theorem erase_reverse (l : List α) (idx : ℕ) (h : idx < l.length) :
    (l.take (l.length - idx - 1) ++ l.drop (l.length - idx - 1 + 1)).reverse = l.reverse.eraseIdx idx := by
  rw [List.eraseIdx_eq_take_drop_succ, List.reverse_append, List.take_reverse, List.drop_reverse]
  congr 2
  · congr 1; omega

theorem get_reverse (l : List α) (idx : ℕ) (h : idx < l.length) : l[l.length - idx - 1]? = l.reverse[idx]? := by
  rw [List.getElem?_reverse h]
  congr 1; omega

theorem nipN_other {extra : List α} {h h' : Heap α} {s s' t : Slice} {x : α} (hs : Ok h s) (ht : Ok h t) (hne : s.arr ≠ t.arr) {idx : ℕ}
    (e : nipN extra h s idx = .ok (x, h', s')) : elems h' t = elems h t ∧ Ok h' t ∧ Ok h' s' ∧ s'.arr ≠ t.arr := by
  rcases nipN_cases (extra := extra) hs idx with ⟨_, e'⟩ | ⟨_, y, _, e'⟩
  · rw [e'] at e; cases e
  rw [e'] at e
  have e := Prod.mk.inj (Res.ok.inj e)
  have e := Prod.mk.inj (show ((append extra h { s with len := s.len - idx - 1 } ((elems h s).drop (s.len - idx - 1 + 1))).1,
    (append extra h { s with len := s.len - idx - 1 } ((elems h s).drop (s.len - idx - 1 + 1))).2) = (h', s') from e.2)
  rw [← e.1, ← e.2]
  obtain ⟨a, b⟩ := append_other (extra := extra) ht (s := { s with len := s.len - idx - 1 }) hne ((elems h s).drop (s.len - idx - 1 + 1))
  obtain ⟨_, c⟩ := append_read (extra := extra) (hs.shorter (n := s.len - idx - 1) (by omega)) ((elems h s).drop (s.len - idx - 1 + 1))
  refine ⟨a, b, c, ?_⟩
  rcases (append_arr extra h { s with len := s.len - idx - 1 } ((elems h s).drop (s.len - idx - 1 + 1))).1 with e | e <;> rw [e]
  · exact hne
  · exact (ht.1.ne').symm ∘ Eq.symm

theorem step_other {extra : List α} {h : Heap α} {s t : Slice} (hs : Ok h s) (ht : Ok h t) (hne : s.arr ≠ t.arr) (o : Op α) :
    elems (step extra h s o).1 t = elems h t ∧ Ok (step extra h s o).1 t ∧ Ok (step extra h s o).1 (step extra h s o).2 ∧
      (step extra h s o).2.arr ≠ t.arr := by
  cases o with
  | push x =>
    obtain ⟨a, b⟩ := append_other (extra := extra) ht hne [x]
    refine ⟨a, b, (append_read hs [x]).2, ?_⟩
    rcases (append_arr extra h s [x]).1 with e | e
    · exact fun h => hne (e.symm.trans h)
    · exact fun h => ht.1.ne (h.symm.trans e)
  | nip idx =>
    unfold step
    dsimp only
    cases e : nipN extra h s idx with
    | ok r => exact nipN_other (x := r.1) (h' := r.2.1) (s' := r.2.2) hs ht hne e
    | err _ => exact ⟨rfl, ht, hs, hne⟩
    | panic => exact ⟨rfl, ht, hs, hne⟩
  | peek _ => exact ⟨rfl, ht, hs, hne⟩
  | clean => exact ⟨rfl, ht, hs.shorter (Nat.zero_le _), hne⟩

theorem run_other {os : List (List α × Op α)} : ∀ {h : Heap α} {s t : Slice}, Ok h s → Ok h t → s.arr ≠ t.arr →
    elems (run h s os).1 t = elems h t ∧ Ok (run h s os).1 t ∧ Ok (run h s os).1 (run h s os).2 ∧ (run h s os).2.arr ≠ t.arr := by
  induction os with
  | nil => intro h s t hs ht hne; exact ⟨rfl, ht, hs, hne⟩
  | cons o os ih =>
    intro h s t hs ht hne
    obtain ⟨a, b, c, d⟩ := step_other (extra := o.1) hs ht hne o.2
    obtain ⟨a', b', c', d'⟩ := ih c b d
    exact ⟨a'.trans a, b', c', d'⟩

end Toku.Slices
