import Verif.Proof.Slices
import Verif.Props.VM
/-
Properties C102 and C103: memory shared between slices, in the engine and in its stacks.
-/
namespace Toku.Props
open Toku Toku.Slices

variable {α : Type}

/-! ### C102 -/

/-- **C102.** However unlocking and locking script overlap in memory, and whatever spare capacity they have: Verify gives the
verdict for the bytes the two slices hold when it is called. -/
theorem C102_verdict (env : VM.Env) (extra : Bytes) (h : Heap UInt8) (u l : Slice) (hu : Ok h u) (vm : VM.State) :
    (Slices.verify env extra h u l vm).1 = VM.verify env (elems h u) (elems h l) vm := by
  unfold Slices.verify VM.verify
  cases VM.execute env (elems h u) false vm with
  | ok vm1 =>
    dsimp only
    rw [(append_read hu _).1]
    rfl
  | err e => rfl
  | panic => rfl

private theorem writeAt_get {a xs : List α} {i j : ℕ} (hi : i + xs.length ≤ a.length) (hj : j < i ∨ i + xs.length ≤ j) :
    (writeAt a i xs)[j]? = a[j]? := by
  unfold writeAt
  rcases hj with hj | hj
  · rw [List.append_assoc, List.getElem?_append_left (by rw [List.length_take]; omega), List.getElem?_take_of_lt hj]
  · rw [List.getElem?_append_right (by rw [List.length_append, List.length_take]; omega), List.getElem?_drop]
    congr 1
    rw [List.length_append, List.length_take]
    omega

/-- **C102.** What Verify may write: the cells behind the unlocking script, as many as the locking script has bytes, and these
only if they all are within the capacity of the unlocking script. Every other cell that existed before keeps its byte. -/
theorem C102_writes (env : VM.Env) (extra : Bytes) (h : Heap UInt8) (u l : Slice) (hu : Ok h u) (hl : Ok h l) (vm : VM.State)
    (i j : ℕ) (hi : i < h.length)
    (hout : ¬ (i = u.arr ∧ u.off + u.len ≤ j ∧ j < u.off + u.len + l.len ∧ u.len + l.len ≤ capacity h u)) :
    ((Slices.verify env extra h u l vm).2.getD i [])[j]? = (h.getD i [])[j]? := by
  have key : ((append extra h u (elems h l)).1.getD i [])[j]? = (h.getD i [])[j]? := by
    have hlen := elems_length hl
    unfold append
    split
    · next hc =>
      dsimp only
      by_cases hiu : u.arr = i
      · subst hiu
        rw [array_set_self hu.1]
        unfold capacity at hc hout
        rw [hlen] at hc
        have := hu.2
        refine writeAt_get (by rw [hlen]; omega) ?_
        rw [hlen]
        by_contra hn
        exact hout ⟨rfl, by omega, by omega, hc⟩
      · rw [array_set_ne hiu]
    · rw [array_push hi]
  unfold Slices.verify
  cases VM.execute env (elems h u) false vm with
  | ok vm1 => exact key
  | err e => rfl
  | panic => rfl

private theorem elems_congr {h h' : Heap α} {t : Slice} (e : ∀ j, t.off ≤ j → j < t.off + t.len →
    (h'.getD t.arr [])[j]? = (h.getD t.arr [])[j]?) : elems h' t = elems h t := by
  unfold elems array
  apply List.ext_getElem?
  intro k
  by_cases hk : k < t.len
  · rw [List.getElem?_take_of_lt hk, List.getElem?_take_of_lt hk, List.getElem?_drop, List.getElem?_drop]
    exact e _ (by omega) (by omega)
  · rw [List.getElem?_take_eq_none (by omega), List.getElem?_take_eq_none (by omega)]

/-- **C102.** The unlocking script itself, and every slice that does not reach into those cells, hold the same bytes after
Verify. -/
theorem C102_unchanged (env : VM.Env) (extra : Bytes) (h : Heap UInt8) (u l t : Slice) (hu : Ok h u) (hl : Ok h l) (ht : Ok h t)
    (vm : VM.State)
    (hd : t.arr ≠ u.arr ∨ t.off + t.len ≤ u.off + u.len ∨ u.off + u.len + l.len ≤ t.off ∨ capacity h u < u.len + l.len) :
    elems (Slices.verify env extra h u l vm).2 t = elems h t := by
  apply elems_congr
  intro j h1 h2
  exact C102_writes env extra h u l hu hl vm t.arr j ht.1 (by omega)

/-- **C102 (partial:** the locking script is not in the cells behind the unlocking script, or there is no room for it there). A second call
with the same slices gives the same verdict. -/
theorem C102_again_partial (env : VM.Env) (extra extra' : Bytes) (h : Heap UInt8) (u l : Slice) (hu : Ok h u) (hl : Ok h l)
    (vm vm' : VM.State)
    (hd : l.arr ≠ u.arr ∨ l.off + l.len ≤ u.off + u.len ∨ u.off + u.len + l.len ≤ l.off ∨ capacity h u < u.len + l.len) :
    (Slices.verify env extra' (Slices.verify env extra h u l vm).2 u l vm').1 = VM.verify env (elems h u) (elems h l) vm' := by
  have hu' : Ok (Slices.verify env extra h u l vm).2 u := by
    unfold Slices.verify
    cases VM.execute env (elems h u) false vm with
    | ok vm1 =>
      dsimp only
      have := (append_arr extra h u (elems h l)).2
      refine ⟨lt_of_lt_of_le hu.1 this, ?_⟩
      unfold append
      split
      · next hc =>
        unfold array
        rw [array_set_self hu.1, writeAt_length]
        · exact hu.2
        · have := hu.2
          unfold capacity at hc
          unfold array at *
          omega
      · unfold array
        rw [array_push hu.1]
        exact hu.2
    | err e => exact hu
    | panic => exact hu
  rw [C102_verdict env extra' _ u l hu' vm', C102_unchanged env extra h u l u hu hl hu vm (.inr (.inl (le_refl _))),
    C102_unchanged env extra h u l l hu hl hl vm hd]

/-- **C102, negation.** Verify may change its arguments. In the array 51 00 51 87 the unlocking script is the first byte, `1`, and
the locking script the last two, `1 EQUAL`: the first call accepts, and the second call with the same slices does not,
because the locking script was moved over itself by one byte. -/
theorem C102_negation :
    let h : Heap UInt8 := [[0x51, 0x00, 0x51, 0x87]]
    let u : Slice := ⟨0, 0, 1⟩
    let l : Slice := ⟨0, 2, 2⟩
    (Slices.verify toyEnv [] h u l VM.fresh).1 = .ok VM.fresh ∧
    elems (Slices.verify toyEnv [] h u l VM.fresh).2 l = [0x87, 0x87] ∧
    (Slices.verify toyEnv [] (Slices.verify toyEnv [] h u l VM.fresh).2 u l VM.fresh).1 ≠ .ok VM.fresh := by decide +kernel

example : Ok [[(0x51 : UInt8), 0x00, 0x51, 0x87]] ⟨0, 0, 1⟩ ∧ Ok [[(0x51 : UInt8), 0x00, 0x51, 0x87]] ⟨0, 2, 2⟩ := by
  unfold Ok; decide

/-- The bytes of another slice, here the rest of the same buffer, are overwritten. -/
example : (Slices.verify toyEnv [] [[0x51, 0xaa, 0xbb], [0x51, 0x87]] ⟨0, 0, 1⟩ ⟨1, 0, 2⟩ VM.fresh) =
    (.ok VM.fresh, [[0x51, 0x51, 0x87], [0x51, 0x87]]) := by decide +kernel

/-! ### C103 -/

/-- **C103.** The slice operations of the stack are those of a list with the top first: pushing, taking the element at an index from
the top, looking at one, emptying, and making a copy. -/
theorem C103_refines (h : Heap Bytes) (s : Slice) (hs : Ok h s) (e : List Bytes) :
    (∀ x, (elems (push e h s x).1 (push e h s x).2).reverse = x :: (elems h s).reverse) ∧
    (∀ idx, match VM.nipN (elems h s).reverse idx with
      | .ok (x, st) => ∃ h' s', nipN e h s idx = .ok (x, h', s') ∧ (elems h' s').reverse = st ∧ Ok h' s'
      | .err er => nipN e h s idx = .err er
      | .panic => False) ∧
    (∀ idx, peek h s idx = VM.peek (elems h s).reverse idx) ∧
    elems h (clean s) = [] ∧
    elems (copy e h s).1 (copy e h s).2 = elems h s ∧
    elems (newStack h).1 (newStack h).2 = [] := by
  have hl := elems_length hs
  refine ⟨?_, ?_, ?_, ?_, ?_, ?_⟩
  · intro x
    unfold push
    rw [(append_read hs _).1]
    simp
  · intro idx
    unfold VM.nipN
    rcases nipN_cases (extra := e) hs idx with ⟨hi, en⟩ | ⟨hi, x, hx, en⟩
    · rw [List.getElem?_eq_none (by simp; omega)]
      exact en
    · have hx' := hx
      rw [← hl, get_reverse _ _ (by omega)] at hx'
      rw [hx']
      obtain ⟨a, b⟩ := append_read (extra := e) (hs.shorter (n := s.len - idx - 1) (by omega)) ((elems h s).drop (s.len - idx - 1 + 1))
      refine ⟨(append e h { s with len := s.len - idx - 1 } ((elems h s).drop (s.len - idx - 1 + 1))).1,
        (append e h { s with len := s.len - idx - 1 } ((elems h s).drop (s.len - idx - 1 + 1))).2, en, ?_, b⟩
      rw [a, elems_take _ (by omega), ← erase_reverse _ _ (by omega), hl]
  · intro idx
    unfold peek VM.peek
    split
    · rw [List.getElem?_eq_none (by simp; omega)]
    · rw [← hl, get_reverse _ _ (by omega), List.getElem?_eq_getElem (by simp; omega)]
      rfl
  · unfold elems clean
    simp
  · unfold copy
    dsimp only
    have ok : Ok (newStack h).1 (newStack h).2 := ⟨by simp [newStack], by simp [newStack]⟩
    have e0 : elems (newStack h).1 (newStack h).2 = [] := by simp [elems, newStack]
    have e1 : elems (newStack h).1 s = elems h s := by
      unfold elems newStack array
      rw [array_push hs.1]
    rw [(append_read ok _).1, e0, e1, List.nil_append]
  · simp [elems, newStack]

/-- What the copy and the original are after Copy: slices of different arrays. -/
private theorem copy_apart {e : List α} {h : Heap α} {s : Slice} (hs : Ok h s) :
    Ok (copy e h s).1 s ∧ Ok (copy e h s).1 (copy e h s).2 ∧ s.arr ≠ (copy e h s).2.arr ∧
    elems (copy e h s).1 s = elems h s ∧ elems (copy e h s).1 (copy e h s).2 = elems h s := by
  have ok : Ok (newStack h).1 (newStack h).2 := ⟨by simp [newStack], by simp [newStack]⟩
  have e0 : elems (newStack h).1 (newStack h).2 = [] := by simp [elems, newStack]
  have e1 : elems (newStack h).1 s = elems h s := by
    unfold elems newStack array
    rw [array_push hs.1]
  have ok1 : Ok (newStack h).1 s := by
    unfold Ok newStack array
    rw [array_push hs.1]
    exact ⟨by simp; have := hs.1; omega, hs.2⟩
  have hne : (newStack h).2.arr ≠ s.arr := by
    have := hs.1
    unfold newStack
    dsimp only
    omega
  unfold copy
  dsimp only
  obtain ⟨a, b⟩ := append_other (extra := e) ok1 hne (elems (newStack h).1 s)
  obtain ⟨c, d⟩ := append_read (extra := e) ok (elems (newStack h).1 s)
  refine ⟨b, d, ?_, a.trans e1, by rw [c, e0, e1, List.nil_append]⟩
  rcases (append_arr e (newStack h).1 (newStack h).2 (elems (newStack h).1 s)).1 with e | e <;> rw [e]
  · exact hne.symm
  · have := ok1.1
    omega

/-- **C103.** A copy of a stack and the stack are independent: whatever is done to the stack afterwards, the copy keeps what it
had; and whatever is done to the copy, the stack keeps what it had. So the stack that Verify saves after the unlocking script is
still there when the redeem script is taken from it. -/
theorem C103_independent (e : List α) (h : Heap α) (s : Slice) (hs : Ok h s) (os : List (List α × Op α)) :
    elems (run (copy e h s).1 s os).1 (copy e h s).2 = elems h s ∧
    elems (run (copy e h s).1 (copy e h s).2 os).1 s = elems h s := by
  obtain ⟨a, b, c, d, f⟩ := copy_apart (e := e) hs
  exact ⟨(run_other a b c).1.trans f, (run_other b a c.symm).1.trans d⟩

/-- The stack [aa, bb] is copied, emptied, and used for other items: the copy stays. -/
example :
    let h : Heap Bytes := [[[0xaa], [0xbb], [0xcc]]]
    let s : Slice := ⟨0, 0, 2⟩
    let r := run (copy [] h s).1 s [([], .clean), ([], .push [1]), ([[9]], .push [2]), ([], .push [3]), ([], .nip 1)]
    Ok h s ∧ elems r.1 r.2 = [[1], [3]] ∧ elems r.1 (copy [] h s).2 = [[0xaa], [0xbb]] ∧
    r.1.getD 0 [] = [[1], [3], [3]] := by
  unfold Ok
  decide +kernel

end Toku.Props
