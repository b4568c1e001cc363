import Verif.Props.HDKey
/-
Property C51 for every text: which derivations are made, when the program stops, and (the rest) when the result is an error.
-/
namespace Toku.Props
open Toku Toku.Spec Toku.HDKey

/-- One component as the program takes it: as it should be (`Component`), or a hardened number of 2^31 or more, whose sum with 2^31 is taken
modulo 2^32. -/
def Taken (w : Bytes) (i : UInt32) : Prop :=
  Component w i ∨ ∃ u n, w = u ++ [0x27] ∧ Decimal u n ∧ 2 ^ 31 ≤ n ∧ n < 2 ^ 32 ∧ i.toNat = n - 2 ^ 31

/-- A text and the indices it is taken for. -/
def PathTaken (s : Bytes) (is : List UInt32) : Prop :=
  (s = [] ∧ is = []) ∨ ∃ ws, List.Forall₂ Taken ws is ∧ s = pathText ws

private theorem stepIndex_iff {w : Bytes} {i : UInt32} : stepIndex w = .ok i ↔ Taken w i := by
  refine ⟨stepIndex_inv, ?_⟩
  rintro (h | ⟨u, n, rfl, h, hn, hlt, hi⟩)
  · exact stepIndex_of h
  · unfold stepIndex
    rw [List.getLast?_concat]
    dsimp only
    rw [if_pos (by decide), List.dropLast_concat, (parse_iff u n).mpr ⟨h, hlt⟩]
    dsimp only
    rw [if_pos (by decide)]
    have : UInt32.ofNat (n + 2 ^ 31) = i := by
      apply UInt32.toNat_inj.mp
      rw [UInt32.toNat_ofNat', hi]
      omega
    rw [this]

private theorem taken_no_slash {w : Bytes} {i : UInt32} (h : Taken w i) : 0x2f ∉ w := by
  rcases h with h | ⟨u, n, rfl, h, _⟩
  · exact component_no_slash h
  · intro hm
    rcases List.mem_append.mp hm with hm | hm
    · exact decimal_no_slash h hm
    · revert hm; decide

section
variable [Hashes]

private theorem steps_ok (ws : List Bytes) : ∀ k k', deriveSteps k ws = .ok k' ↔
    ∃ is, List.Forall₂ Taken ws is ∧ deriveAll k is = .ok k' := by
  induction ws with
  | nil =>
    intro k k'
    constructor
    · intro h; exact ⟨[], .nil, h⟩
    · rintro ⟨is, h, e⟩; cases h; exact e
  | cons w ws ih =>
    intro k k'
    unfold deriveSteps
    constructor
    · intro h
      rw [Res.bind_eq_ok] at h
      obtain ⟨i, hi, h⟩ := h
      rw [Res.bind_eq_ok] at h
      obtain ⟨k1, h1, h⟩ := h
      obtain ⟨is, hf, e⟩ := (ih k1 k').mp h
      refine ⟨i :: is, .cons (stepIndex_iff.mp hi) hf, ?_⟩
      unfold deriveAll
      rw [h1, Res.ok_bind, e]
    · rintro ⟨is, h, e⟩
      cases h with
      | cons h hf =>
        rename_i i is
        unfold deriveAll at e
        rw [Res.bind_eq_ok] at e
        obtain ⟨k1, h1, e⟩ := e
        rw [stepIndex_iff.mpr h, Res.ok_bind, h1, Res.ok_bind]
        exact (ih k1 k').mpr ⟨is, hf, e⟩

private theorem steps_panic (ws : List Bytes) : ∀ k, WF k → (deriveSteps k ws = .panic ↔
    ∃ us vs is k', ws = us ++ [] :: vs ∧ List.Forall₂ Taken us is ∧ deriveAll k is = .ok k') := by
  induction ws with
  | nil =>
    intro k _
    constructor
    · intro h; cases h
    · rintro ⟨us, vs, is, k', h, _⟩; cases us <;> cases h
  | cons w ws ih =>
    intro k hk
    unfold deriveSteps
    constructor
    · intro h
      cases hi : stepIndex w with
      | panic =>
        have := stepIndex_panic hi
        subst this
        exact ⟨[], ws, [], k, rfl, .nil, rfl⟩
      | err e => rw [hi] at h; cases h
      | ok i =>
        rw [hi, Res.ok_bind] at h
        cases hd : derive k i with
        | panic => exact absurd hd (derive_no_panic hk i)
        | err e => rw [hd] at h; cases h
        | ok k1 =>
          rw [hd, Res.ok_bind] at h
          obtain ⟨us, vs, is, k', e, hf, ha⟩ := (ih k1 (derive_wf hk hd).1).mp h
          refine ⟨w :: us, vs, i :: is, k', by rw [e]; rfl, .cons (stepIndex_iff.mp hi) hf, ?_⟩
          unfold deriveAll
          rw [hd, Res.ok_bind, ha]
    · rintro ⟨us, vs, is, k', e, hf, ha⟩
      cases hf with
      | nil =>
        cases e
        rfl
      | cons h hf =>
        rename_i u i us is
        cases e
        unfold deriveAll at ha
        rw [Res.bind_eq_ok] at ha
        obtain ⟨k1, h1, ha⟩ := ha
        rw [stepIndex_iff.mpr h, Res.ok_bind, h1, Res.ok_bind]
        exact (ih k1 (derive_wf hk h1).1).mpr ⟨us, vs, is, k', rfl, hf, ha⟩

private theorem byPath_cases (k : HDKey) (s : Bytes) : (s = [] ∧ deriveByPath k s = .ok k) ∨
    (∃ ws, s = pathText ws ∧ (∀ w ∈ ws, 0x2f ∉ w) ∧ deriveByPath k s = deriveSteps k ws) ∨
    (s ≠ [] ∧ (∀ ws, s = pathText ws → False) ∧ deriveByPath k s = .err errPath) := by
  unfold deriveByPath
  by_cases h0 : s = []
  · exact Or.inl ⟨h0, by rw [if_pos h0]⟩
  rw [if_neg h0]
  right
  cases e : split s with
  | nil => exact absurd e (split_ne s)
  | cons m ws =>
    dsimp only
    by_cases hm : m = [0x6d]
    · left
      rw [if_neg (by simpa using hm)]
      obtain ⟨e1, _, e3⟩ := split_spec s m ws e
      subst hm
      exact ⟨ws, e1, e3, rfl⟩
    · right
      rw [if_pos hm]
      refine ⟨h0, fun vs hv => hm ?_, rfl⟩
      obtain ⟨e1, e2, _⟩ := split_spec s m ws e
      rw [hv] at e1
      unfold pathText at e1
      cases m with
      | nil => cases ws <;> cases e1
      | cons c m =>
        obtain ⟨rfl, e1⟩ := List.cons.inj e1
        cases m with
        | nil => rfl
        | cons d m =>
          exfalso
          cases vs with
          | nil => cases e1
          | cons v vs =>
            have e3 : (0x2f : UInt8) = d := (List.cons.inj (List.cons.inj e1).2).1
            exact e2 (by rw [e3]; simp)

omit [Hashes] in
private theorem pathText_inj {ws vs : List Bytes} (hw : ∀ w ∈ ws, 0x2f ∉ w) (hv : ∀ v ∈ vs, 0x2f ∉ v) (h : pathText ws = pathText vs) :
    ws = vs := by
  have h1 := split_join [0x6d] ws (by decide) hw
  have h2 := split_join [0x6d] vs (by decide) hv
  unfold pathText at h
  rw [show [0x6d] ++ ws.flatMap (fun w => 0x2f :: w) = [0x6d] ++ vs.flatMap (fun w => 0x2f :: w) from h, h2] at h1
  exact (List.cons.inj h1).2.symm

omit [Hashes] in
private theorem forall_no_slash {ws : List Bytes} {is : List UInt32} (h : List.Forall₂ Taken ws is) : ∀ w ∈ ws, 0x2f ∉ w := by
  induction h with
  | nil => simp
  | cons h _ ih =>
    intro v hv
    rcases List.mem_cons.mp hv with rfl | hv
    · exact taken_no_slash h
    · exact ih v hv

/-- **C51**, exactly which key a text gives: that of the derivations it is taken for, which are those it spells but for hardened numbers of 2^31
or more. -/
theorem C51_ok_iff (k k' : HDKey) (s : Bytes) : deriveByPath k s = .ok k' ↔ ∃ is, PathTaken s is ∧ deriveAll k is = .ok k' := by
  rcases byPath_cases k s with ⟨rfl, e⟩ | ⟨ws, rfl, hs, e⟩ | ⟨h0, hn, e⟩
  · rw [e]
    constructor
    · intro h; exact ⟨[], Or.inl ⟨rfl, rfl⟩, h⟩
    · rintro ⟨is, ⟨_, rfl⟩ | ⟨ws, _, h⟩, e⟩
      · exact e
      · cases h
  · rw [e, steps_ok]
    constructor
    · rintro ⟨is, hf, e⟩
      exact ⟨is, Or.inr ⟨ws, hf, rfl⟩, e⟩
    · rintro ⟨is, ⟨h, _⟩ | ⟨vs, hf, h⟩, e⟩
      · cases h
      · rw [pathText_inj hs (forall_no_slash hf) h]
        exact ⟨is, hf, e⟩
  · rw [e]
    constructor
    · intro h; cases h
    · rintro ⟨is, ⟨h, _⟩ | ⟨vs, hf, h⟩, e⟩
      · exact absurd h h0
      · exact (hn vs h).elim

/-- **C51**, exactly when the program stops: at an empty component after components that can be derived. All other texts are errors. -/
theorem C51_panics_iff (k : HDKey) (hk : WF k) (s : Bytes) : deriveByPath k s = .panic ↔
    ∃ us vs is k', s = pathText (us ++ [] :: vs) ∧ (∀ v ∈ vs, 0x2f ∉ v) ∧ List.Forall₂ Taken us is ∧ deriveAll k is = .ok k' := by
  rcases byPath_cases k s with ⟨rfl, e⟩ | ⟨ws, rfl, hs, e⟩ | ⟨h0, hn, e⟩
  · rw [e]
    constructor
    · intro h; cases h
    · rintro ⟨us, vs, is, k', h, _⟩; cases h
  · rw [e, steps_panic ws k hk]
    constructor
    · rintro ⟨us, vs, is, k', rfl, hf, h⟩
      exact ⟨us, vs, is, k', rfl, fun v hv => hs v (by simp [hv]), hf, h⟩
    · rintro ⟨us, vs, is, k', h, hv, hf, ha⟩
      refine ⟨us, vs, is, k', pathText_inj hs ?_ h, hf, ha⟩
      intro w hw
      simp only [List.mem_append, List.mem_cons] at hw
      rcases hw with hw | rfl | hw
      · exact forall_no_slash hf w hw
      · simp
      · exact hv w hw
  · rw [e]
    constructor
    · intro h; cases h
    · rintro ⟨us, vs, is, k', h, _⟩
      exact (hn _ h).elim

/-- `m/0/` stops the program, `m//x` too, `m/x/` is an error; `m/2147483649'` is taken for the child 1. -/
example : ∃ k : HDKey, WF k ∧ deriveByPath k (ascii ['m', '/', '/', 'x']) = .panic ∧
    (∃ e, deriveByPath k (ascii ['m', '/', 'x', '/']) = .err e) ∧
    PathTaken (ascii ['m', '/', '2', '1', '4', '7', '4', '8', '3', '6', '4', '9', '\'']) [1] := by
  obtain ⟨k, _, hk⟩ := C49_keys.1 []
  refine ⟨k, hk, rfl, ⟨_, rfl⟩, Or.inr ⟨[ascii ['2', '1', '4', '7', '4', '8', '3', '6', '4', '9', '\'']], .cons ?_ .nil, rfl⟩⟩
  exact stepIndex_iff.mp (by decide +kernel)

end
end Toku.Props
