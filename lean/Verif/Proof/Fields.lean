import Verif.Model.Bip39
import Verif.Spec.Bip39
import Mathlib.Data.List.Infix
/-
`strings.Fields` finds the words of a text.
-/
namespace Toku.Bip39
open Toku.Spec

theorem spaces_eq : spaces = whiteSpace := by decide

theorem prefix_free : ∀ a ∈ whiteSpace, ∀ b ∈ whiteSpace, a.isPrefixOf b = true → a = b := by decide
theorem space_ne : ∀ a ∈ whiteSpace, a ≠ [] := by decide
theorem space_cont : ∀ a ∈ whiteSpace, ∀ c ∈ a.tail, ∀ b ∈ whiteSpace, b.head? ≠ some c := by decide

theorem spaceLen_zero {s : Bytes} : spaceLen s = 0 ↔ ∀ sp ∈ whiteSpace, ¬ sp <+: s := by
  unfold spaceLen
  rw [spaces_eq]
  constructor
  · intro h sp hsp hp
    split at h
    · rename_i hf
      have := List.find?_eq_none.mp hf sp hsp
      exact this (List.isPrefixOf_iff_prefix.mpr hp)
    · rename_i x hf
      exact space_ne x (List.mem_of_find?_eq_some hf) (List.length_eq_zero_iff.mp h)
  · intro h
    split
    · rfl
    · rename_i x hf
      have hx : x.isPrefixOf s = true := List.find?_some (p := fun sp : Bytes => sp.isPrefixOf s) hf
      exact absurd (List.isPrefixOf_iff_prefix.mp hx) (h x (List.mem_of_find?_eq_some hf))

theorem spaceLen_append {sp s : Bytes} (h : sp ∈ whiteSpace) : spaceLen (sp ++ s) = sp.length := by
  unfold spaceLen
  rw [spaces_eq]
  split
  · rename_i hf
    exact absurd (List.isPrefixOf_iff_prefix.mpr (List.prefix_append sp s)) (List.find?_eq_none.mp hf sp h)
  · rename_i x hf
    have hx := List.mem_of_find?_eq_some hf
    have hp : x <+: sp ++ s := List.isPrefixOf_iff_prefix.mp (List.find?_some (p := fun x : Bytes => x.isPrefixOf (sp ++ s)) hf)
    rcases List.prefix_or_prefix_of_prefix hp (List.prefix_append sp s) with h1 | h1
    · rw [prefix_free x hx sp h (List.isPrefixOf_iff_prefix.mpr h1)]
    · rw [prefix_free sp h x hx (List.isPrefixOf_iff_prefix.mpr h1)]

theorem spaceLen_pos {s : Bytes} (h : spaceLen s ≠ 0) : ∃ sp r, sp ∈ whiteSpace ∧ s = sp ++ r := by
  rw [Ne, spaceLen_zero] at h
  push Not at h
  obtain ⟨sp, h1, r, h2⟩ := h
  exact ⟨sp, r, h1, h2.symm⟩

theorem fields_skip (a s cur : Bytes) : fieldsLoop (a ++ s) a.length cur = fieldsLoop s 0 cur := by
  induction a with
  | nil => rfl
  | cons c a ih =>
    rw [List.cons_append, List.length_cons]
    rw [fieldsLoop.eq_def]
    exact ih

theorem fields_space {sp s cur : Bytes} (h : sp ∈ whiteSpace) :
    fieldsLoop (sp ++ s) 0 cur = if cur = [] then fieldsLoop s 0 [] else cur :: fieldsLoop s 0 [] := by
  have hl := spaceLen_append (s := s) h
  cases sp with
  | nil => exact absurd rfl (space_ne _ h)
  | cons c a =>
    rw [List.cons_append] at hl ⊢
    rw [fieldsLoop.eq_def]
    dsimp only
    rw [hl, List.length_cons]
    dsimp only
    rw [fields_skip]

theorem fields_blank {b : Bytes} (h : Blank b) (s : Bytes) : fieldsLoop (b ++ s) 0 [] = fieldsLoop s 0 [] := by
  induction h with
  | nil => rfl
  | cons hs _ ih => rw [List.append_assoc, fields_space hs, if_pos rfl, ih]

theorem fields_end {b : Bytes} (h : Blank b) {cur : Bytes} (hc : cur ≠ []) : fieldsLoop b 0 cur = [cur] := by
  cases h with
  | nil => unfold fieldsLoop; rw [if_neg hc]
  | cons hs hb =>
    rw [fields_space hs, if_neg hc]
    have := fields_blank hb []
    rw [List.append_nil] at this
    rw [this]
    rfl

/-- No white space begins inside a word, also not across its end. -/
theorem no_space_inside {c : UInt8} {w s : Bytes} (hw : ∀ sp ∈ whiteSpace, ¬ sp <:+: c :: w)
    (hs : s = [] ∨ spaceLen s ≠ 0) : spaceLen (c :: w ++ s) = 0 := by
  rw [spaceLen_zero]
  intro sp hsp hp
  rcases List.prefix_or_prefix_of_prefix hp (List.prefix_append (c :: w) s) with h | h
  · exact hw sp hsp h.isInfix
  · obtain ⟨t, ht⟩ := h
    cases t with
    | nil =>
      rw [List.append_nil] at ht
      exact hw sp hsp (ht ▸ List.infix_refl _)
    | cons d t =>
      rw [← ht, List.prefix_append_right_inj] at hp
      rcases hs with rfl | hs
      · exact absurd (List.prefix_nil.mp hp) (by simp)
      · obtain ⟨sp2, r, h2, rfl⟩ := spaceLen_pos hs
        cases sp2 with
        | nil => exact absurd rfl (space_ne _ h2)
        | cons e sp2 =>
          obtain ⟨u, hu⟩ := hp
          rw [List.cons_append, List.cons_append] at hu
          injection hu with hu _
          have hm : d ∈ sp.tail := by rw [← ht]; simp
          exact space_cont sp hsp d hm _ h2 (by rw [hu]; rfl)

theorem fields_word {w s : Bytes} (hw : ∀ sp ∈ whiteSpace, ¬ sp <:+: w) (hs : s = [] ∨ spaceLen s ≠ 0) (cur : Bytes) :
    fieldsLoop (w ++ s) 0 cur = fieldsLoop s 0 (cur ++ w) := by
  induction w generalizing cur with
  | nil => rw [List.append_nil]; rfl
  | cons c w ih =>
    have h0 := no_space_inside hw hs
    rw [List.cons_append] at h0 ⊢
    rw [fieldsLoop.eq_def]
    dsimp only
    rw [h0]
    dsimp only
    rw [ih (fun sp h hi => hw sp h (List.IsInfix.trans hi (List.infix_cons (List.infix_refl _)))), List.append_assoc]
    rfl

theorem blank_start {b : Bytes} (h : Blank b) : b = [] ∨ spaceLen b ≠ 0 := by
  cases h with
  | nil => exact Or.inl rfl
  | cons hs _ =>
    right
    rw [spaceLen_append hs]
    exact fun h => space_ne _ hs (List.length_eq_zero_iff.mp h)

theorem fields_of {s : Bytes} {ws : List Bytes} (h : Separated s ws) : fields s = ws := by
  unfold fields
  induction h with
  | nil hb =>
    have := fields_blank hb []
    rw [List.append_nil] at this
    rw [this]
    rfl
  | last hb hw he =>
    rw [List.append_assoc, fields_blank hb, fields_word hw.2 (blank_start he), List.nil_append, fields_end he hw.1]
  | @cons b w sp s v ws hb hw hs _ ih =>
    have hsp : sp ++ s = [] ∨ spaceLen (sp ++ s) ≠ 0 := by
      right
      rw [spaceLen_append hs]
      exact fun h => space_ne _ hs (List.length_eq_zero_iff.mp h)
    rw [List.append_assoc, List.append_assoc, fields_blank hb, fields_word hw.2 hsp, List.nil_append, fields_space hs,
      if_neg hw.1, ih]

theorem blank_append {a b : Bytes} (ha : Blank a) (hb : Blank b) : Blank (a ++ b) := by
  induction ha with
  | nil => exact hb
  | cons hs _ ih => rw [List.append_assoc]; exact .cons hs ih

theorem separated_blank {b s : Bytes} {ws : List Bytes} (hb : Blank b) (h : Separated s ws) : Separated (b ++ s) ws := by
  cases h with
  | nil h => exact .nil (blank_append hb h)
  | last h hw he =>
    rw [← List.append_assoc, ← List.append_assoc]
    exact .last (blank_append hb h) hw he
  | cons h hw hs hr =>
    rw [← List.append_assoc, ← List.append_assoc, ← List.append_assoc]
    exact .cons (blank_append hb h) hw hs hr

/-- Every text begins with bytes at which no white space starts, up to its end or to white space. -/
theorem span (s : Bytes) : ∃ w r, s = w ++ r ∧ (∀ a b, w = a ++ b → b ≠ [] → spaceLen (b ++ r) = 0) ∧ (r = [] ∨ spaceLen r ≠ 0) := by
  induction s with
  | nil => exact ⟨[], [], rfl, by intro a b h hb; simp at h; exact absurd h.2 hb, Or.inl rfl⟩
  | cons c s ih =>
    by_cases h0 : spaceLen (c :: s) = 0
    · obtain ⟨w, r, rfl, h1, h2⟩ := ih
      refine ⟨c :: w, r, rfl, ?_, h2⟩
      intro a b hab hb
      cases a with
      | nil => rw [List.nil_append] at hab; rw [← hab]; exact h0
      | cons d a =>
        rw [List.cons_append] at hab
        injection hab with _ hab
        exact h1 a b hab hb
    · exact ⟨[], c :: s, rfl, by intro a b h hb; simp at h; exact absurd h.2 hb, Or.inr h0⟩

theorem separated_exists : ∀ (n : ℕ) (s : Bytes), s.length ≤ n → ∃ ws, Separated s ws := by
  intro n
  induction n with
  | zero =>
    intro s hs
    have : s = [] := List.length_eq_zero_iff.mp (by omega)
    subst this
    exact ⟨[], .nil .nil⟩
  | succ n ih =>
    intro s hs
    obtain ⟨w, r, rfl, h1, h2⟩ := span s
    have hword : w ≠ [] → Word w := by
      intro hne
      refine ⟨hne, ?_⟩
      rintro sp hsp ⟨a, b, hab⟩
      have hne2 : sp ++ b ≠ [] := by
        intro h
        exact space_ne sp hsp (List.append_eq_nil_iff.mp h).1
      have := h1 a (sp ++ b) (by rw [← hab, List.append_assoc]) hne2
      rw [spaceLen_zero] at this
      exact this sp hsp (by rw [List.append_assoc]; exact List.prefix_append _ _)
    rcases h2 with rfl | h2
    · by_cases hw : w = []
      · subst hw; exact ⟨[], .nil .nil⟩
      · have := Separated.last .nil (hword hw) .nil
        exact ⟨_, this⟩
    · obtain ⟨sp, r', hsp, rfl⟩ := spaceLen_pos h2
      have hl : r'.length ≤ n := by
        have := List.length_pos_iff.mpr (space_ne sp hsp)
        rw [List.length_append, List.length_append] at hs
        omega
      obtain ⟨ws, hws⟩ := ih r' hl
      have hbl : Blank sp := by
        have := Blank.cons hsp .nil
        rwa [List.append_nil] at this
      by_cases hw : w = []
      · subst hw
        rw [List.nil_append]
        exact ⟨ws, separated_blank hbl hws⟩
      · cases ws with
        | nil =>
          cases hws with
          | nil hb => exact ⟨[w], Separated.last .nil (hword hw) (blank_append hbl hb)⟩
        | cons v ws =>
          have := Separated.cons .nil (hword hw) hsp hws
          rw [List.nil_append, List.append_assoc] at this
          exact ⟨_, this⟩

/-- `strings.Fields` returns the words of the text. -/
theorem fields_iff (s : Bytes) (ws : List Bytes) : fields s = ws ↔ Separated s ws := by
  constructor
  · rintro rfl
    obtain ⟨ws, h⟩ := separated_exists _ s (le_refl _)
    rw [fields_of h]
    exact h
  · exact fields_of

theorem join_eq (ws : List Bytes) : join ws = spaced ws := by
  induction ws with
  | nil => rfl
  | cons w ws ih =>
    cases ws with
    | nil => simp [join, spaced]
    | cons v ws =>
      rw [show join (w :: v :: ws) = w ++ 0x20 :: join (v :: ws) from rfl, ih]
      simp [spaced]

theorem separated_spaced {ws : List Bytes} (h : ∀ w ∈ ws, Word w) : Separated (spaced ws) ws := by
  induction ws with
  | nil => exact .nil .nil
  | cons w ws ih =>
    have hw := h w List.mem_cons_self
    have ih := ih (fun v hv => h v (List.mem_cons_of_mem _ hv))
    cases ws with
    | nil => exact Separated.last .nil hw .nil
    | cons v ws =>
      have := Separated.cons .nil hw (sp := [0x20]) (by decide) ih
      have e : spaced (w :: v :: ws) = [] ++ w ++ [0x20] ++ spaced (v :: ws) := by simp [spaced]
      rw [e]
      exact this

theorem word_no_space {w : Bytes} (h : Word w) : 0x20 ∉ w := by
  intro hm
  obtain ⟨a, b, rfl⟩ := List.append_of_mem hm
  exact h.2 [0x20] (by decide) ⟨a, b, by simp⟩

theorem split_spaced (ws : List Bytes) (hs : ∀ v ∈ ws, 0x20 ∉ v) (hne : ws ≠ []) : splitSpace (spaced ws) = ws := by
  have key : ∀ (ws : List Bytes) (w : Bytes), 0x20 ∉ w → (∀ v ∈ ws, 0x20 ∉ v) →
      splitSpace (w ++ ws.flatMap (fun w => 0x20 :: w)) = w :: ws := by
    intro ws
    induction ws with
    | nil =>
      intro w hw _
      induction w with
      | nil => rfl
      | cons c w ih =>
        have := ih (fun h => hw (List.mem_cons_of_mem _ h))
        rw [List.cons_append]
        unfold splitSpace
        rw [if_neg (fun (h : c = 0x20) => hw (h ▸ List.mem_cons_self)), this]
    | cons v vs ihv =>
      intro w hw hs
      induction w with
      | nil =>
        rw [List.nil_append, List.flatMap_cons, List.cons_append]
        unfold splitSpace
        rw [if_pos rfl, ihv v (hs v List.mem_cons_self) (fun u hu => hs u (List.mem_cons_of_mem _ hu))]
      | cons c w ih =>
        have := ih (fun h => hw (List.mem_cons_of_mem _ h))
        rw [List.cons_append]
        unfold splitSpace
        rw [if_neg (fun (h : c = 0x20) => hw (h ▸ List.mem_cons_self)), this]
  cases ws with
  | nil => exact absurd rfl hne
  | cons w ws => exact key ws w (hs w List.mem_cons_self) (fun u hu => hs u (List.mem_cons_of_mem _ hu))

end Toku.Bip39
