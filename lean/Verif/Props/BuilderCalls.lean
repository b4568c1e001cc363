import Verif.Spec.Calls
import Verif.Props.Builder
/-
Property C47: the configuration that the builder calls lead to.
-/
namespace Toku.Props
open Toku Toku.Spec Toku.Tx Toku.Builder

variable {κ : Type}

theorem lastOf_snoc {α : Type} (f : Call κ → Option α) (cs : List (Call κ)) (c : Call κ) :
    lastOf f (cs ++ [c]) = (f c).or (lastOf f cs) := by
  unfold lastOf
  rw [List.filterMap_append]
  cases h : f c with
  | none => simp [h]
  | some a => simp [h]

theorem stages_ne (cs : List (Call κ)) : stages cs ≠ [] := by
  cases cs with
  | nil => simp [stages]
  | cons c cs =>
    cases c <;> (unfold stages; first | exact List.cons_ne_nil _ _ | (split <;> simp))

theorem stages_then (cs : List (Call κ)) : stages (cs ++ [.then_]) = stages cs ++ [[]] := by
  induction cs with
  | nil => rfl
  | cons c cs ih =>
    have hne := stages_ne cs
    cases c <;> simp only [List.cons_append, stages, ih] <;>
      (revert hne; generalize stages cs = l; intro hne; cases l with
        | nil => exact absurd rfl hne
        | cons => rfl)

theorem stages_snoc (cs : List (Call κ)) (c : Call κ) (hc : c ≠ .then_) (ss : List (List (Call κ))) (s : List (Call κ))
    (h : stages cs = ss ++ [s]) : stages (cs ++ [c]) = ss ++ [s ++ [c]] := by
  induction cs generalizing ss s with
  | nil =>
    have h : [] ++ [([] : List (Call κ))] = ss ++ [s] := h
    obtain ⟨h1, h2⟩ := List.append_inj' h rfl
    subst h1; cases h2
    cases c <;> first | rfl | exact absurd rfl hc
  | cons a cs ih =>
    have hne := stages_ne cs
    obtain ⟨ts, t, ht⟩ : ∃ ts t, stages cs = ts ++ [t] :=
      ⟨_, _, (List.dropLast_append_getLast hne).symm⟩
    have key := ih ts t ht
    by_cases ha : a = .then_
    · subst ha
      simp only [List.cons_append, stages, key]
      simp only [stages, ht] at h
      rw [← List.cons_append] at h
      obtain ⟨rfl, h2⟩ := List.append_inj' h rfl
      cases h2
      rfl
    · have e : ∀ l : List (Call κ), stages (a :: l) = match stages l with | [] => [[a]] | s :: ss => (a :: s) :: ss := by
        intro l; cases a <;> first | rfl | exact absurd rfl ha
      rw [List.cons_append, e, key]
      rw [e, ht] at h
      cases ts with
      | nil =>
        have h : [] ++ [a :: t] = ss ++ [s] := h
        obtain ⟨h1, h2⟩ := List.append_inj' h rfl
        subst h1; cases h2
        rfl
      | cons u us =>
        have h : ((a :: u) :: us) ++ [t] = ss ++ [s] := h
        obtain ⟨h1, h2⟩ := List.append_inj' h rfl
        subst h1; cases h2
        rfl

theorem lastOf_nil {α : Type} (f : Call κ → Option α) : lastOf f [] = none := rfl

theorem default_fees : wrap64 ((none : Option UInt64).getD 1000).toNat = 1000 := by decide +kernel

theorem or_some {α : Type} (a : α) (o : Option α) : (some a).or o = some a := rfl
theorem or_none {α : Type} (o : Option α) : (none : Option α).or o = o := rfl

theorem step_fees (b : Settings κ) (f : UInt64) : ∃ w, step b (.sendFees f) = { b with sendFees := w } ∧ w = wrap64 f.toNat := by
  refine ⟨_, ?_, rfl⟩
  unfold step
  with_reducible rfl

/-- **C47.** The configuration is the one the calls ask for: whatever the order, the stages between the `Then`s make
the groups, within a stage the last call of a kind counts, and nothing is lost or altered. -/
theorem C47_calls (cs : List (Call κ)) : IsSettings cs (run cs) := by
  suffices h : ∃ ss s, stages cs = ss ++ [s] ∧ List.Forall₂ IsGroup ss (run cs).before ∧ IsGroup s (run cs).group ∧
      (List.Forall₂ IsGroup (stages cs) (run cs).groups → IsSettings cs (run cs)) by
    obtain ⟨ss, s, e, h1, h2, h3⟩ := h
    apply h3
    rw [e]
    exact List.rel_append h1 (.cons h2 .nil)
  induction cs using List.reverseRecOn with
  | nil =>
    refine ⟨[], [], rfl, .nil, ?_, ?_⟩
    · constructor <;> rw [lastOf_nil] <;> rfl
    · intro h
      refine ⟨h, ?_, ?_, ?_, ?_, ?_, rfl, rfl⟩
      · rw [lastOf_nil]; rfl
      · rw [lastOf_nil, default_fees]; rfl
      · rw [lastOf_nil, Option.getD_none]; rfl
      · rw [lastOf_nil, Option.getD_none]; rfl
      · rw [lastOf_nil, Option.getD_none]; rfl
  | append_singleton cs c ih =>
    obtain ⟨ss, s, e, h1, h2, h3⟩ := ih
    have h3 : IsSettings cs (run cs) := by
      apply h3
      rw [e]
      exact List.rel_append h1 (.cons h2 .nil)
    have er : run (cs ++ [c]) = step (run cs) c := by
      unfold run; rw [List.foldl_append]; rfl
    rw [er]
    generalize run cs = b at h1 h2 h3
    obtain ⟨_, a1, a2, a3, a4, a5, a6, a7⟩ := h3
    have hset : List.Forall₂ IsGroup (stages (cs ++ [c])) (step b c).groups → IsSettings (cs ++ [c]) (step b c) := by
      intro h
      refine ⟨h, ?_, ?_, ?_, ?_, ?_, ?_, ?_⟩
      · rw [lastOf_snoc, ← a1]
        cases c with
        | sendFees f => obtain ⟨w, e, _⟩ := step_fees b f; rw [e, or_none]
        | _ => rfl
      · rw [lastOf_snoc]
        cases c with
        | sendFees f => obtain ⟨w, e, hw⟩ := step_fees b f; rw [e, or_some, Option.getD_some]; exact hw
        | _ => first | exact a2 | rfl
      · rw [lastOf_snoc]
        cases c with
        | sendFees f => obtain ⟨w, e, _⟩ := step_fees b f; rw [e, or_none]; exact a3
        | _ => first | exact a3 | rfl
      · rw [lastOf_snoc]
        cases c with
        | sendFees f => obtain ⟨w, e, _⟩ := step_fees b f; rw [e, or_none]; exact a4
        | _ => first | exact a4 | rfl
      · rw [lastOf_snoc]
        cases c with
        | sendFees f => obtain ⟨w, e, _⟩ := step_fees b f; rw [e, or_none]; exact a5
        | _ => first | exact a5 | rfl
      · rw [List.filterMap_append, ← a6]
        cases c with
        | sendFees f => obtain ⟨w, e, _⟩ := step_fees b f; rw [e]; exact (List.append_nil _).symm
        | _ => first | rfl | exact (List.append_nil _).symm
      · rw [List.any_append, ← a7]
        cases c with
        | sendFees f => obtain ⟨w, e, _⟩ := step_fees b f; rw [e]; exact (Bool.or_false _).symm
        | _ => first | exact (Bool.or_true _).symm | exact (Bool.or_false _).symm
    by_cases hc : c = .then_
    · subst hc
      refine ⟨ss ++ [s], [], by rw [stages_then, e], List.rel_append h1 (.cons h2 .nil), ?_, hset⟩
      constructor <;> rw [lastOf_nil] <;> rfl
    · refine ⟨ss, s ++ [c], stages_snoc cs c hc ss s e, ?_, ?_, hset⟩
      · cases c with
        | sendFees f => obtain ⟨w, e, _⟩ := step_fees b f; rw [e]; exact h1
        | _ => first | exact h1 | exact absurd rfl hc
      · obtain ⟨b1, b2, b3, b4, b5, b6⟩ := h2
        refine ⟨?_, ?_, ?_, ?_, ?_, ?_⟩
        · rw [lastOf_snoc]
          cases c with
          | sendFees f => obtain ⟨w, e, _⟩ := step_fees b f; rw [e, or_none]; exact b1
          | _ => first | exact absurd rfl hc | exact b1 | rfl
        · rw [lastOf_snoc]
          cases c with
          | sendFees f => obtain ⟨w, e, _⟩ := step_fees b f; rw [e, or_none]; exact b2
          | _ => first | exact absurd rfl hc | exact b2 | rfl
        · rw [lastOf_snoc]
          cases c with
          | sendFees f => obtain ⟨w, e, _⟩ := step_fees b f; rw [e, or_none]; exact b3
          | _ => first | exact absurd rfl hc | exact b3 | rfl
        · rw [lastOf_snoc]
          cases c with
          | sendFees f => obtain ⟨w, e, _⟩ := step_fees b f; rw [e, or_none]; exact b4
          | _ => first | exact absurd rfl hc | exact b4 | rfl
        · rw [lastOf_snoc]
          cases c with
          | sendFees f => obtain ⟨w, e, _⟩ := step_fees b f; rw [e, or_none]; exact b5
          | _ => first | exact absurd rfl hc | exact b5 | rfl
        · rw [lastOf_snoc]
          cases c with
          | sendFees f => obtain ⟨w, e, _⟩ := step_fees b f; rw [e, or_none]; exact b6
          | _ => first | exact absurd rfl hc | exact b6 | rfl

/-- Two stages, the first with a payment replaced by a later one; the change set before `Then` stays. -/
example : (payments (run ([.addCoin (some (exCoin 7)), .to none 1, .to (some exAddr) 2, .setChange none, .then_,
      .to none 3, .setMaxFees 5, .setMaxFees 6] : List (Call UInt8)))) = [⟨some exAddr, 2⟩, ⟨none, 3⟩] ∧
    (run ([.setMaxFees 5, .setMaxFees 6] : List (Call UInt8))).maxFees = 6 := by decide +kernel

end Toku.Props
