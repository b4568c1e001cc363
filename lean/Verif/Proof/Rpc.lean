import Verif.Spec.Rpc
/-
Helper lemmas about the decoders of the RPC client.
-/
namespace Toku.Rpc
open Spec

theorem asStr_np (o : Bytes) (v : Json) : asStr o v ≠ .panic := by cases v <;> simp [asStr]
theorem asInt_np (b : Nat) (o : Int) (v : Json) : asInt b o v ≠ .panic := by
  cases v <;> simp only [asInt] <;> (try split) <;> simp
theorem asUint_np (b : Nat) (o : Nat) (v : Json) : asUint b o v ≠ .panic := by
  cases v <;> simp only [asUint] <;> (try split) <;> simp
theorem asFloat_np (o : Lit) (v : Json) : asFloat o v ≠ .panic := by cases v <;> simp [asFloat]

theorem elems_np {α : Type} {f : Json → Res α} (h : ∀ x, f x ≠ .panic) (xs : List Json) : elems f xs ≠ .panic := by
  induction xs with
  | nil => simp [elems]
  | cons x xs ih =>
    unfold elems
    rw [Ne, Res.bind_eq_panic]
    rintro (h1 | ⟨a, _, h2⟩)
    · exact h x h1
    · rw [Res.bind_eq_panic] at h2
      rcases h2 with h2 | ⟨_, _, h3⟩
      · exact ih h2
      · simp at h3

theorem map_np {α β : Type} {x : Res α} {f : α → β} (h : x ≠ .panic) : (x >>= fun a => Res.ok (f a)) ≠ .panic := by
  cases x <;> simp_all

theorem asBytes_np (o : Bytes) (v : Json) : asBytes o v ≠ .panic := by
  cases v <;> simp only [asBytes, Res.pure_eq]
  case str s => split <;> simp
  case arr xs => exact elems_np (fun x => map_np (asUint_np 8 0 x)) xs
  all_goals simp

theorem asList_np {α : Type} {f : Json → Res α} (h : ∀ x, f x ≠ .panic) (v : Json) : asList f v ≠ .panic := by
  cases v <;> simp only [asList]
  case arr xs => exact elems_np h xs
  all_goals simp

theorem fields_np {σ : Type} {step : σ → String → Json → Res σ} (h : ∀ s k v, step s k v ≠ .panic) (fs : List (String × Json)) :
    ∀ s, fields step s fs ≠ .panic := by
  induction fs with
  | nil => intro s; simp [fields]
  | cons p fs ih =>
    intro s
    obtain ⟨k, v⟩ := p
    unfold fields
    rw [Ne, Res.bind_eq_panic]
    rintro (h1 | ⟨a, _, h2⟩)
    · exact h s k v h1
    · exact ih a h2

theorem asStruct_np {σ : Type} {step : σ → String → Json → Res σ} (h : ∀ s k v, step s k v ≠ .panic) (s : σ) (v : Json) :
    asStruct step s v ≠ .panic := by
  cases v <;> simp only [asStruct]
  case obj fs => exact fields_np h fs s
  all_goals simp

theorem ite_np {α : Type} {c : Prop} [Decidable c] {a b : Res α} (ha : a ≠ .panic) (hb : b ≠ .panic) : (if c then a else b) ≠ .panic := by
  split <;> assumption

macro "step_np" : tactic => `(tactic| (
  simp only [Res.pure_eq]
  repeat' apply ite_np
  all_goals first
    | exact map_np (asStr_np _ _) | exact map_np (asInt_np _ _ _) | exact map_np (asUint_np _ _ _) | exact map_np (asFloat_np _ _)
    | exact map_np (asBytes_np _ _) | simp))

theorem NodeError.step_np (s : NodeError) (k : String) (v : Json) : NodeError.step s k v ≠ .panic := by unfold NodeError.step; step_np
theorem Header.step_np (s : Header) (k : String) (v : Json) : Header.step s k v ≠ .panic := by unfold Header.step; step_np
theorem ScriptSig.step_np (s : ScriptSig) (k : String) (v : Json) : ScriptSig.step s k v ≠ .panic := by unfold ScriptSig.step; step_np

theorem Vin.step_np (s : Vin) (k : String) (v : Json) : Vin.step s k v ≠ .panic := by
  unfold Vin.step
  simp only [Res.pure_eq]
  repeat' apply ite_np
  all_goals first
    | exact map_np (asStr_np _ _) | exact map_np (asInt_np _ _ _) | exact map_np (asUint_np _ _ _)
    | exact map_np (asStruct_np ScriptSig.step_np _ _) | simp

theorem ScriptPubKey.step_np (s : ScriptPubKey) (k : String) (v : Json) : ScriptPubKey.step s k v ≠ .panic := by
  unfold ScriptPubKey.step
  simp only [Res.pure_eq]
  repeat' apply ite_np
  all_goals first
    | exact map_np (asStr_np _ _) | exact map_np (asInt_np _ _ _) | exact map_np (asList_np (fun x => asStr_np _ x) _) | simp

theorem Vout.step_np (s : Vout) (k : String) (v : Json) : Vout.step s k v ≠ .panic := by
  unfold Vout.step
  simp only [Res.pure_eq]
  repeat' apply ite_np
  all_goals first
    | exact map_np (asFloat_np _ _) | exact map_np (asInt_np _ _ _) | exact map_np (asStruct_np ScriptPubKey.step_np _ _) | simp

theorem Transaction.step_np (s : Transaction) (k : String) (v : Json) : Transaction.step s k v ≠ .panic := by
  unfold Transaction.step
  simp only [Res.pure_eq]
  repeat' apply ite_np
  all_goals first
    | exact map_np (asStr_np _ _) | exact map_np (asInt_np _ _ _) | exact map_np (asUint_np _ _ _)
    | exact map_np (asList_np (fun x => asStruct_np Vin.step_np _ x) _)
    | exact map_np (asList_np (fun x => asStruct_np Vout.step_np _ x) _) | simp

theorem Block.step_np (s : Block) (k : String) (v : Json) : Block.step s k v ≠ .panic := by
  unfold Block.step
  simp only [Res.pure_eq]
  repeat' apply ite_np
  all_goals first
    | exact map_np (asStr_np _ _) | exact map_np (asInt_np _ _ _) | exact map_np (asUint_np _ _ _) | exact map_np (asFloat_np _ _)
    | exact map_np (asList_np (fun x => asStruct_np Transaction.step_np _ x) _) | simp

/-- The pointer `result` after a value. -/
def raw : Json → Option Json
  | .null => none
  | v => some v

theorem Response.step_result (r : Response) (v : Json) : Response.step r "result" v = .ok { r with result := raw v } := by
  cases v <;> simp [Response.step, raw]

theorem Response.step_np (r : Response) (k : String) (v : Json) : Response.step r k v ≠ .panic := by
  unfold Response.step
  simp only [Res.pure_eq]
  split
  · exact map_np (asUint_np _ _ _)
  split
  · simp
  split
  · split
    · simp
    · exact map_np (asStruct_np NodeError.step_np _ _)
  · simp

/-! ### Answers -/

theorem asUint_ok {b o : Nat} {v : Json} : (∃ n, asUint b o v = .ok n) ↔ v = .null ∨ ∃ n, n < 2 ^ b ∧ v = .int false n := by
  cases v <;> simp [asUint]
  case int neg n => cases neg <;> simp; split <;> simp_all

theorem asInt_ok {b : Nat} {o : Int} {v : Json} :
    (∃ n, asInt b o v = .ok n) ↔ v = .null ∨ ∃ neg n, v = .int neg n ∧ -2 ^ (b - 1) ≤ intVal neg n ∧ intVal neg n < 2 ^ (b - 1) := by
  cases v with
  | int neg n =>
    simp only [asInt, reduceCtorEq, Json.int.injEq, false_or]
    split
    · next h => exact ⟨fun _ => ⟨neg, n, ⟨rfl, rfl⟩, h⟩, fun _ => ⟨_, rfl⟩⟩
    · next h =>
      constructor
      · rintro ⟨_, h'⟩; simp at h'
      · rintro ⟨_, _, ⟨rfl, rfl⟩, h'⟩; exact absurd h' h
  | _ => simp [asInt]

theorem asStr_ok {o : Bytes} {v : Json} : (∃ n, asStr o v = .ok n) ↔ TextOk v := by
  cases v <;> simp [asStr, TextOk]

/-- Decoding an object succeeds when every step does, whatever the state. -/
theorem fields_ok {σ : Type} {step : σ → String → Json → Res σ} {P : String → Json → Prop}
    (h : ∀ s k v, (∃ s', step s k v = .ok s') ↔ P k v) (fs : List (String × Json)) :
    ∀ s, (∃ s', fields step s fs = .ok s') ↔ ∀ p ∈ fs, P p.1 p.2 := by
  induction fs with
  | nil => intro s; simp [fields]
  | cons p fs ih =>
    intro s
    obtain ⟨k, v⟩ := p
    simp only [fields, Res.bind_eq_ok, List.forall_mem_cons]
    constructor
    · rintro ⟨s', a, ha, hs⟩
      exact ⟨(h s k v).1 ⟨a, ha⟩, (ih a).1 ⟨s', hs⟩⟩
    · rintro ⟨h1, h2⟩
      obtain ⟨a, ha⟩ := (h s k v).2 h1
      obtain ⟨s', hs⟩ := (ih a).2 h2
      exact ⟨s', a, ha, hs⟩

theorem map_ok {α β : Type} {x : Res α} {f : α → β} : (∃ b, (x >>= fun a => Res.ok (f a)) = .ok b) ↔ ∃ a, x = .ok a := by
  cases x <;> simp

theorem NodeError.step_ok (s : NodeError) (k : String) (v : Json) :
    (∃ s', NodeError.step s k v = .ok s') ↔ (k = "code" → CodeOk v) ∧ (k = "message" → TextOk v) := by
  unfold NodeError.step
  simp only [Res.pure_eq]
  split
  · next h => subst h; rw [map_ok, asInt_ok]; simp [CodeOk]
  split
  · next h => subst h; rw [map_ok, asStr_ok]; simp
  · next h1 h2 => simp [h1, h2]

theorem forall_pair {fs : List (String × Json)} {k : String} {P : Json → Prop} :
    (∀ p ∈ fs, p.1 = k → P p.2) ↔ ∀ x, (k, x) ∈ fs → P x := by
  constructor
  · intro h x hx; exact h (k, x) hx rfl
  · rintro h ⟨k', x⟩ hx rfl; exact h x hx

theorem nodeError_ok {o : NodeError} {v : Json} : (∃ e, asStruct NodeError.step o v = .ok e) ↔ ErrorOk v := by
  cases v <;> simp only [asStruct, ErrorOk]
  case obj fs =>
    rw [fields_ok NodeError.step_ok]
    simp only [reduceCtorEq, Json.obj.injEq, false_or, exists_eq_left']
    simp only [forall_and]
    rw [forall_pair, forall_pair]
  all_goals simp

theorem Response.step_ok (r : Response) (k : String) (v : Json) :
    (∃ r', Response.step r k v = .ok r') ↔ (k = "id" → IdOk v) ∧ (k = "error" → ErrorOk v) := by
  unfold Response.step
  simp only [Res.pure_eq]
  split
  · next h => subst h; rw [map_ok, asUint_ok]; simp [IdOk]
  split
  · next h => subst h; simp
  split
  · next h =>
    subst h
    split
    · simp [ErrorOk]
    · rw [map_ok, nodeError_ok]; simp
  · next h1 h2 h3 => simp [h1, h3]

theorem response_ok (r : Response) (fs : List (String × Json)) : (∃ r', fields Response.step r fs = .ok r') ↔ Typed fs := by
  rw [fields_ok Response.step_ok]
  unfold Typed
  simp only [forall_and]
  rw [forall_pair, forall_pair]

theorem response_result {fs : List (String × Json)} : ∀ {r r' : Response}, fields Response.step r fs = .ok r' →
    r'.result = (match lastOf "result" fs with | none => r.result | some v => raw v) ∧
    r'.error.isSome = (match lastOf "error" fs with | none => r.error.isSome | some v => (raw v).isSome) := by
  induction fs with
  | nil => intro r r' h; simp only [fields, Res.ok.injEq] at h; subst h; simp [lastOf]
  | cons p fs ih =>
    intro r r' h
    obtain ⟨k, v⟩ := p
    simp only [fields, Res.bind_eq_ok] at h
    obtain ⟨a, ha, hs⟩ := h
    obtain ⟨i1, i2⟩ := ih hs
    have key : a.result = (if k = "result" then raw v else r.result) ∧
        a.error.isSome = (if k = "error" then (raw v).isSome else r.error.isSome) := by
      by_cases h1 : k = "id"
      · subst h1
        simp only [Response.step, if_true, Res.pure_eq, Res.bind_eq_ok, Res.ok.injEq] at ha
        obtain ⟨n, _, rfl⟩ := ha
        simp
      by_cases h2 : k = "result"
      · subst h2
        rw [Response.step_result, Res.ok.injEq] at ha
        subst ha
        simp
      by_cases h3 : k = "error"
      · subst h3
        unfold Response.step at ha
        rw [if_neg h1, if_neg h2, if_pos rfl] at ha
        split at ha
        · simp only [Res.ok.injEq] at ha; subst ha; simp [raw]
        · next hv =>
          simp only [Res.pure_eq, Res.bind_eq_ok, Res.ok.injEq] at ha
          obtain ⟨e, _, rfl⟩ := ha
          refine ⟨by simp, ?_⟩
          cases v <;> simp_all [raw]
      · unfold Response.step at ha
        rw [if_neg h1, if_neg h2, if_neg h3, Res.ok.injEq] at ha
        subst ha
        simp [h2, h3]
    rw [i1, i2, key.1, key.2]
    simp only [lastOf]
    constructor
    · cases lastOf "result" fs <;> simp
      split <;> rfl
    · cases lastOf "error" fs <;> simp
      split <;> rfl

theorem raw_none {v : Json} : raw v = none ↔ v = .null := by cases v <;> simp [raw]
theorem raw_some {v w : Json} : raw v = some w ↔ v = w ∧ w ≠ .null := by
  cases v <;> simp [raw] <;> rintro rfl <;> simp

theorem lacks_iff {k : String} {fs : List (String × Json)} :
    Lacks k fs ↔ (match lastOf k fs with | none => none | some v => raw v) = none := by
  unfold Lacks
  cases h : lastOf k fs with
  | none => simp
  | some v => simp [raw_none]

/-- What `call` returns. -/
theorem call_ok {node : Node} {c : Client} {m : Bytes} {ps : List Json} {o : Option Json} :
    (∃ r, call node c m ps = .ok r ∧ r.result = o) ↔
      (o = none ∧ Blank (node (request c m ps))) ∨ (∃ v, o = some v ∧ Gives (node (request c m ps)) v) := by
  unfold call Blank Gives
  cases hn : node (request c m ps) with
  | failed => simp
  | body v =>
    cases v with
    | obj fs =>
      simp only [asStruct, Res.pure_eq, Res.bind_eq_ok, Answer.body.injEq, reduceCtorEq, Json.obj.injEq, false_or, exists_eq_left']
      constructor
      · rintro ⟨r, ⟨a, ha, hr⟩, ho⟩
        have ht := (response_ok _ fs).1 ⟨a, ha⟩
        obtain ⟨h1, h2⟩ := response_result ha
        by_cases he : a.error.isSome
        · simp [he] at hr
        · have hr' : a = r := by simpa [he] using hr
          subst hr'
          have hl : Lacks "error" fs := by
            rw [lacks_iff]
            rw [h2] at he
            cases hh : lastOf "error" fs with
            | none => rfl
            | some v => rw [hh] at he; simpa using he
          rw [← ho, h1]
          cases hh : lastOf "result" fs with
          | none => left; exact ⟨rfl, ht, hl, Or.inl hh⟩
          | some v =>
            cases hv : raw v with
            | none => left; exact ⟨hv, ht, hl, Or.inr (by rw [hh, raw_none.1 hv])⟩
            | some w => right; obtain ⟨rfl, hw⟩ := raw_some.1 hv; exact ⟨v, hv, ht, hl, rfl, hw⟩
      · intro h
        have ht : Typed fs ∧ Lacks "error" fs := by
          rcases h with ⟨_, h1, h2, _⟩ | ⟨_, _, h1, h2, _⟩ <;> exact ⟨h1, h2⟩
        obtain ⟨a, ha⟩ := (response_ok ⟨0, none, none⟩ fs).2 ht.1
        obtain ⟨h1, h2⟩ := response_result ha
        have he : a.error.isSome = false := by
          rw [h2]
          have := lacks_iff.1 ht.2
          cases hh : lastOf "error" fs with
          | none => rfl
          | some v => rw [hh] at this; simp at this; simp [this]
        refine ⟨a, ⟨a, ha, by simp [he]⟩, ?_⟩
        rw [h1]
        rcases h with ⟨rfl, _, _, h3⟩ | ⟨v, rfl, _, _, h3, h4⟩
        · exact lacks_iff.1 h3
        · rw [h3]; exact raw_some.2 ⟨rfl, h4⟩
    | null =>
      simp only [asStruct, Res.ok_bind, Option.isSome_none, Bool.false_eq_true, if_false, Res.pure_eq, Res.ok.injEq, exists_eq_left',
        Answer.body.injEq, reduceCtorEq, false_and, exists_false, and_true, and_false, or_false]
      exact eq_comm
    | _ => simp [asStruct]

theorem call_np {node : Node} {c : Client} {m : Bytes} {ps : List Json} : call node c m ps ≠ .panic := by
  unfold call
  split
  · simp
  · rw [Ne, Res.bind_eq_panic]
    rintro (h | ⟨a, _, h⟩)
    · exact asStruct_np Response.step_np _ _ h
    · by_cases he : a.error.isSome <;> simp [he] at h

/-- A method: the call, then the decoder of its result. -/
def method {α : Type} (node : Node) (c : Client) (m : Bytes) (ps : List Json) (f : Json → Res α) : Res α := do
  let r ← call node c m ps
  unmarshal r f

theorem method_panic {α : Type} {node : Node} {c : Client} {m : Bytes} {ps : List Json} {f : Json → Res α} (hf : ∀ v, f v ≠ .panic) :
    method node c m ps f = .panic ↔ Blank (node (request c m ps)) := by
  unfold method
  rw [Res.bind_eq_panic]
  have := call_ok (node := node) (c := c) (m := m) (ps := ps) (o := none)
  simp only [true_and, reduceCtorEq, false_and, exists_false, or_false] at this
  rw [← this]
  constructor
  · rintro (h | ⟨r, h1, h2⟩)
    · exact absurd h call_np
    · refine ⟨r, h1, ?_⟩
      unfold unmarshal at h2
      split at h2
      · assumption
      · exact absurd h2 (hf _)
  · rintro ⟨r, h1, h2⟩
    exact Or.inr ⟨r, h1, by unfold unmarshal; rw [h2]⟩

theorem method_ok {α : Type} {node : Node} {c : Client} {m : Bytes} {ps : List Json} {f : Json → Res α} {a : α} :
    method node c m ps f = .ok a ↔ ∃ v, Gives (node (request c m ps)) v ∧ f v = .ok a := by
  unfold method
  rw [Res.bind_eq_ok]
  constructor
  · rintro ⟨r, h1, h2⟩
    unfold unmarshal at h2
    split at h2
    · simp at h2
    · next v hv =>
      rcases call_ok.1 ⟨r, h1, rfl⟩ with ⟨h, _⟩ | ⟨w, hw, hg⟩
      · rw [hv] at h; simp at h
      · rw [hv, Option.some.injEq] at hw; subst hw; exact ⟨v, hg, h2⟩
  · rintro ⟨v, hg, hv⟩
    obtain ⟨r, h1, h2⟩ := call_ok.2 (Or.inr ⟨v, rfl, hg⟩)
    exact ⟨r, h1, by unfold unmarshal; rw [h2]; exact hv⟩

theorem gives_unique {a : Answer} {v w : Json} (h1 : Gives a v) (h2 : Gives a w) : v = w := by
  obtain ⟨fs, rfl, _, _, h, _⟩ := h1
  obtain ⟨gs, he, _, _, h', _⟩ := h2
  simp only [Answer.body.injEq, Json.obj.injEq] at he
  subst he
  rw [h] at h'
  exact Option.some.inj h'

/-- With a result, a method is its decoder. -/
theorem method_gives {α : Type} {node : Node} {c : Client} {m : Bytes} {ps : List Json} {f : Json → Res α} {v : Json}
    (h : Gives (node (request c m ps)) v) : method node c m ps f = f v := by
  unfold method
  obtain ⟨r, h1, h2⟩ := call_ok.2 (Or.inr ⟨v, rfl, h⟩)
  rw [h1, Res.ok_bind]
  unfold unmarshal
  rw [h2]

end Toku.Rpc
