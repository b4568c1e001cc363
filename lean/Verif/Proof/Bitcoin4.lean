import Verif.Proof.Bitcoin3
/-
Comparing sets of rules, and running a script after another.
-/
namespace Toku.VM
open Toku.Script Toku.Spec Toku.Spec.Bitcoin

variable {R R' : Rules} {hash : Bytes → Bytes} {check : Bytes → Bytes → Option Bool}

theorem multi_mono (h : Stricter R R') {sigs keys : List Bytes} {b : Bool} (hm : Multi R check sigs keys b) :
    Multi R' check sigs keys b := by
  have he : ∀ {sig : Bytes}, (R.emptySigs = false → sig ≠ []) → (R'.emptySigs = false → sig ≠ []) := by
    intro sig hs h'
    refine hs ?_
    cases hr : R.emptySigs with
    | false => rfl
    | true => rw [h.2.2.2.1 hr] at h'; cases h'
  induction hm with
  | done keys => exact .done keys
  | few sigs keys hl => exact .few sigs keys hl
  | hit sig sigs key keys b hl hs hc _ ih => exact .hit _ _ _ _ _ hl (he hs) hc ih
  | miss sig sigs key keys b hl hs hc _ ih => exact .miss _ _ _ _ _ hl (he hs) hc ih

theorem numIn_mono (h : Stricter R R') {v : Bytes} {n : Int} (hn : NumIn R v n) : NumIn R' v n :=
  ⟨hn.1, fun e => hn.2.1 (h.2.1 e), hn.2.2⟩

theorem op_mono (h : Stricter R R') {t : Token} {s s' : Stack} {k : ℕ} (ho : Op R hash check t s s' k) : Op R' hash check t s s' k := by
  cases ho with
  | push _ _ h0 => exact .push _ _ h0
  | negate => exact .negate ..
  | num _ _ h1 h2 => exact .num _ _ h1 h2
  | ret d _ hr =>
    refine .ret _ _ ?_
    cases hr' : R'.returnFails with
    | false => rfl
    | true => rw [h.2.2.2.2.1 hr'] at hr; cases hr
  | dup2 => exact .dup2 ..
  | dup3 => exact .dup3 ..
  | drop => exact .drop ..
  | dup => exact .dup ..
  | swap => exact .swap ..
  | size d a s r hn => exact .size _ _ _ _ hn
  | equal => exact .equal ..
  | equalVerify => exact .equalVerify ..
  | add d a b s m n r h1 h2 h3 => exact .add _ _ _ _ _ _ _ (numIn_mono h h1) (numIn_mono h h2) h3
  | hash => exact .hash ..
  | checkSig d key sig s b hc => exact .checkSig _ _ _ _ _ hc
  | checkSigVerify d key sig s hc => exact .checkSigVerify _ _ _ _ hc
  | multi d x keys y sigs dm s b hx hy hl hk hn hm =>
    exact .multi _ _ _ _ _ _ _ _ (numIn_mono h hx) (numIn_mono h hy) hl (fun e => hk (h.1 e)) (fun e => hn (h.2.2.2.2.2 e)) (multi_mono h hm)
  | multiVerify d x keys y sigs dm s hx hy hl hk hn hm =>
    exact .multiVerify _ _ _ _ _ _ _ (numIn_mono h hx) (numIn_mono h hy) hl (fun e => hk (h.1 e)) (fun e => hn (h.2.2.2.2.2 e)) (multi_mono h hm)

theorem act_mono (h : Stricter R R') {t : Token} {s s' : Stack} {e e' : List Bool} {k : ℕ} (ha : Act R hash check t s e s' e' k) :
    Act R' hash check t s e s' e' k := by
  cases ha with
  | run _ _ _ _ _ hc ha ho => exact .run _ _ _ _ _ hc ha (op_mono h ho)
  | skip _ _ _ hc ha => exact .skip _ _ _ hc ha
  | ifTrue d a _ _ ha hm ht => exact .ifTrue _ _ _ _ ha (fun e => hm (h.2.2.1 e)) ht
  | ifFalse d a _ _ ha hm ht => exact .ifFalse _ _ _ _ ha (fun e => hm (h.2.2.1 e)) ht
  | notifTrue d a _ _ ha hm ht => exact .notifTrue _ _ _ _ ha (fun e => hm (h.2.2.1 e)) ht
  | notifFalse d a _ _ ha hm ht => exact .notifFalse _ _ _ _ ha (fun e => hm (h.2.2.1 e)) ht
  | ifSkipped _ _ _ ho ha => exact .ifSkipped _ _ _ ho ha
  | els => exact .els ..
  | endif => exact .endif ..

theorem eval_mono (h : Stricter R R') {ts : List Token} {a b : Bitcoin.State} (he : Eval R hash check ts a b) : Eval R' hash check ts a b := by
  induction he with
  | nil st => exact .nil st
  | cons t ts s e n s' e' k st ha hl _ ih => exact .cons _ _ _ _ _ _ _ _ _ (act_mono h ha) (fun e => hl (h.1 e)) ih

theorem evalScript_mono (h : Stricter R R') {ts : List Token} {s s' : Stack} (he : EvalScript R hash check ts s s') :
    EvalScript R' hash check ts s s' := by
  obtain ⟨hl, n, hn⟩ := he
  exact ⟨fun e => hl (h.1 e), n, eval_mono h hn⟩

/-- Without OP_RETURN it makes no difference whether that fails. -/
theorem eval_noReturn {ts : List Token} {a b : Bitcoin.State} (hr : ∀ t ∈ ts, t.op ≠ 0x6a) (he : Eval R hash check ts a b) (f : Bool) :
    Eval { R with returnFails := f } hash check ts a b := by
  induction he with
  | nil st => exact .nil st
  | cons t ts s e n s' e' k st ha hl _ ih =>
    refine .cons _ _ _ _ _ _ _ _ _ ?_ hl (ih fun x hx => hr x (List.mem_cons_of_mem _ hx))
    have ht := hr t List.mem_cons_self
    have hstr : Stricter { R with returnFails := true } { R with returnFails := f } :=
      ⟨id, id, id, id, fun _ => rfl, id⟩
    refine act_mono hstr ?_
    have mm : ∀ {sigs keys : List Bytes} {b : Bool}, Multi R check sigs keys b → Multi { R with returnFails := true } check sigs keys b := by
      intro sigs keys b hm
      induction hm with
      | done keys => exact .done keys
      | few sigs keys hl => exact .few sigs keys hl
      | hit sig sigs key keys b hl hs hc _ ih => exact .hit _ _ _ _ _ hl hs hc ih
      | miss sig sigs key keys b hl hs hc _ ih => exact .miss _ _ _ _ _ hl hs hc ih
    cases ha with
    | run _ _ _ _ _ hc ha ho =>
      refine .run _ _ _ _ _ hc ha ?_
      cases ho with
      | push _ _ h0 => exact .push _ _ h0
      | negate => exact .negate ..
      | num _ _ h1 h2 => exact .num _ _ h1 h2
      | ret => exact absurd rfl ht
      | dup2 => exact .dup2 ..
      | dup3 => exact .dup3 ..
      | drop => exact .drop ..
      | dup => exact .dup ..
      | swap => exact .swap ..
      | size d a s r hn => exact .size _ _ _ _ hn
      | equal => exact .equal ..
      | equalVerify => exact .equalVerify ..
      | add d a b s m n r h1 h2 h3 => exact .add _ _ _ _ _ _ _ h1 h2 h3
      | hash => exact .hash ..
      | checkSig d key sig s b hq => exact .checkSig _ _ _ _ _ hq
      | checkSigVerify d key sig s hq => exact .checkSigVerify _ _ _ _ hq
      | multi d x keys y sigs dm s b hx hy hq hk hn hm => exact .multi _ _ _ _ _ _ _ _ hx hy hq hk hn (mm hm)
      | multiVerify d x keys y sigs dm s hx hy hq hk hn hm => exact .multiVerify _ _ _ _ _ _ _ hx hy hq hk hn (mm hm)
    | skip _ _ _ hc ha => exact .skip _ _ _ hc ha
    | ifTrue d a _ _ h1 h2 h3 => exact .ifTrue _ _ _ _ h1 h2 h3
    | ifFalse d a _ _ h1 h2 h3 => exact .ifFalse _ _ _ _ h1 h2 h3
    | notifTrue d a _ _ h1 h2 h3 => exact .notifTrue _ _ _ _ h1 h2 h3
    | notifFalse d a _ _ h1 h2 h3 => exact .notifFalse _ _ _ _ h1 h2 h3
    | ifSkipped _ _ _ ho ha => exact .ifSkipped _ _ _ ho ha
    | els => exact .els ..
    | endif => exact .endif ..

/-- Without limits the count of opcodes may start anywhere. -/
theorem eval_shift (hl : R.limits = false) {ts : List Token} {a b : Bitcoin.State} (he : Eval R hash check ts a b) (n : ℕ) :
    ∃ n', Eval R hash check ts ⟨a.stack, a.exec, n⟩ ⟨b.stack, b.exec, n'⟩ := by
  induction he generalizing n with
  | nil st => exact ⟨n, .nil _⟩
  | cons t ts s e m s' e' k st ha _ _ ih =>
    obtain ⟨n', h⟩ := ih (n + (if 0x60 < t.op.toNat then 1 else 0) + k)
    exact ⟨n', .cons _ _ _ _ _ _ _ _ _ ha (fun h => by rw [hl] at h; cases h) h⟩

/-- The first token of an evaluation in no conditional, if it is not for conditionals. -/
theorem eval_op {t : Token} {ts : List Token} {s : Stack} {n : ℕ} {st : Bitcoin.State} (hc : ¬ isCond t.op)
    (he : Eval R hash check (t :: ts) ⟨s, [], n⟩ st) : ∃ s' k, Op R hash check t s s' k ∧
      (R.limits = true → t.data.length ≤ 520 ∧ s'.length ≤ 1000 ∧ n + (if 0x60 < t.op.toNat then 1 else 0) + k ≤ 201) ∧
      Eval R hash check ts ⟨s', [], n + (if 0x60 < t.op.toNat then 1 else 0) + k⟩ st := by
  cases he with
  | cons _ _ _ _ _ s' e' k _ ha hl h =>
    cases ha with
    | run _ _ _ _ _ _ _ ho => exact ⟨s', k, ho, hl, h⟩
    | skip _ _ _ _ hb => obtain ⟨_, hb, _⟩ := hb; cases hb
    | ifTrue => exact absurd (Or.inl rfl) hc
    | ifFalse => exact absurd (Or.inl rfl) hc
    | notifTrue => exact absurd (Or.inr (Or.inl rfl)) hc
    | notifFalse => exact absurd (Or.inr (Or.inl rfl)) hc
    | ifSkipped _ _ _ _ hb => obtain ⟨_, hb, _⟩ := hb; cases hb

theorem eval_nil {a b : Bitcoin.State} (h : Eval R hash check [] a b) : b = a := by cases h; rfl

end Toku.VM
