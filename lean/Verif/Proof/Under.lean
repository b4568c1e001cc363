import Verif.Proof.VM3
/-
What lies below the elements that a script uses has no influence.
-/
namespace Toku.VM
open Toku.Script Toku.Spec

/-- `y` is what `x` is, up to `g`, unless `x` is the error for a missing element. -/
def Und {β : Type} (g : β → β) (x y : Res β) : Prop := x = .err errIndex ∨ y = (x >>= fun a => .ok (g a))

theorem Und.bind {β γ : Type} {g : β → β} {h : γ → γ} {x y : Res β} {k k' : β → Res γ} (hx : Und g x y)
    (hk : ∀ a, Und h (k a) (k' (g a))) : Und h (x >>= k) (y >>= k') := by
  rcases hx with rfl | rfl
  · exact .inl rfl
  · cases x with
    | ok a => exact hk a
    | err e => exact .inr rfl
    | panic => exact .inr rfl

theorem Und.ok {β : Type} {g : β → β} (a : β) : Und g (.ok a) (.ok (g a)) := .inr rfl
theorem Und.err {β : Type} {g : β → β} (e : Err) : Und g (.err e : Res β) (.err e) := .inr rfl
theorem Und.panic {β : Type} {g : β → β} : Und g (.panic : Res β) .panic := .inr rfl

/-- A result that has nothing to do with the stack. -/
theorem Und.const {β : Type} (x : Res β) : Und id x x := by
  right
  cases x <;> rfl

/-- A value and a stack with more below. -/
abbrev onPair (α : Type) (s : Stack) : α × Stack → α × Stack := fun p => (p.1, p.2 ++ s)
/-- A stack with more below. -/
abbrev onStack (s : Stack) : Stack → Stack := fun d => d ++ s
/-- An engine with more below its stack. -/
def below (s : Stack) (vm : State) : State := ⟨vm.dstack ++ s, vm.cstack⟩

theorem nipN_und (d s : Stack) (i : ℕ) : Und (onPair Bytes s) (nipN d i) (nipN (d ++ s) i) := by
  unfold nipN
  cases h : d[i]? with
  | none => exact .inl rfl
  | some x =>
    have hlt := (List.getElem?_eq_some_iff.mp h).1
    rw [List.getElem?_append_left hlt, h]
    right
    simp [onPair, List.eraseIdx_append_of_lt_length hlt]

theorem pop_und (d s : Stack) : Und (onPair Bytes s) (pop d) (pop (d ++ s)) := nipN_und d s 0

theorem peek_und (d s : Stack) (i : ℕ) : Und id (peek d i) (peek (d ++ s) i) := by
  unfold peek
  cases h : d[i]? with
  | none => exact .inl rfl
  | some x =>
    rw [List.getElem?_append_left (List.getElem?_eq_some_iff.mp h).1, h]
    exact .inr rfl

theorem pushInt_und (d s : Stack) (v : Int) : Und (onStack s) (pushInt d v) (pushInt (d ++ s) v) :=
  (Und.const _).bind fun b => .inr rfl

theorem popInt_und (d s : Stack) : Und (onPair Int s) (popInt d) (popInt (d ++ s)) :=
  (pop_und d s).bind fun _ => (Und.const _).bind fun _ => .inr rfl

theorem popBool_und (d s : Stack) : Und (onPair Bool s) (popBool d) (popBool (d ++ s)) :=
  (pop_und d s).bind fun _ => .inr rfl

theorem dupLoop_und (n k : ℕ) (d s : Stack) : Und (onStack s) (dupLoop n k d) (dupLoop n k (d ++ s)) := by
  induction k generalizing d with
  | zero => exact .inr rfl
  | succ k ih => exact (peek_und d s _).bind fun a => ih (a :: d)

theorem dupN_und (n : ℕ) (d s : Stack) : Und (onStack s) (dupN d n) (dupN (d ++ s) n) := by
  unfold dupN
  split
  · exact .inr rfl
  · exact dupLoop_und _ _ _ _

theorem dropLoop_und (k : ℕ) (d s : Stack) : Und (onStack s) (dropN.loop k d) (dropN.loop k (d ++ s)) := by
  induction k generalizing d with
  | zero => exact .inr rfl
  | succ k ih => exact (pop_und d s).bind fun a => ih a.2

theorem dropN_und (n : ℕ) (d s : Stack) : Und (onStack s) (dropN n d) (dropN n (d ++ s)) := by
  unfold dropN
  split
  · exact .inr rfl
  · exact dropLoop_und _ _ _

theorem swapLoop_und (n k : ℕ) (d s : Stack) : Und (onStack s) (swapN.loop n k d) (swapN.loop n k (d ++ s)) := by
  induction k generalizing d with
  | zero => exact .inr rfl
  | succ k ih => exact (nipN_und d s _).bind fun a => ih (a.1 :: a.2)

theorem swapN_und (n : ℕ) (d s : Stack) : Und (onStack s) (swapN n d) (swapN n (d ++ s)) := by
  unfold swapN
  split
  · exact .inr rfl
  · exact swapLoop_und _ _ _ _

theorem equalVerify_und (d s : Stack) : Und (onStack s) (equalVerify d) (equalVerify (d ++ s)) :=
  (popBool_und d s).bind fun a => by
    dsimp only
    split
    · exact .inr rfl
    · exact .inr rfl

theorem opEqual_und (d s : Stack) : Und (onStack s) (opEqual d) (opEqual (d ++ s)) :=
  (pop_und d s).bind fun a => (pop_und a.2 s).bind fun _ => .inr rfl

theorem opHash160_und (env : Env) (d s : Stack) : Und (onStack s) (opHash160 env d) (opHash160 env (d ++ s)) :=
  (pop_und d s).bind fun _ => .inr rfl

theorem opCheckSig_und (env : Env) (d s : Stack) : Und (onStack s) (opCheckSig env d) (opCheckSig env (d ++ s)) := by
  unfold opCheckSig
  split
  · refine (pop_und d s).bind fun a => (pop_und a.2 s).bind fun b => ?_
    dsimp only
    split
    · exact .inr rfl
    · exact (Und.const _).bind fun _ => (Und.const _).bind fun _ => (Und.const _).bind fun _ => .inr rfl
  · exact .inr rfl

theorem popMany_und (n : ℕ) (d s : Stack) : Und (onPair (List Bytes) s) (popMany n d) (popMany n (d ++ s)) := by
  induction n generalizing d with
  | zero => exact .inr rfl
  | succ n ih => exact (pop_und d s).bind fun a => (ih a.2).bind fun _ => .inr rfl

theorem opCheckMultiSig_und (env : Env) (d s : Stack) :
    Und (onStack s) (opCheckMultiSig env d) (opCheckMultiSig env (d ++ s)) := by
  unfold opCheckMultiSig
  refine (popInt_und d s).bind fun a => ?_
  dsimp only
  split
  · exact .inr rfl
  · refine (popMany_und _ a.2 s).bind fun b => (popInt_und b.2 s).bind fun c => ?_
    dsimp only
    split
    · exact .inr rfl
    · split
      · exact .inr rfl
      · exact (popMany_und _ c.2 s).bind fun e => (pop_und e.2 s).bind fun f => (Und.const _).bind fun _ => .inr rfl

theorem popIfBool_und (d s : Stack) : Und (onPair Bool s) (popIfBool d) (popIfBool (d ++ s)) :=
  (pop_und d s).bind fun a => by
    dsimp only
    split
    · exact .inr rfl
    · split
      · exact .inr rfl
      · exact .inr rfl

theorem opAdd_und (d s : Stack) : Und (onStack s) (opAdd d) (opAdd (d ++ s)) :=
  (popInt_und d s).bind fun a => (popInt_und a.2 s).bind fun b => pushInt_und b.2 s _

theorem opSize_und (d s : Stack) : Und (onStack s) (opSize d) (opSize (d ++ s)) :=
  (peek_und d s 0).bind fun a => pushInt_und d s _

theorem dataOp_und (env : Env) (i : Instruction) (d s : Stack) : Und (onStack s) (dataOp env i d) (dataOp env i (d ++ s)) := by
  unfold dataOp
  split
  · exact .inr rfl
  · exact .inr rfl
  · exact pushInt_und d s _
  · exact .inr rfl
  · exact dupN_und _ d s
  · exact dupN_und _ d s
  · exact dupN_und _ d s
  · exact swapN_und _ d s
  · exact opSize_und d s
  · exact dropN_und _ d s
  · exact opEqual_und d s
  · exact (opEqual_und d s).bind fun a => equalVerify_und a s
  · exact opAdd_und d s
  · exact opHash160_und env d s
  · exact opCheckSig_und env d s
  · exact (opCheckSig_und env d s).bind fun a => equalVerify_und a s
  · exact opCheckMultiSig_und env d s
  · exact (opCheckMultiSig_und env d s).bind fun a => equalVerify_und a s
  all_goals exact .inr rfl

theorem opIf_und (neg : Bool) (vm : State) (s : Stack) : Und (below s) (opIf neg vm) (opIf neg (below s vm)) := by
  unfold opIf
  rw [show branchShouldSkip (below s vm) = branchShouldSkip vm from rfl]
  split
  · exact (popIfBool_und vm.dstack s).bind fun _ => .inr rfl
  · exact .inr rfl

theorem opElse_und (vm : State) (s : Stack) : Und (below s) (opElse vm) (opElse (below s vm)) := by
  obtain ⟨d, cs⟩ := vm
  match cs with
  | [] => exact .inr rfl
  | .yes :: r => exact .inr rfl
  | .no :: r => exact .inr rfl
  | .skip :: _ => exact .inr rfl

theorem opEndIf_und (vm : State) (s : Stack) : Und (below s) (opEndIf vm) (opEndIf (below s vm)) := by
  obtain ⟨d, cs⟩ := vm
  match cs with
  | [] => exact .inr rfl
  | _ :: r => exact .inr rfl

theorem opfunc_und (env : Env) (i : Instruction) (vm : State) (s : Stack) :
    Und (below s) (opfunc env i vm) (opfunc env i (below s vm)) := by
  unfold opfunc
  split
  · exact opIf_und _ vm s
  · exact opIf_und _ vm s
  · exact opElse_und vm s
  · exact opEndIf_und vm s
  · exact (dataOp_und env i vm.dstack s).bind fun _ => .inr rfl

theorem exec_und (env : Env) (i : Instruction) (vm : State) (s : Stack) : Und (below s) (exec env i vm) (exec env i (below s vm)) := by
  unfold exec
  rw [show branchShouldSkip (below s vm) = branchShouldSkip vm from rfl]
  split
  · exact .inr rfl
  · exact opfunc_und env i vm s

theorem runLoop_und (env : Env) (fuel : ℕ) (b : Buffer) (vm : State) (s : Stack) :
    Und (below s) (runLoop env fuel b vm) (runLoop env fuel b (below s vm)) := by
  induction fuel generalizing b vm with
  | zero => exact .inr rfl
  | succ fuel ih =>
    rw [runLoop, runLoop]
    refine (Und.const _).bind fun a => ?_
    obtain ⟨i, b⟩ := a
    cases i with
    | none => exact .inr rfl
    | some i => exact (exec_und env i vm s).bind fun vm => ih b vm

theorem execute_und (env : Env) (script : Bytes) (vm : State) (s : Stack) :
    Und (below s) (execute env script false vm) (execute env script false (below s vm)) :=
  (runLoop_und env _ _ vm s).bind fun _ => .inr rfl

end Toku.VM
