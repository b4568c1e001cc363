import Verif.Proof.Bitcoin
/-
The engine follows the rules `library` of Spec/Bitcoin.lean: one opcode.
-/
namespace Toku.VM
open Toku.Spec Toku.Script
open Toku.Spec.Bitcoin (Rules NumIn NumOut NumMinimal numValue Truthy ofBool Multi Op Act Eval isCond library)

section inversion
variable {R : Rules} {hash : Bytes → Bytes} {check : Bytes → Bytes → Option Bool} {t : Token} {s s' : Stack} {k : ℕ}

/-- Leaves the constructors that can have made the opcode with number `n`. -/
macro "op_inv" h:ident hn:ident : tactic =>
  `(tactic| (cases $h:ident <;> first | (exfalso; omega) | (exfalso; dsimp only at $hn:ident; exact absurd $hn (by decide)) | skip))

theorem op_push (h : Op R hash check t s s' k) (hn : t.op.toNat ≤ 0x4e) : s' = t.data :: s ∧ k = 0 := by
  cases h <;> first | exact ⟨rfl, rfl⟩ | (exfalso; omega) | (exfalso; dsimp only at hn; exact absurd hn (by decide))

theorem op_negate (h : Op R hash check t s s' k) (hn : t.op.toNat = 0x4f) : s' = [0x81] :: s ∧ k = 0 := by
  op_inv h hn
  exact ⟨rfl, rfl⟩

theorem op_num (h : Op R hash check t s s' k) (h1 : 0x51 ≤ t.op.toNat) (h2 : t.op.toNat ≤ 0x60) :
    s' = [UInt8.ofNat (t.op.toNat - 0x50)] :: s ∧ k = 0 := by
  cases h <;> first | exact ⟨rfl, rfl⟩ | (exfalso; omega) | (exfalso; dsimp only at h2; exact absurd h2 (by decide)) | (exfalso; dsimp only at h1; exact absurd h1 (by decide))

theorem op_ret (h : Op R hash check t s s' k) (hn : t.op.toNat = 0x6a) : R.returnFails = false ∧ s' = s ∧ k = 0 := by
  op_inv h hn
  exact ⟨by assumption, rfl, rfl⟩

theorem op_dup2 (h : Op R hash check t s s' k) (hn : t.op.toNat = 0x6e) :
    ∃ a b r, s = a :: b :: r ∧ s' = a :: b :: a :: b :: r ∧ k = 0 := by
  op_inv h hn
  exact ⟨_, _, _, rfl, rfl, rfl⟩

theorem op_dup3 (h : Op R hash check t s s' k) (hn : t.op.toNat = 0x6f) :
    ∃ a b c r, s = a :: b :: c :: r ∧ s' = a :: b :: c :: a :: b :: c :: r ∧ k = 0 := by
  op_inv h hn
  exact ⟨_, _, _, _, rfl, rfl, rfl⟩

theorem op_drop (h : Op R hash check t s s' k) (hn : t.op.toNat = 0x75) : ∃ a, s = a :: s' ∧ k = 0 := by
  op_inv h hn
  exact ⟨_, rfl, rfl⟩

theorem op_dup (h : Op R hash check t s s' k) (hn : t.op.toNat = 0x76) : ∃ a r, s = a :: r ∧ s' = a :: a :: r ∧ k = 0 := by
  op_inv h hn
  exact ⟨_, _, rfl, rfl, rfl⟩

theorem op_swap (h : Op R hash check t s s' k) (hn : t.op.toNat = 0x7c) : ∃ a b r, s = a :: b :: r ∧ s' = b :: a :: r ∧ k = 0 := by
  op_inv h hn
  exact ⟨_, _, _, rfl, rfl, rfl⟩

theorem op_size (h : Op R hash check t s s' k) (hn : t.op.toNat = 0x82) :
    ∃ a r x, s = a :: r ∧ s' = x :: a :: r ∧ NumOut x a.length ∧ k = 0 := by
  op_inv h hn
  exact ⟨_, _, _, rfl, rfl, by assumption, rfl⟩

theorem op_equal (h : Op R hash check t s s' k) (hn : t.op.toNat = 0x87) :
    ∃ a b r, s = a :: b :: r ∧ s' = ofBool (decide (a = b)) :: r ∧ k = 0 := by
  op_inv h hn
  exact ⟨_, _, _, rfl, rfl, rfl⟩

theorem op_equalVerify (h : Op R hash check t s s' k) (hn : t.op.toNat = 0x88) : ∃ a, s = a :: a :: s' ∧ k = 0 := by
  op_inv h hn
  exact ⟨_, rfl, rfl⟩

theorem op_add (h : Op R hash check t s s' k) (hn : t.op.toNat = 0x93) :
    ∃ a b r m n x, s = a :: b :: r ∧ NumIn R a m ∧ NumIn R b n ∧ NumOut x (m + n) ∧ s' = x :: r ∧ k = 0 := by
  op_inv h hn
  exact ⟨_, _, _, _, _, _, rfl, by assumption, by assumption, by assumption, rfl, rfl⟩

theorem op_hash (h : Op R hash check t s s' k) (hn : t.op.toNat = 0xa9) : ∃ a r, s = a :: r ∧ s' = hash a :: r ∧ k = 0 := by
  op_inv h hn
  exact ⟨_, _, rfl, rfl, rfl⟩

theorem op_checkSig (h : Op R hash check t s s' k) (hn : t.op.toNat = 0xac) :
    ∃ key sig r b, s = key :: sig :: r ∧ check sig key = some b ∧ s' = ofBool b :: r ∧ k = 0 := by
  op_inv h hn
  exact ⟨_, _, _, _, rfl, by assumption, rfl, rfl⟩

theorem op_checkSigVerify (h : Op R hash check t s s' k) (hn : t.op.toNat = 0xad) :
    ∃ key sig, s = key :: sig :: s' ∧ check sig key = some true ∧ k = 0 := by
  op_inv h hn
  exact ⟨_, _, rfl, by assumption, rfl⟩

theorem op_multi (h : Op R hash check t s s' k) (hn : t.op.toNat = 0xae) :
    ∃ x keys y sigs d r b, s = x :: (keys ++ y :: (sigs ++ d :: r)) ∧ NumIn R x keys.length ∧ NumIn R y sigs.length ∧
      sigs.length ≤ keys.length ∧ (R.limits = true → keys.length ≤ 20) ∧ (R.nullDummy = true → d = []) ∧ Multi R check sigs keys b ∧ s' = ofBool b :: r ∧
      k = keys.length := by
  op_inv h hn
  exact ⟨_, _, _, _, _, _, _, rfl, by assumption, by assumption, by assumption, by assumption, by assumption, by assumption, rfl, rfl⟩

theorem op_multiVerify (h : Op R hash check t s s' k) (hn : t.op.toNat = 0xaf) :
    ∃ x keys y sigs d, s = x :: (keys ++ y :: (sigs ++ d :: s')) ∧ NumIn R x keys.length ∧ NumIn R y sigs.length ∧
      sigs.length ≤ keys.length ∧ (R.limits = true → keys.length ≤ 20) ∧ (R.nullDummy = true → d = []) ∧ Multi R check sigs keys true ∧ k = keys.length := by
  op_inv h hn
  exact ⟨_, _, _, _, _, rfl, by assumption, by assumption, by assumption, by assumption, by assumption, by assumption, rfl⟩

end inversion

theorem opEqual_cons (a b : Bytes) (r : Stack) : opEqual (a :: b :: r) = .ok (ofBool (decide (a = b)) :: r) := by
  show Res.ok (boolBytes (a == b) :: r) = _
  rw [beq_eq_decide]
  rfl

/-- **One opcode.** The engine's handler does exactly what the rules allow. -/
theorem dataOp_iff (env : Env) {t : Token} (hv : t.Valid) (hc : ¬ isCond t.op) {s : Stack} (hs : Small s) (s' : Stack) :
    dataOp env (instrOf t) s = .ok s' ↔ ∃ k, Op library env.hash160 (checkOf env) t s s' k := by
  obtain ⟨op, d⟩ := t
  obtain ⟨o, ho, _⟩ := opcodes_some op hv.1
  have hi : instrOf ⟨op, d⟩ = ⟨o, d⟩ := by simp [instrOf, ho]
  obtain ⟨f0, f1, f2, f3, _⟩ := fn_table op hv.1 o ho
  rcases supported_cases op hv.1 with h | ⟨h, h'⟩ | ⟨h, h'⟩ | h | h | h | h | h | h | h | h | h | h | h | h | h | h | h | h | h | h | h
  · -- OP_0
    have hd : d = [] := by
      have := hv.2
      rw [if_neg (by show ¬ Direct op; rw [h]; decide)] at this
      have e : lenWidth op = 0 := by rw [h]; decide
      dsimp only at this
      rw [e, pow_zero] at this
      exact List.length_eq_zero_iff.mp (by omega)
    rw [hi]
    unfold dataOp
    dsimp only
    rw [f1 h]
    dsimp only
    have hn : (⟨op, d⟩ : Token).op.toNat ≤ 0x4e := by
      show op.toNat ≤ 0x4e
      rw [h]; decide
    constructor
    · intro e
      rw [← Res.ok.inj e]
      have := Op.push (R := library) (hash160 := env.hash160) (check := checkOf env) ⟨op, d⟩ s hn
      rw [hd] at this ⊢
      exact ⟨0, this⟩
    · rintro ⟨k, e⟩
      rw [(op_push e hn).1, hd]
  · rw [hi]
    unfold dataOp
    dsimp only
    rw [f2 h h']
    dsimp only
    constructor
    · intro e
      rw [← Res.ok.inj e]
      exact ⟨0, .push ⟨op, d⟩ s h'⟩
    · rintro ⟨k, e⟩
      rw [(op_push e h').1]
  · rw [hi]
    unfold dataOp
    dsimp only
    rw [f3 h h', f0]
    dsimp only
    have hsub : (op - 0x50).toNat = op.toNat - 0x50 := by
      rw [UInt8.toNat_sub_of_le _ _ (by rw [UInt8.le_iff_toNat_le]; show 0x50 ≤ op.toNat; omega)]
      rfl
    have hnum : NumOut [UInt8.ofNat (op.toNat - 0x50)] ((op - 0x50).toNat : Int) := by
      rw [hsub]
      have hr : op.toNat - 0x50 < 128 ∧ 0 < op.toNat - 0x50 := by omega
      have e : (UInt8.ofNat (op.toNat - 0x50)).toNat = op.toNat - 0x50 := by
        rw [UInt8.toNat_ofNat']; omega
      refine ⟨Or.inr ⟨[], _, rfl, Or.inl (by rw [e]; omega)⟩, ?_⟩
      unfold numValue
      simp only [List.getLast?_singleton, List.dropLast_singleton, List.length_singleton, Nat.sub_self, pow_zero, one_mul]
      rw [e, if_pos hr.1, Nat.mod_eq_of_lt hr.1]
      simp [leNat]
    have hb : ∀ n : ℕ, n < 256 → -2^63 < (n : Int) ∧ (n : Int) < 2^63 := by omega
    obtain ⟨b1, b2⟩ := hb _ (op - 0x50).toNat_lt
    constructor
    · intro e
      have e2 := (pushInt_iff b1 b2 s _).mpr ⟨_, hnum, rfl⟩
      rw [e] at e2
      cases Res.ok.inj e2
      exact ⟨0, .num ⟨op, d⟩ s h h'⟩
    · rintro ⟨k, e⟩
      rw [(op_num e h h').1]
      exact (pushInt_iff b1 b2 s _).mpr ⟨_, hnum, rfl⟩
  · exact absurd (Or.inl h) hc
  · exact absurd (Or.inr (Or.inl h)) hc
  · exact absurd (Or.inr (Or.inr (Or.inl h))) hc
  · exact absurd (Or.inr (Or.inr (Or.inr h))) hc
  · subst h
    change Res.ok s = .ok s' ↔ _
    constructor
    · intro e
      cases Res.ok.inj e
      exact ⟨0, .ret d s rfl⟩
    · rintro ⟨k, e⟩
      rw [(op_ret e rfl).2.1]
  · subst h
    change dupN s 2 = .ok s' ↔ _
    constructor
    · intro e
      match s, e with
      | [], e => cases e
      | [a], e => cases e
      | a :: b :: r, e => cases Res.ok.inj e; exact ⟨0, .dup2 d a b r⟩
    · rintro ⟨k, e⟩
      obtain ⟨a, b, r, rfl, rfl, _⟩ := op_dup2 e rfl
      rfl
  · subst h
    change dupN s 3 = .ok s' ↔ _
    constructor
    · intro e
      match s, e with
      | [], e => cases e
      | [a], e => cases e
      | [a, b], e => cases e
      | a :: b :: c :: r, e => cases Res.ok.inj e; exact ⟨0, .dup3 d a b c r⟩
    · rintro ⟨k, e⟩
      obtain ⟨a, b, c, r, rfl, rfl, _⟩ := op_dup3 e rfl
      rfl
  · subst h
    change dropN 1 s = .ok s' ↔ _
    constructor
    · intro e
      match s, e with
      | [], e => cases e
      | a :: r, e => cases Res.ok.inj e; exact ⟨0, .drop d a r⟩
    · rintro ⟨k, e⟩
      obtain ⟨a, rfl, _⟩ := op_drop e rfl
      rfl
  · subst h
    change dupN s 1 = .ok s' ↔ _
    constructor
    · intro e
      match s, e with
      | [], e => cases e
      | a :: r, e => cases Res.ok.inj e; exact ⟨0, .dup d a r⟩
    · rintro ⟨k, e⟩
      obtain ⟨a, r, rfl, rfl, _⟩ := op_dup e rfl
      rfl
  · subst h
    change swapN 1 s = .ok s' ↔ _
    constructor
    · intro e
      match s, e with
      | [], e => cases e
      | [a], e => cases e
      | a :: b :: r, e => cases Res.ok.inj e; exact ⟨0, .swap d a b r⟩
    · rintro ⟨k, e⟩
      obtain ⟨a, b, r, rfl, rfl, _⟩ := op_swap e rfl
      rfl
  · subst h
    change opSize s = .ok s' ↔ _
    cases s with
    | nil =>
      constructor
      · intro e; cases e
      · rintro ⟨k, e⟩
        obtain ⟨a, r, x, h, _⟩ := op_size e rfl
        cases h
    | cons a r =>
      have hb := hs a List.mem_cons_self
      have b1 : -2^63 < ((a.length : ℕ) : Int) := by omega
      have b2 : ((a.length : ℕ) : Int) < 2^63 := by omega
      have e0 : opSize (a :: r) = pushInt (a :: r) a.length := rfl
      rw [e0, pushInt_iff b1 b2]
      constructor
      · rintro ⟨x, hx, rfl⟩
        exact ⟨0, .size d a r x hx⟩
      · rintro ⟨k, e⟩
        obtain ⟨a', r', x, h, rfl, hx, _⟩ := op_size e rfl
        cases h
        exact ⟨x, hx, rfl⟩
  · subst h
    change opEqual s = .ok s' ↔ _
    constructor
    · intro e
      match s, e with
      | [], e => cases e
      | [a], e => cases e
      | a :: b :: r, e =>
        rw [opEqual_cons] at e
        rw [← Res.ok.inj e]
        exact ⟨0, .equal d a b r⟩
    · rintro ⟨k, e⟩
      obtain ⟨a, b, r, rfl, rfl, _⟩ := op_equal e rfl
      exact opEqual_cons a b r
  · subst h
    change (opEqual s >>= equalVerify) = .ok s' ↔ _
    constructor
    · intro e
      match s, e with
      | [], e => cases e
      | [a], e => cases e
      | a :: b :: r, e =>
        rw [show opEqual (a :: b :: r) = .ok (boolBytes (a == b) :: r) from rfl, Res.ok_bind, equalVerify_iff,
          asBool_boolBytes, beq_iff_eq] at e
        obtain ⟨rfl, rfl⟩ := e
        exact ⟨0, .equalVerify d a _⟩
    · rintro ⟨k, e⟩
      obtain ⟨a, rfl, _⟩ := op_equalVerify e rfl
      rw [show opEqual (a :: a :: s') = .ok (boolBytes (a == a) :: s') from rfl, Res.ok_bind, equalVerify_iff,
        asBool_boolBytes, beq_iff_eq]
      exact ⟨rfl, rfl⟩
  · subst h
    change opAdd s = .ok s' ↔ _
    unfold opAdd
    constructor
    · intro e
      rw [Res.bind_eq_ok] at e
      obtain ⟨⟨m, s1⟩, h1, e⟩ := e
      obtain ⟨a, rfl, ha⟩ := (popInt_iff _ _ _).mp h1
      dsimp only at e
      rw [Res.bind_eq_ok] at e
      obtain ⟨⟨n, s2⟩, h2, e⟩ := e
      obtain ⟨b, rfl, hb⟩ := (popInt_iff _ _ _).mp h2
      dsimp only at e
      have r1 := numIn_range ha
      have r2 := numIn_range hb
      obtain ⟨x, hx, rfl⟩ := (pushInt_iff (by omega) (by omega) _ _).mp e
      exact ⟨0, .add d a b s2 m n x ha hb hx⟩
    · rintro ⟨k, e⟩
      obtain ⟨a, b, r, m, n, x, rfl, ha, hb, hx, rfl, _⟩ := op_add e rfl
      rw [(popInt_iff _ _ _).mpr ⟨a, rfl, ha⟩, Res.ok_bind]
      dsimp only
      rw [(popInt_iff _ _ _).mpr ⟨b, rfl, hb⟩, Res.ok_bind]
      have r1 := numIn_range ha
      have r2 := numIn_range hb
      exact (pushInt_iff (by omega) (by omega) _ _).mpr ⟨x, hx, rfl⟩
  · subst h
    change opHash160 env s = .ok s' ↔ _
    constructor
    · intro e
      match s, e with
      | [], e => cases e
      | a :: r, e => cases Res.ok.inj e; exact ⟨0, .hash d a r⟩
    · rintro ⟨k, e⟩
      obtain ⟨a, r, rfl, rfl, _⟩ := op_hash e rfl
      rfl
  · subst h
    change opCheckSig env s = .ok s' ↔ _
    rw [opCheckSig_iff]
    constructor
    · rintro ⟨key, sig, r, b, rfl, hb, rfl⟩
      exact ⟨0, .checkSig d key sig r b hb⟩
    · rintro ⟨k, e⟩
      obtain ⟨key, sig, r, b, h1, h2, h3, _⟩ := op_checkSig e rfl
      exact ⟨key, sig, r, b, h1, h2, h3⟩
  · subst h
    change (opCheckSig env s >>= equalVerify) = .ok s' ↔ _
    rw [Res.bind_eq_ok]
    constructor
    · rintro ⟨q, h1, h2⟩
      obtain ⟨key, sig, r, b, rfl, hb, rfl⟩ := (opCheckSig_iff env s q).mp h1
      obtain ⟨h3, rfl⟩ := (equalVerify_iff _ _ _).mp h2
      have : b = true := by rw [← asBool_boolBytes b]; exact h3
      subst this
      exact ⟨0, .checkSigVerify d key sig _ hb⟩
    · rintro ⟨k, e⟩
      obtain ⟨key, sig, rfl, hb, _⟩ := op_checkSigVerify e rfl
      exact ⟨_, (opCheckSig_iff env _ _).mpr ⟨key, sig, s', true, rfl, hb, rfl⟩, (equalVerify_iff _ _ _).mpr ⟨rfl, rfl⟩⟩
  · subst h
    change opCheckMultiSig env s = .ok s' ↔ _
    rw [opCheckMultiSig_iff]
    constructor
    · rintro ⟨x, keys, y, sigs, dm, r, b, rfl, hx, hy, hl, hm, rfl⟩
      exact ⟨_, .multi d x keys y sigs dm r b hx hy hl (fun h => nomatch h) (fun h => nomatch h) hm⟩
    · rintro ⟨k, e⟩
      obtain ⟨x, keys, y, sigs, dm, r, b, h1, hx, hy, hl, _, _, hm, h2, _⟩ := op_multi e rfl
      exact ⟨x, keys, y, sigs, dm, r, b, h1, hx, hy, hl, hm, h2⟩
  · subst h
    change (opCheckMultiSig env s >>= equalVerify) = .ok s' ↔ _
    rw [Res.bind_eq_ok]
    constructor
    · rintro ⟨q, h1, h2⟩
      obtain ⟨x, keys, y, sigs, dm, r, b, rfl, hx, hy, hl, hm, rfl⟩ := (opCheckMultiSig_iff env s q).mp h1
      obtain ⟨h3, rfl⟩ := (equalVerify_iff _ _ _).mp h2
      have : b = true := by rw [← asBool_boolBytes b]; exact h3
      subst this
      exact ⟨_, .multiVerify d x keys y sigs dm _ hx hy hl (fun h => nomatch h) (fun h => nomatch h) hm⟩
    · rintro ⟨k, e⟩
      obtain ⟨x, keys, y, sigs, dm, rfl, hx, hy, hl, _, _, hm, _⟩ := op_multiVerify e rfl
      exact ⟨_, (opCheckMultiSig_iff env _ _).mpr ⟨x, keys, y, sigs, dm, s', true, rfl, hx, hy, hl, hm, rfl⟩,
        (equalVerify_iff _ _ _).mpr ⟨rfl, rfl⟩⟩

/-! ### Conditionals -/

/-- The control stack of the engine and the branches selected: a conditional inside a branch that is not selected is
`skip`, whatever its own branch. -/
inductive Conds : List Cond → List Bool → Prop
  | nil : Conds [] []
  | yes (cs e) : (∀ b ∈ e, b = true) → Conds cs e → Conds (.yes :: cs) (true :: e)
  | no (cs e) : (∀ b ∈ e, b = true) → Conds cs e → Conds (.no :: cs) (false :: e)
  | skip (cs e b) : (∃ b ∈ e, b = false) → Conds cs e → Conds (.skip :: cs) (b :: e)

theorem all_or (e : List Bool) : (∀ b ∈ e, b = true) ∨ ∃ b ∈ e, b = false := by
  by_cases h : ∃ b ∈ e, b = false
  · exact Or.inr h
  · refine Or.inl fun b hb => ?_
    cases b with
    | true => rfl
    | false => exact absurd ⟨false, hb, rfl⟩ h

theorem not_both {e : List Bool} (h1 : ∀ b ∈ e, b = true) (h2 : ∃ b ∈ e, b = false) : False := by
  obtain ⟨b, hb, rfl⟩ := h2
  cases h1 _ hb

theorem conds_taken {cs : List Cond} {e : List Bool} (h : Conds cs e) (s : Stack) (ha : ∀ b ∈ e, b = true) :
    branchShouldSkip ⟨s, cs⟩ = false := by
  cases h with
  | nil => rfl
  | yes => rfl
  | no => exact absurd (ha false List.mem_cons_self) (by decide)
  | skip cs e b hb =>
    obtain ⟨c, hc, rfl⟩ := hb
    exact absurd (ha false (List.mem_cons_of_mem _ hc)) (by decide)

theorem conds_skipped {cs : List Cond} {e : List Bool} (h : Conds cs e) (s : Stack) (ha : ∃ b ∈ e, b = false) :
    branchShouldSkip ⟨s, cs⟩ = true := by
  cases h with
  | nil => obtain ⟨_, h, _⟩ := ha; cases h
  | yes cs e hb =>
    obtain ⟨c, hc, rfl⟩ := ha
    rcases List.mem_cons.mp hc with h | h
    · cases h
    · cases hb _ h
  | no => rfl
  | skip => rfl

theorem cond_true {t : Token} (h : Supported t.op) (hc : isCond t.op) : (instrOf t).isConditional = true := by
  unfold Instruction.isConditional
  rw [instrOf_value h]
  rcases hc with h | h | h | h <;> rw [h] <;> rfl

theorem cond_false {t : Token} (h : Supported t.op) (hc : ¬ isCond t.op) : (instrOf t).isConditional = false := by
  unfold Instruction.isConditional
  rw [instrOf_value h]
  unfold isCond at hc
  push Not at hc
  simp [hc]

theorem popIfBool_iff (s : Stack) (b : Bool) (r : Stack) : popIfBool s = .ok (b, r) ↔
    ∃ a, s = a :: r ∧ (a = [] ∨ a = [1]) ∧ (b = true ↔ Truthy a) := by
  cases s with
  | nil => simp [popIfBool, pop, nipN]
  | cons a t =>
    unfold popIfBool
    rw [show pop (a :: t) = .ok (a, t) from rfl, Res.ok_bind]
    dsimp only
    match a with
    | [] =>
      rw [if_neg (by simp), if_neg (by simp)]
      constructor
      · intro h
        cases Res.ok.inj h
        exact ⟨[], rfl, Or.inl rfl, by rw [← asBool_iff]⟩
      · rintro ⟨x, e, _, hb⟩
        cases e
        rw [← asBool_iff] at hb
        rw [show b = asBool [] from Bool.eq_iff_iff.mpr hb]
    | [x] =>
      rw [if_neg (by simp)]
      by_cases hx : x = 1
      · subst hx
        rw [if_neg (by simp)]
        constructor
        · intro h
          cases Res.ok.inj h
          exact ⟨[1], rfl, Or.inr rfl, by rw [← asBool_iff]⟩
        · rintro ⟨y, e, _, hb⟩
          cases e
          rw [← asBool_iff] at hb
          rw [show b = asBool [1] from Bool.eq_iff_iff.mpr hb]
      · rw [if_pos ⟨rfl, by simpa using hx⟩]
        constructor
        · intro h; cases h
        · rintro ⟨y, e, h | h, _⟩
          · cases e; cases h
          · cases e; cases h; exact absurd rfl hx
    | x :: y :: z =>
      rw [if_pos (by simp)]
      constructor
      · intro h; cases h
      · rintro ⟨w, e, h | h, _⟩
        · cases e; cases h
        · cases e; cases h

section step
variable {env : Env} {cs : List Cond} {e : List Bool} {s : Stack}

theorem exec_plain (hv : Supported t.op) (hc : ¬ isCond t.op) (hb : branchShouldSkip ⟨s, cs⟩ = false) {r : Res State}  :
    exec env (instrOf t) ⟨s, cs⟩ = r ↔ (dataOp env (instrOf t) s >>= fun s' => .ok ⟨s', cs⟩) = r := by
  have hne : (instrOf t).op.fn ≠ .opIf ∧ (instrOf t).op.fn ≠ .opNotIf ∧ (instrOf t).op.fn ≠ .opElse ∧ (instrOf t).op.fn ≠ .opEndIf := by
    obtain ⟨o, ho, _⟩ := opcodes_some t.op hv
    have hi : instrOf t = ⟨o, t.data⟩ := by simp [instrOf, ho]
    have key : ∀ op : UInt8, ¬ (op = 0x63 ∨ op = 0x64 ∨ op = 0x67 ∨ op = 0x68) → (opcodes op).all (fun o =>
        decide (o.fn ≠ .opIf ∧ o.fn ≠ .opNotIf ∧ o.fn ≠ .opElse ∧ o.fn ≠ .opEndIf)) = true := by
      apply Base58.forall_uint8; decide +kernel
    have := key t.op hc
    rw [ho, Option.all_some, decide_eq_true_eq] at this
    rw [hi]
    exact this
  unfold exec
  rw [hb, Bool.false_and, if_neg (by simp)]
  obtain ⟨h1, h2, h3, h4⟩ := hne
  unfold opfunc
  split
  · exact absurd (by assumption) h1
  · exact absurd (by assumption) h2
  · exact absurd (by assumption) h3
  · exact absurd (by assumption) h4
  · exact Iff.rfl

/-- One token, from the engine to the rules. -/
theorem exec_act {t : Token} (hv : t.Valid) (hcs : Conds cs e) (hs : Small s) {s' : Stack} {cs' : List Cond}
    (h : exec env (instrOf t) ⟨s, cs⟩ = .ok ⟨s', cs'⟩) :
    ∃ e' k, Act library env.hash160 (checkOf env) t s e s' e' k ∧ Conds cs' e' := by
  by_cases hc : isCond t.op
  · obtain ⟨op, d⟩ := t
    rcases hc with hc | hc | hc | hc
    · dsimp only at hc
      subst hc
      have h : opIf false ⟨s, cs⟩ = .ok ⟨s', cs'⟩ := by
        rw [← h]; unfold exec; rw [cond_true hv.1 (Or.inl rfl), Bool.not_true, Bool.and_false, if_neg (by simp)]; rfl
      unfold opIf at h
      rcases all_or e with ha | ha
      · rw [conds_taken hcs s ha, Bool.not_false, if_pos rfl, Res.bind_eq_ok] at h
        obtain ⟨⟨b, r⟩, hp, h⟩ := h
        obtain ⟨a, h1, h2, h3⟩ := (popIfBool_iff _ _ _).mp hp
        dsimp only at h1
        subst h1
        cases b with
        | true =>
          cases Res.ok.inj h
          exact ⟨_, _, .ifTrue d a _ e ha (fun _ => h2) (h3.mp rfl), .yes _ _ ha hcs⟩
        | false =>
          cases Res.ok.inj h
          exact ⟨_, _, .ifFalse d a _ e ha (fun _ => h2) (fun h => by cases h3.mpr h), .no _ _ ha hcs⟩
      · rw [conds_skipped hcs s ha, Bool.not_true, if_neg (by simp)] at h
        cases Res.ok.inj h
        exact ⟨_, _, .ifSkipped _ _ _ (Or.inl rfl) ha, .skip _ _ _ ha hcs⟩
    · dsimp only at hc
      subst hc
      have h : opIf true ⟨s, cs⟩ = .ok ⟨s', cs'⟩ := by
        rw [← h]; unfold exec; rw [cond_true hv.1 (Or.inr (Or.inl rfl)), Bool.not_true, Bool.and_false, if_neg (by simp)]; rfl
      unfold opIf at h
      rcases all_or e with ha | ha
      · rw [conds_taken hcs s ha, Bool.not_false, if_pos rfl, Res.bind_eq_ok] at h
        obtain ⟨⟨b, r⟩, hp, h⟩ := h
        obtain ⟨a, h1, h2, h3⟩ := (popIfBool_iff _ _ _).mp hp
        dsimp only at h1
        subst h1
        cases b with
        | true =>
          cases Res.ok.inj h
          exact ⟨_, _, .notifTrue d a _ e ha (fun _ => h2) (h3.mp rfl), .no _ _ ha hcs⟩
        | false =>
          cases Res.ok.inj h
          exact ⟨_, _, .notifFalse d a _ e ha (fun _ => h2) (fun h => by cases h3.mpr h), .yes _ _ ha hcs⟩
      · rw [conds_skipped hcs s ha, Bool.not_true, if_neg (by simp)] at h
        cases Res.ok.inj h
        exact ⟨_, _, .ifSkipped _ _ _ (Or.inr rfl) ha, .skip _ _ _ ha hcs⟩
    · dsimp only at hc
      subst hc
      have h : opElse ⟨s, cs⟩ = .ok ⟨s', cs'⟩ := by
        rw [← h]; unfold exec
        rw [cond_true hv.1 (Or.inr (Or.inr (Or.inl rfl))), Bool.not_true, Bool.and_false, if_neg (by simp)]; rfl
      cases hcs with
      | nil => cases h
      | yes cs e ha hcs => cases Res.ok.inj h; exact ⟨_, _, .els d s _ _, .no _ _ ha hcs⟩
      | no cs e ha hcs => cases Res.ok.inj h; exact ⟨_, _, .els d s _ _, .yes _ _ ha hcs⟩
      | skip cs e b ha hcs => cases Res.ok.inj h; exact ⟨_, _, .els d s _ _, .skip _ _ _ ha hcs⟩
    · dsimp only at hc
      subst hc
      have h : opEndIf ⟨s, cs⟩ = .ok ⟨s', cs'⟩ := by
        rw [← h]; unfold exec
        rw [cond_true hv.1 (Or.inr (Or.inr (Or.inr rfl))), Bool.not_true, Bool.and_false, if_neg (by simp)]; rfl
      cases hcs with
      | nil => cases h
      | yes cs e ha hcs => cases Res.ok.inj h; exact ⟨_, _, .endif d s _ _, hcs⟩
      | no cs e ha hcs => cases Res.ok.inj h; exact ⟨_, _, .endif d s _ _, hcs⟩
      | skip cs e b ha hcs => cases Res.ok.inj h; exact ⟨_, _, .endif d s _ _, hcs⟩
  · rcases all_or e with ha | ha
    · rw [exec_plain hv.1 hc (conds_taken hcs s ha), Res.bind_eq_ok] at h
      obtain ⟨q, h1, h2⟩ := h
      cases Res.ok.inj h2
      obtain ⟨k, hk⟩ := (dataOp_iff env hv hc hs _).mp h1
      exact ⟨e, k, .run _ _ _ _ _ hc ha hk, hcs⟩
    · unfold exec at h
      rw [conds_skipped hcs s ha, cond_false hv.1 hc, if_pos (by simp)] at h
      cases Res.ok.inj h
      exact ⟨e, 0, .skip _ _ _ hc ha, hcs⟩

/-- One token, from the rules to the engine. -/
theorem act_exec {t : Token} (hv : t.Valid) (hcs : Conds cs e) (hs : Small s) {s' : Stack} {e' : List Bool} {k : ℕ}
    (h : Act library env.hash160 (checkOf env) t s e s' e' k) :
    ∃ cs', exec env (instrOf t) ⟨s, cs⟩ = .ok ⟨s', cs'⟩ ∧ Conds cs' e' := by
  have hif : ∀ (d : Bytes) (vm : State), exec env (instrOf ⟨0x63, d⟩) vm = opIf false vm := fun d vm => by
    unfold exec; rw [cond_true (t := ⟨0x63, d⟩) (show Supported 0x63 by decide) (Or.inl rfl), Bool.not_true, Bool.and_false, if_neg (by simp)]; rfl
  have hnotif : ∀ (d : Bytes) (vm : State), exec env (instrOf ⟨0x64, d⟩) vm = opIf true vm := fun d vm => by
    unfold exec; rw [cond_true (t := ⟨0x64, d⟩) (show Supported 0x64 by decide) (Or.inr (Or.inl rfl)), Bool.not_true, Bool.and_false, if_neg (by simp)]; rfl
  have take : ∀ (neg : Bool) (a : Bytes) (r : Stack) (b : Bool), (∀ b ∈ e, b = true) → (a = [] ∨ a = [1]) → (b = true ↔ Truthy a) →
      opIf neg ⟨a :: r, cs⟩ = .ok ⟨r, (if b != neg then .yes else .no) :: cs⟩ := by
    intro neg a r b ha h1 h2
    unfold opIf
    rw [conds_taken hcs _ ha, Bool.not_false, if_pos rfl, (popIfBool_iff (a :: r) b r).mpr ⟨a, rfl, h1, h2⟩]
    rfl
  have pass : ∀ (neg : Bool), (∃ b ∈ e, b = false) → opIf neg ⟨s, cs⟩ = .ok ⟨s, .skip :: cs⟩ := by
    intro neg ha
    unfold opIf
    rw [conds_skipped hcs s ha, Bool.not_true, if_neg (by simp)]
  cases h with
  | run _ _ _ _ _ hc ha hk =>
    exact ⟨cs, (exec_plain hv.1 hc (conds_taken hcs s ha)).mpr (by rw [(dataOp_iff env hv hc hs _).mpr ⟨k, hk⟩]; rfl), hcs⟩
  | skip _ _ _ hc ha =>
    refine ⟨cs, ?_, hcs⟩
    unfold exec
    rw [conds_skipped hcs s ha, cond_false hv.1 hc, if_pos (by simp)]
  | ifTrue d a _ _ ha h1 h2 => exact ⟨_, by rw [hif, take false a s' true ha (h1 rfl) (by simp [h2])]; rfl, .yes _ _ ha hcs⟩
  | ifFalse d a _ _ ha h1 h2 => exact ⟨_, by rw [hif, take false a s' false ha (h1 rfl) (by simp [h2])]; rfl, .no _ _ ha hcs⟩
  | notifTrue d a _ _ ha h1 h2 => exact ⟨_, by rw [hnotif, take true a s' true ha (h1 rfl) (by simp [h2])]; rfl, .no _ _ ha hcs⟩
  | notifFalse d a _ _ ha h1 h2 => exact ⟨_, by rw [hnotif, take true a s' false ha (h1 rfl) (by simp [h2])]; rfl, .yes _ _ ha hcs⟩
  | ifSkipped _ _ _ hop ha =>
    obtain ⟨op, d⟩ := t
    rcases hop with hop | hop
    · dsimp only at hop; subst hop
      exact ⟨_, by rw [hif, pass false ha], .skip _ _ _ ha hcs⟩
    · dsimp only at hop; subst hop
      exact ⟨_, by rw [hnotif, pass true ha], .skip _ _ _ ha hcs⟩
  | els d _ b e0 =>
    have he : ∀ vm : State, exec env (instrOf ⟨0x67, d⟩) vm = opElse vm := fun vm => by
      unfold exec
      rw [cond_true (t := ⟨0x67, d⟩) (show Supported 0x67 by decide) (Or.inr (Or.inr (Or.inl rfl))), Bool.not_true, Bool.and_false, if_neg (by simp)]; rfl
    rw [he]
    cases hcs with
    | yes cs _ ha hcs => exact ⟨_, rfl, .no _ _ ha hcs⟩
    | no cs _ ha hcs => exact ⟨_, rfl, .yes _ _ ha hcs⟩
    | skip cs _ _ ha hcs => exact ⟨_, rfl, .skip _ _ _ ha hcs⟩
  | endif d _ b =>
    have he : ∀ vm : State, exec env (instrOf ⟨0x68, d⟩) vm = opEndIf vm := fun vm => by
      unfold exec
      rw [cond_true (t := ⟨0x68, d⟩) (show Supported 0x68 by decide) (Or.inr (Or.inr (Or.inr rfl))), Bool.not_true, Bool.and_false, if_neg (by simp)]; rfl
    rw [he]
    cases hcs with
    | yes cs _ ha hcs => exact ⟨_, rfl, hcs⟩
    | no cs _ ha hcs => exact ⟨_, rfl, hcs⟩
    | skip cs _ _ ha hcs => exact ⟨_, rfl, hcs⟩

end step

end Toku.VM
