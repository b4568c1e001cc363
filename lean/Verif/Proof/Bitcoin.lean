import Verif.Spec.Bitcoin
import Verif.Spec.Callbacks
import Verif.Proof.VM3
import Verif.Props.ScriptNum
/-
The engine follows the rules `library` of Spec/Bitcoin.lean: lemmas.
-/
namespace Toku.VM
open Toku.Spec Toku.Script
open Toku.Spec.Bitcoin (NumIn NumOut NumMinimal numValue Truthy ofBool Multi Op Act Eval isCond library)

/-! ### Numbers and truth -/

theorem numValue_eq (v : Bytes) : numValue v = ScriptNum.value v := by
  rcases ScriptNum.nil_or_snoc v with rfl | ⟨i, l, rfl⟩
  · rw [ScriptNum.value_nil]; rfl
  · rw [ScriptNum.value_append]
    unfold numValue
    have hb := l.toNat_lt
    simp only [List.getLast?_append, List.getLast?_singleton, Option.some_or, List.dropLast_concat, List.length_append,
      List.length_singleton, Nat.add_sub_cancel]
    split_ifs with h
    · rw [Nat.mod_eq_of_lt h]
    · rw [show l.toNat % 128 = l.toNat - 128 by omega]

theorem numMinimal_iff (v : Bytes) : NumMinimal v ↔ ScriptNum.Minimal v := by
  unfold NumMinimal ScriptNum.Minimal
  constructor
  · rintro (h | ⟨i, l, rfl, h | ⟨j, s, rfl, hs⟩⟩)
    · exact Or.inl h
    · exact Or.inr (Or.inl ⟨i, l, rfl, by omega, by omega⟩)
    · by_cases h : l.toNat = 0 ∨ l.toNat = 128
      · exact Or.inr (Or.inr ⟨j, s, l, by simp, hs, h⟩)
      · exact Or.inr (Or.inl ⟨_, l, rfl, by omega, by omega⟩)
  · rintro (h | ⟨i, l, rfl, h1, h2⟩ | ⟨i, s, l, rfl, hs, h⟩)
    · exact Or.inl h
    · exact Or.inr ⟨i, l, rfl, Or.inl (by have := l.toNat_lt; omega)⟩
    · exact Or.inr ⟨i ++ [s], l, by simp, Or.inr ⟨i, s, rfl, hs⟩⟩

theorem make_iff (v : Bytes) (n : Int) : ScriptNum.make v 4 = .ok n ↔ NumIn library v n := by
  unfold NumIn
  rw [numMinimal_iff, numValue_eq]
  constructor
  · intro h
    by_cases hl : v.length ≤ 4
    · by_cases hm : ScriptNum.Minimal v
      · rw [ScriptNum.make_ok hl (by omega) hm] at h
        exact ⟨hl, fun _ => hm, Res.ok.inj h⟩
      · rw [ScriptNum.make_bad hl hm] at h; cases h
    · rw [ScriptNum.make_long (by omega)] at h; cases h
  · rintro ⟨hl, hm, rfl⟩
    exact ScriptNum.make_ok hl (by omega) (hm rfl)

/-- A minimal string for a number of 64 bits has at most eight bytes. -/
theorem minimal_length {v : Bytes} (hm : ScriptNum.Minimal v) (h1 : -2^63 < ScriptNum.value v) (h2 : ScriptNum.value v < 2^63) :
    v.length ≤ 8 := by
  by_contra hc
  push Not at hc
  rcases hm with rfl | ⟨i, l, rfl, ha, hb⟩ | ⟨i, s, l, rfl, hs, _⟩
  · simp at hc
  · rw [ScriptNum.value_append] at h1 h2
    rw [List.length_append, List.length_singleton] at hc
    have hp : 256 ^ 8 ≤ 256 ^ i.length := Nat.pow_le_pow_right (by norm_num) (by omega)
    have hlt := l.toNat_lt
    split_ifs at h1 h2 with h
    · have : 256 ^ i.length * 1 ≤ 256 ^ i.length * l.toNat := Nat.mul_le_mul_left _ (by omega)
      omega
    · have : 256 ^ i.length * 1 ≤ 256 ^ i.length * (l.toNat - 128) := Nat.mul_le_mul_left _ (by omega)
      omega
  · rw [show i ++ [s, l] = (i ++ [s]) ++ [l] by simp, ScriptNum.value_append, ScriptNum.leNat_append] at h1 h2
    simp only [List.length_append, List.length_cons, List.length_nil] at hc h1 h2
    have hp : 256 ^ 7 ≤ 256 ^ i.length := Nat.pow_le_pow_right (by norm_num) (by omega)
    have e : leNat [s] = s.toNat := by simp [leNat]
    rw [e] at h1 h2
    have : 256 ^ i.length * 128 ≤ 256 ^ i.length * s.toNat := Nat.mul_le_mul_left _ hs
    split_ifs at h1 h2 with h
    · have := Nat.zero_le (256 ^ (i.length + 1) * l.toNat); omega
    · have := Nat.zero_le (256 ^ (i.length + 1) * (l.toNat - 128)); omega

theorem bytes_iff {n : Int} (h1 : -2^63 < n) (h2 : n < 2^63) (v : Bytes) : ScriptNum.bytes n = .ok v ↔ NumOut v n := by
  unfold NumOut
  rw [numMinimal_iff, numValue_eq]
  constructor
  · intro h
    obtain ⟨w, e, hm, _, hv⟩ := ScriptNum.bytes_spec h1 h2
    rw [h] at e
    cases Res.ok.inj e
    exact ⟨hm, hv⟩
  · rintro ⟨hm, hv⟩
    have hl := minimal_length hm (hv ▸ h1) (hv ▸ h2)
    exact ((Props.C15_accepts_iff v 8 le_rfl n).mp (by rw [ScriptNum.make_ok hl hl hm, hv])).2.2.2

theorem asBool_iff (v : Bytes) : asBool v = true ↔ Truthy v := by
  unfold Truthy
  induction v with
  | nil => simp [asBool]
  | cons b bs ih =>
    cases bs with
    | nil => simp [asBool]
    | cons c bs =>
      have e : asBool (b :: c :: bs) = if b ≠ 0 then true else asBool (c :: bs) := rfl
      rw [e]
      simp only [List.dropLast_cons_cons, List.mem_cons, List.getLast?_cons_cons]
      by_cases hb : b = 0
      · rw [if_neg (by simpa using hb), ih]
        constructor
        · rintro (⟨x, hx, h0⟩ | h)
          · exact Or.inl ⟨x, Or.inr hx, h0⟩
          · exact Or.inr h
        · rintro (⟨x, rfl | hx, h0⟩ | h)
          · exact absurd hb h0
          · exact Or.inl ⟨x, hx, h0⟩
          · exact Or.inr h
      · rw [if_pos hb]
        exact ⟨fun _ => Or.inl ⟨b, Or.inl rfl, hb⟩, fun _ => rfl⟩

/-! ### Signatures -/

theorem checkOne_iff (env : Env) (sig key : Bytes) (b : Bool) :
    checkOne env sig key = .ok b ↔ sig ≠ [] ∧ checkOf env sig key = some b := by
  unfold checkOne splitSig checkOf verified
  cases hs : sig.getLast? with
  | none =>
    rw [List.getLast?_eq_none_iff] at hs
    constructor
    · intro h; cases h
    · rintro ⟨h, _⟩; exact absurd hs h
  | some t =>
    have hne : sig ≠ [] := by rintro rfl; cases hs
    rw [Res.ok_bind]
    dsimp only
    cases env.sigHasher with
    | none => simp
    | some hasher =>
      dsimp only
      cases hh : hasher t with
      | ok hash =>
        rw [Res.ok_bind]
        cases env.sigVerifier with
        | none => simp
        | some verifier =>
          dsimp only
          cases hv : verifier hash sig.dropLast key <;> simp [hne, hh, hv, eq_comm]
      | err e => cases env.sigVerifier <;> simp [hne, hh]
      | panic => cases env.sigVerifier <;> simp [hne, hh]

theorem opCheckSig_iff (env : Env) (s s' : Stack) : opCheckSig env s = .ok s' ↔
    ∃ key sig r b, s = key :: sig :: r ∧ checkOf env sig key = some b ∧ s' = ofBool b :: r := by
  unfold opCheckSig
  cases hh : env.sigHasher with
  | none =>
    constructor
    · intro h; cases h
    · rintro ⟨key, sig, r, b, _, h, _⟩; simp [checkOf, hh] at h
  | some hasher =>
    cases hv : env.sigVerifier with
    | none =>
      constructor
      · intro h; cases h
      · rintro ⟨key, sig, r, b, _, h, _⟩; simp [checkOf, hh, hv] at h
    | some verifier =>
      dsimp only
      match s with
      | [] => simp [pop, nipN]
      | [x] => simp [pop, nipN]
      | key :: sig :: r =>
        rw [show pop (key :: sig :: r) = .ok (key, sig :: r) from rfl, Res.ok_bind]
        dsimp only
        rw [show pop (sig :: r) = .ok (sig, r) from rfl, Res.ok_bind]
        dsimp only
        cases hs : sig.getLast? with
        | none =>
          rw [List.getLast?_eq_none_iff] at hs
          subst hs
          rw [if_pos (by simp)]
          constructor
          · intro h
            exact ⟨key, [], r, false, rfl, by simp [checkOf, hh, hv], (Res.ok.inj h).symm⟩
          · rintro ⟨k, g, r', b, e, hb, rfl⟩
            cases e
            simp [checkOf, hh, hv] at hb
            subst hb; rfl
        | some t =>
          have hne : sig ≠ [] := by rintro rfl; cases hs
          rw [if_neg (by have := List.length_pos_iff.mpr hne; omega)]
          unfold splitSig
          rw [hs, Res.ok_bind]
          dsimp only
          have hc : checkOf env sig key = match hasher t with
              | .ok hash =>
                match verifier hash sig.dropLast key with
                | .ok _ => some true
                | .err _ => some false
                | .panic => none
              | _ => none := by
            unfold checkOf
            rw [hh, hv]
            dsimp only
            rw [hs]
            rfl
          have key' : (∃ k g r' b, key :: sig :: r = k :: g :: r' ∧ checkOf env g k = some b ∧ s' = ofBool b :: r') ↔
              ∃ b, checkOf env sig key = some b ∧ s' = ofBool b :: r := by
            constructor
            · rintro ⟨k, g, r', b, e, h1, h2⟩; cases e; exact ⟨b, h1, h2⟩
            · rintro ⟨b, h1, h2⟩; exact ⟨_, _, _, b, rfl, h1, h2⟩
          rw [key', hc]
          unfold verified
          cases hasher t with
          | ok hash =>
            rw [Res.ok_bind]
            dsimp only
            cases verifier hash sig.dropLast key with
            | ok _ => simp [boolBytes, ofBool, eq_comm]
            | err _ => simp [boolBytes, ofBool, eq_comm]
            | panic => simp
          | err e => simp
          | panic => simp

theorem multi_iff (env : Env) (keys : List Bytes) : ∀ (sigs : List Bytes) (b : Bool), sigs.length ≤ keys.length →
    (multisigLoop env sigs keys = .ok b ↔ Multi library (checkOf env) sigs keys b) := by
  induction keys with
  | nil =>
    intro sigs b hl
    cases sigs with
    | nil =>
      constructor
      · intro h
        cases Res.ok.inj h
        exact .done _
      · intro h
        cases h with
        | done => rfl
        | few _ _ h => simp at h
    | cons s ss => simp at hl
  | cons k ks ih =>
    intro sigs b hl
    cases sigs with
    | nil =>
      constructor
      · intro h
        cases Res.ok.inj h
        exact .done _
      · intro h
        cases h with
        | done => rfl
        | few _ _ h => simp at h
    | cons sig sigs =>
      have hl' : sigs.length ≤ ks.length := by simpa using hl
      unfold multisigLoop
      rw [Res.bind_eq_ok]
      constructor
      · rintro ⟨v, h1, h2⟩
        obtain ⟨hne, hc⟩ := (checkOne_iff env sig k v).mp h1
        cases v with
        | true =>
          rw [if_pos rfl, if_neg (by omega)] at h2
          exact .hit _ _ _ _ _ hl (fun _ => hne) hc ((ih _ _ hl').mp h2)
        | false =>
          rw [if_neg (by simp)] at h2
          split_ifs at h2 with hf
          · cases Res.ok.inj h2
            exact .miss _ _ _ _ _ hl (fun _ => hne) hc (.few _ _ hf)
          · exact .miss _ _ _ _ _ hl (fun _ => hne) hc ((ih _ _ (by omega)).mp h2)
      · intro h
        cases h with
        | few _ _ h => omega
        | hit _ _ _ _ _ _ hne hc hm =>
          exact ⟨true, (checkOne_iff env sig k true).mpr ⟨hne rfl, hc⟩, by
            rw [if_pos rfl, if_neg (by omega)]; exact (ih _ _ hl').mpr hm⟩
        | miss _ _ _ _ _ _ hne hc hm =>
          refine ⟨false, (checkOne_iff env sig k false).mpr ⟨hne rfl, hc⟩, ?_⟩
          rw [if_neg (by simp)]
          split_ifs with hf
          · cases hm with
            | few => rfl
            | hit _ _ _ _ _ hl2 => omega
            | miss _ _ _ _ _ hl2 => omega
          · exact (ih _ _ (by omega)).mpr hm

theorem popInt_iff (s : Stack) (n : Int) (r : Stack) : popInt s = .ok (n, r) ↔ ∃ x, s = x :: r ∧ NumIn library x n := by
  cases s with
  | nil => simp [popInt, pop, nipN]
  | cons x t =>
    unfold popInt
    rw [show pop (x :: t) = .ok (x, t) from rfl, Res.ok_bind]
    dsimp only
    rw [Res.bind_eq_ok]
    constructor
    · rintro ⟨m, h1, h2⟩
      cases Res.ok.inj h2
      exact ⟨x, rfl, (make_iff x n).mp h1⟩
    · rintro ⟨y, e, h⟩
      cases e
      exact ⟨n, (make_iff x n).mpr h, rfl⟩

theorem numIn_range {x : Bytes} {n : Int} (h : NumIn library x n) : -(2^31 - 1) ≤ n ∧ n ≤ 2^31 - 1 :=
  (Props.C15_range n).mp ⟨x, (make_iff x n).mpr h⟩

theorem int32_range {n : Int} (h : -(2^31 - 1) ≤ n ∧ n ≤ 2^31 - 1) : ScriptNum.int32 n = n := by
  unfold ScriptNum.int32; split_ifs <;> omega

theorem opCheckMultiSig_iff (env : Env) (s s' : Stack) : opCheckMultiSig env s = .ok s' ↔
    ∃ x keys y sigs d r b, s = x :: (keys ++ y :: (sigs ++ d :: r)) ∧ NumIn library x keys.length ∧
      NumIn library y sigs.length ∧ sigs.length ≤ keys.length ∧ Multi library (checkOf env) sigs keys b ∧ s' = ofBool b :: r := by
  unfold opCheckMultiSig
  constructor
  · intro h
    rw [Res.bind_eq_ok] at h
    obtain ⟨⟨n, s1⟩, h1, h⟩ := h
    obtain ⟨x, rfl, hx⟩ := (popInt_iff _ _ _).mp h1
    dsimp only at h
    rw [int32_range (numIn_range hx)] at h
    split_ifs at h with hn
    rw [Res.bind_eq_ok] at h
    obtain ⟨⟨keys, s2⟩, h2, h⟩ := h
    obtain ⟨rfl, hk⟩ := popMany_ok h2
    dsimp only at h
    rw [Res.bind_eq_ok] at h
    obtain ⟨⟨m, s3⟩, h3, h⟩ := h
    obtain ⟨y, rfl, hy⟩ := (popInt_iff _ _ _).mp h3
    dsimp only at h
    rw [int32_range (numIn_range hy)] at h
    split_ifs at h with ha hb
    rw [Res.bind_eq_ok] at h
    obtain ⟨⟨sigs, s4⟩, h4, h⟩ := h
    obtain ⟨rfl, hg⟩ := popMany_ok h4
    dsimp only at h
    rw [Res.bind_eq_ok] at h
    obtain ⟨⟨d, s5⟩, h5, h⟩ := h
    have e5 : s4 = d :: s5 := by
      cases s4 with
      | nil => cases h5
      | cons a b => cases Res.ok.inj h5; rfl
    subst e5
    dsimp only at h
    rw [Res.bind_eq_ok] at h
    obtain ⟨b, h6, h⟩ := h
    have hkn : (keys.length : Int) = n := by omega
    have hgm : (sigs.length : Int) = m := by omega
    refine ⟨x, keys, y, sigs, d, s5, b, rfl, hkn ▸ hx, hgm ▸ hy, by omega, (multi_iff env keys sigs b (by omega)).mp h6, ?_⟩
    exact (Res.ok.inj h).symm
  · rintro ⟨x, keys, y, sigs, d, r, b, rfl, hx, hy, hl, hm, rfl⟩
    rw [(popInt_iff _ _ _).mpr ⟨x, rfl, hx⟩, Res.ok_bind]
    dsimp only
    rw [int32_range (numIn_range hx), if_neg (by omega), Int.toNat_natCast, popMany_append, Res.ok_bind]
    dsimp only
    rw [(popInt_iff _ _ _).mpr ⟨y, rfl, hy⟩, Res.ok_bind]
    dsimp only
    rw [int32_range (numIn_range hy), if_neg (by omega), if_neg (by omega), Int.toNat_natCast, popMany_append, Res.ok_bind]
    dsimp only
    rw [show pop (d :: r) = .ok (d, r) from rfl, Res.ok_bind]
    dsimp only
    rw [(multi_iff env keys sigs b hl).mpr hm, Res.ok_bind]
    rfl

/-! ### One opcode -/

/-- No element is too long for its length to be a number. -/
def Small (s : Stack) : Prop := ∀ x ∈ s, x.length < 2^62

theorem fn_table : ∀ op : UInt8, Supported op → ∀ o, opcodes op = some o → o.value = op ∧
    (op = 0 → o.fn = .opFalse) ∧ (op ≠ 0 → op.toNat ≤ 0x4e → o.fn = .opPushData) ∧
    (0x51 ≤ op.toNat → op.toNat ≤ 0x60 → o.fn = .opN) ∧
    (op = 0x63 → o.fn = .opIf) ∧ (op = 0x64 → o.fn = .opNotIf) ∧ (op = 0x67 → o.fn = .opElse) ∧ (op = 0x68 → o.fn = .opEndIf) ∧
    (op = 0x6a → o.fn = .opReturn) ∧ (op = 0x6e → o.fn = .op2Dup) ∧ (op = 0x6f → o.fn = .op3Dup) ∧ (op = 0x75 → o.fn = .opDrop) ∧
    (op = 0x76 → o.fn = .opDup) ∧ (op = 0x7c → o.fn = .opSwap) ∧ (op = 0x82 → o.fn = .opSize) ∧ (op = 0x87 → o.fn = .opEqual) ∧
    (op = 0x88 → o.fn = .opEqualVerify) ∧ (op = 0x93 → o.fn = .opAdd) ∧ (op = 0xa9 → o.fn = .opHash160) ∧
    (op = 0xac → o.fn = .opCheckSig) ∧ (op = 0xad → o.fn = .opCheckSigVerify) ∧ (op = 0xae → o.fn = .opCheckMultiSig) ∧
    (op = 0xaf → o.fn = .opCheckMultiSigVerify) := by
  intro op h o ho
  have key : ∀ op : UInt8, Supported op → (opcodes op).all (fun o => decide (o.value = op ∧
    (op = 0 → o.fn = .opFalse) ∧ (op ≠ 0 → op.toNat ≤ 0x4e → o.fn = .opPushData) ∧
    (0x51 ≤ op.toNat → op.toNat ≤ 0x60 → o.fn = .opN) ∧
    (op = 0x63 → o.fn = .opIf) ∧ (op = 0x64 → o.fn = .opNotIf) ∧ (op = 0x67 → o.fn = .opElse) ∧ (op = 0x68 → o.fn = .opEndIf) ∧
    (op = 0x6a → o.fn = .opReturn) ∧ (op = 0x6e → o.fn = .op2Dup) ∧ (op = 0x6f → o.fn = .op3Dup) ∧ (op = 0x75 → o.fn = .opDrop) ∧
    (op = 0x76 → o.fn = .opDup) ∧ (op = 0x7c → o.fn = .opSwap) ∧ (op = 0x82 → o.fn = .opSize) ∧ (op = 0x87 → o.fn = .opEqual) ∧
    (op = 0x88 → o.fn = .opEqualVerify) ∧ (op = 0x93 → o.fn = .opAdd) ∧ (op = 0xa9 → o.fn = .opHash160) ∧
    (op = 0xac → o.fn = .opCheckSig) ∧ (op = 0xad → o.fn = .opCheckSigVerify) ∧ (op = 0xae → o.fn = .opCheckMultiSig) ∧
    (op = 0xaf → o.fn = .opCheckMultiSigVerify))) = true := by
    apply Base58.forall_uint8; decide +kernel
  have := key op h
  rw [ho, Option.all_some, decide_eq_true_eq] at this
  exact this

/-- A supported opcode is one of these. -/
theorem supported_cases (op : UInt8) (h : Supported op) : op = 0 ∨ (op ≠ 0 ∧ op.toNat ≤ 0x4e) ∨ (0x51 ≤ op.toNat ∧ op.toNat ≤ 0x60) ∨
    op = 0x63 ∨ op = 0x64 ∨ op = 0x67 ∨ op = 0x68 ∨ op = 0x6a ∨ op = 0x6e ∨ op = 0x6f ∨ op = 0x75 ∨ op = 0x76 ∨ op = 0x7c ∨
    op = 0x82 ∨ op = 0x87 ∨ op = 0x88 ∨ op = 0x93 ∨ op = 0xa9 ∨ op = 0xac ∨ op = 0xad ∨ op = 0xae ∨ op = 0xaf := by
  revert h
  revert op
  apply Base58.forall_uint8
  decide +kernel

theorem asBool_boolBytes (b : Bool) : asBool (boolBytes b) = b := by cases b <;> rfl

theorem equalVerify_iff (x : Bytes) (s s' : Stack) : equalVerify (x :: s) = .ok s' ↔ asBool x = true ∧ s' = s := by
  unfold equalVerify popBool
  rw [show pop (x :: s) = .ok (x, s) from rfl, Res.ok_bind]
  show (Res.ok (asBool x, s) >>= fun p : Bool × Stack => if !p.1 then Res.err errExec else Res.ok p.2) = Res.ok s' ↔ _
  rw [Res.ok_bind]
  cases asBool x <;> simp [eq_comm]

theorem pushInt_iff {n : Int} (h1 : -2^63 < n) (h2 : n < 2^63) (s s' : Stack) :
    pushInt s n = .ok s' ↔ ∃ r, NumOut r n ∧ s' = r :: s := by
  unfold pushInt
  rw [Res.bind_eq_ok]
  constructor
  · rintro ⟨b, hb, h⟩
    exact ⟨b, (bytes_iff h1 h2 b).mp hb, (Res.ok.inj h).symm⟩
  · rintro ⟨b, hb, rfl⟩
    exact ⟨b, (bytes_iff h1 h2 b).mpr hb, rfl⟩

end Toku.VM
