import Verif.Proof.Locking
import Verif.Props.Script
import Verif.Props.VM
/-
Properties C29 and C30: standard locking scripts and multisig redeem scripts.
-/
namespace Toku.Props
open Toku Toku.Spec Toku.Locking

/-- **C29.** A byte string is recognised as a kind with a hash exactly when it is the standard script of
that kind for that hash, of the right length. -/
theorem C29_parse_iff (s : Bytes) (hl : s.length < 2^62) (r : LockScript) :
    parse s = .ok r ↔ r.hash.length = hashSize r.kind ∧ s = standardScript r.kind r.hash := by
  constructor
  · intro h
    rw [parse_eq] at h
    obtain ⟨ts, tail, hv, rfl, ht⟩ := Script.tokens_exist s
    rcases Script.allInstructions_tokens hv ht hl with ⟨rfl, h'⟩ | ⟨_, e, h'⟩
    · rw [h', Res.ok_bind] at h
      obtain ⟨a, b⟩ := classify_ok hv h
      refine ⟨a, ?_⟩
      rw [List.append_nil, b, standard_enc]
    · rw [h', Res.err_bind] at h; cases h
  · rintro ⟨h, rfl⟩
    rw [parse_eq]
    rw [← standard_enc] at hl ⊢
    rcases Script.allInstructions_tokens (standard_valid h) (tail := []) (Or.inl rfl) (by simpa using hl) with
      ⟨_, h'⟩ | ⟨h, _⟩
    · rw [List.append_nil] at h'
      rw [h', Res.ok_bind, classify_standard]
    · exact absurd h Script.not_stuck_nil

/-- **C29.** Building gives exactly the standard bytes. -/
theorem C29_build (k : Locking.Kind) (h : Bytes) (hh : h.length = hashSize k) :
    rawLocking ⟨k, h⟩ = standardScript k h := rawLocking_eq hh

/-- **C29.** Parsing the script built for a kind and a hash gives back that kind and hash. -/
theorem C29_parse_build (k : Locking.Kind) (h : Bytes) (hh : h.length = hashSize k) :
    parse (rawLocking ⟨k, h⟩) = .ok ⟨k, h⟩ := by
  rw [C29_build k h hh]
  refine (C29_parse_iff _ ?_ _).mpr ⟨hh, rfl⟩
  cases k <;> simp only [hashSize] at hh <;> simp [standardScript, hh]

/-- **C29.** Whatever is recognised rebuilds to the same bytes. -/
theorem C29_build_parse (s : Bytes) (hl : s.length < 2^62) (r : LockScript) (h : parse s = .ok r) :
    rawLocking r = s := by
  obtain ⟨a, rfl⟩ := (C29_parse_iff s hl r).mp h
  exact C29_build r.kind r.hash a

/-- **C29.** A byte string is the standard script of at most one kind and hash. -/
theorem C29_one_kind (k k' : Locking.Kind) (h h' : Bytes) (hh : h.length = hashSize k) (hh' : h'.length = hashSize k')
    (e : standardScript k h = standardScript k' h') : k = k' ∧ h = h' := by
  have a := C29_parse_build k h hh
  rw [C29_build k h hh, e, ← C29_build k' h' hh', C29_parse_build k' h' hh'] at a
  have := Res.ok.inj a
  cases this
  exact ⟨rfl, rfl⟩

/-- **C29.** Everything else is rejected with an error. -/
theorem C29_rejects (s : Bytes) (hl : s.length < 2^62)
    (hn : ∀ k h, h.length = hashSize k → s ≠ standardScript k h) : ∃ e, parse s = .err e := by
  cases hp : parse s with
  | ok r =>
    obtain ⟨a, b⟩ := (C29_parse_iff s hl r).mp hp
    exact absurd b (hn _ _ a)
  | err e => exact ⟨e, rfl⟩
  | panic =>
    exfalso
    rw [parse_eq] at hp
    obtain ⟨ts, tail, hv, rfl, ht⟩ := Script.tokens_exist s
    rcases Script.allInstructions_tokens hv ht hl with ⟨rfl, h'⟩ | ⟨_, e, h'⟩
    · rw [h', Res.ok_bind] at hp
      exact classify_np hp
    · rw [h', Res.err_bind] at hp; cases hp

example : parse ([0x76, 0xa9, 0x14] ++ List.replicate 20 7 ++ [0x88, 0xac]) = .ok ⟨.p2pkh, List.replicate 20 7⟩ := by
  decide +kernel
/-- a non-minimal push of the same hash is not recognised -/
example : parse ([0xa9, 0x4c, 0x14] ++ List.replicate 20 7 ++ [0x87]) = .err errTypeUnknown := by decide +kernel

/-- **C30 (partial).** Full statement: the script is generated exactly when `1 ≤ m ≤ n`. The code only
checks `m ≤ n`, so the lower bound is missing (`C30_zero_accepted`, `C30_negative_accepted`). -/
theorem C30_generated_iff_partial (m : Int) (hm : 1 ≤ m) (keys : List Bytes) (hn : keys.length < 2^31) :
    (∃ s, genMultiSig m keys = .ok s) ↔ m ≤ keys.length := by
  unfold genMultiSig
  by_cases h : (keys.length : Int) < m
  · rw [if_pos h]
    constructor
    · rintro ⟨s, h⟩; cases h
    · intro h; omega
  · rw [if_neg h]
    obtain ⟨k, rfl⟩ : ∃ k : Nat, m = k := ⟨m.toNat, by omega⟩
    obtain ⟨b1, _, e1, _⟩ := addInt64_token Buffer.new k (by omega)
    obtain ⟨b2, _, e2, _⟩ := addInt64_token (keys.foldl Script.addData b1) keys.length hn
    refine ⟨fun _ => by omega, fun _ => ?_⟩
    rw [e1, Res.ok_bind]
    dsimp only
    rw [e2, Res.ok_bind]
    exact ⟨_, rfl⟩

/-- **C30, negation.** A policy requiring no signature is generated (any `m ≤ 0` is). -/
theorem C30_zero_accepted (key : Bytes) : ∃ s, genMultiSig 0 [key] = .ok s := ⟨_, rfl⟩

/-- **C30, negation.** A negative number of signatures is accepted too; the script for -1 starts with the
unsupported opcode 4f and cannot be parsed. -/
theorem C30_negative_accepted :
    genMultiSig (-1) [] = .ok [0x4f, 0x00, 0xae] ∧ genMultiSig (-5) [] = .ok [0x01, 0x85, 0x00, 0xae] :=
  ⟨by decide +kernel, by decide +kernel⟩

open Script VM in
/-- **C30.** For `1 ≤ m ≤ n` the script parses as: a push that reads as the number `m`, the keys pushed in
order, a push that reads as the number `n`, CHECKMULTISIG. (Keys other than the one-byte strings 00 and
81, which the builder cannot push: see C16.) -/
theorem C30_parses (m : Nat) (keys : List Bytes) (hmn : m ≤ keys.length) (hn : keys.length < 2^31)
    (hk : ∀ k ∈ keys, k.length < 2^32 ∧ k ≠ [0x00] ∧ k ≠ [0x81]) (s : Bytes) (hs : genMultiSig m keys = .ok s)
    (hl : s.length < 2^62) :
    ∃ is tm ks tn, allInstructions s = .ok is ∧ is.map tokenOf = tm :: ks ++ [tn, ⟨0xae, []⟩] ∧
      IsPush tm ∧ ScriptNum.make (pushValue tm) 4 = .ok (m : Int) ∧
      (∀ t ∈ ks, IsPush t) ∧ ks.map pushValue = keys ∧
      IsPush tn ∧ ScriptNum.make (pushValue tn) 4 = .ok (keys.length : Int) := by
  obtain ⟨tm, ks, tn, hse, p1, v1, hks, hkeys, p2, v2, hv⟩ := genMultiSig_tokens hmn hn hk hs
  obtain ⟨is, hi, hm⟩ := (C18_parses_iff s hl _).mpr ⟨hv, hse⟩
  exact ⟨is, tm, ks, tn, hi, hm, p1, v1, hks, hkeys, p2, v2⟩

open VM in
/-- **C30.** The script enforces the policy: run on `m` non-empty signatures above a dummy element, it
leaves true exactly when the signatures match `m` of the keys in order. -/
theorem C30_enforces (env : Env) (m : Nat) (keys sigs : List Bytes) (ho : Oracles env sigs keys) (hmn : m ≤ keys.length)
    (hn : keys.length < 2^31) (hk : ∀ k ∈ keys, k.length < 2^32 ∧ k ≠ [0x00] ∧ k ≠ [0x81]) (s : Bytes)
    (hs : genMultiSig m keys = .ok s) (hl : s.length < 2^62) (hsl : sigs.length = m)
    (hne : ∀ x ∈ sigs, x ≠ []) (d : Bytes) (rest : Stack) :
    ∃ b, execute env s false ⟨sigs.reverse ++ d :: rest, []⟩ = .ok ⟨boolBytes b :: rest, []⟩ ∧
      (b = true ↔ Matching (SigOk env) sigs keys) := by
  obtain ⟨tm, ks, tn, hse, p1, v1, hks, hkeys, p2, v2, hv⟩ := genMultiSig_tokens hmn hn hk hs
  obtain ⟨b, hb, hiff⟩ := C21_multisig_iff env keys sigs ho hne (by omega) hn _ _ d v2 (by rw [hsl]; exact v1) rest
  refine ⟨b, ?_, hiff⟩
  rw [execute_false, hse, run_tokens env hv (by rw [← hse]; exact hl)]
  have hsplit : tm :: ks ++ [tn, ⟨0xae, []⟩] = (tm :: ks ++ [tn]) ++ [⟨0xae, []⟩] := by simp
  rw [hsplit, execAll_append, execAll_pushes env (by
    intro t ht
    simp only [List.mem_append, List.mem_cons, List.not_mem_nil, or_false] at ht
    rcases ht with (rfl | ht) | rfl
    · exact p1
    · exact hks t ht
    · exact p2), Res.ok_bind]
  simp only [execAll]
  rw [exec_data env ⟨by decide, by decide⟩ (by unfold IsCond; decide) _ rfl]
  have he : ((tm :: ks ++ [tn]).map pushValue).reverse ++ (sigs.reverse ++ d :: rest) =
      pushValue tn :: (keys.reverse ++ pushValue tm :: (sigs.reverse ++ d :: rest)) := by
    simp [← hkeys]
  simp only [he]
  rw [show dataOp env (Script.instrOf ⟨0xae, []⟩) = opCheckMultiSig env from rfl, hb]
  rfl

open Script in
/-- **C30.** Recognising multisig scripts: an instruction list is recognised exactly when it is a small
number, one or more keys of 33 or 65 bytes, the number of these keys as a small number, CHECKMULTISIG. -/
theorem C30_recognised_iff (is : List Instruction) :
    isMultiSig is = true ↔ ∃ a ks c e, is = a :: ks ++ [c, e] ∧ ks ≠ [] ∧
      (a.op.value = 0x00 ∨ 0x51 ≤ a.op.value ∧ a.op.value ≤ 0x60) ∧
      (c.op.value.toNat = 0x50 + ks.length ∧ ks.length ≤ 16) ∧ e.op.value = 0xae ∧
      ∀ k ∈ ks, k.data.length = 33 ∨ k.data.length = 65 := by
  have small : ∀ i : Instruction, isSmallInt i = true ↔ (i.op.value = 0x00 ∨ 0x51 ≤ i.op.value ∧ i.op.value ≤ 0x60) := by
    intro i; simp [isSmallInt]
  have count : ∀ (i : Instruction) (n : Nat), 0 < n → ((isSmallInt i = true ∧ asSmallInt i = n) ↔
      (i.op.value.toNat = 0x50 + n ∧ n ≤ 16)) := by
    intro i n hn
    rw [small, asSmallInt]
    generalize i.op.value = v
    rw [show (v = 0 ∨ 0x51 ≤ v ∧ v ≤ 0x60) ↔ (v.toNat = 0 ∨ 0x51 ≤ v.toNat ∧ v.toNat ≤ 0x60) by
      simp only [UInt8.le_iff_toNat_le, ← UInt8.toNat_inj]; simp]
    by_cases h0 : v = 0
    · subst h0; simp; omega
    · rw [if_neg h0]
      have h1 : v.toNat ≠ 0 := fun h => h0 (UInt8.toNat_inj.mp h)
      by_cases hv : 0x50 ≤ v.toNat
      · have : (v - 0x50).toNat = v.toNat - 0x50 := by
          rw [UInt8.toNat_sub_of_le _ _ (by rw [UInt8.le_iff_toNat_le]; exact hv)]; rfl
        rw [this]; omega
      · omega
  constructor
  · intro h
    have hl : 4 ≤ is.length := by
      by_contra hc
      unfold isMultiSig at h
      rw [if_pos (by omega)] at h
      cases h
    obtain ⟨ini, e, rfl⟩ : ∃ ini e, is = ini ++ [e] := by
      rcases ScriptNum.nil_or_snoc is with rfl | ⟨l, b, rfl⟩
      · simp at hl
      · exact ⟨_, _, rfl⟩
    obtain ⟨ini, c, rfl⟩ : ∃ ini' c, ini = ini' ++ [c] := by
      rcases ScriptNum.nil_or_snoc ini with rfl | ⟨l, b, rfl⟩
      · simp at hl
      · exact ⟨_, _, rfl⟩
    cases ini with
    | nil => simp at hl
    | cons a ks =>
      rw [show a :: ks ++ [c] ++ [e] = a :: ks ++ [c, e] by simp] at h ⊢
      obtain ⟨h1, h2, h3, h4, h5, h6⟩ := (isMultiSig_shape a c e ks).mp h
      exact ⟨a, ks, c, e, rfl, h1, (small a).mp h2, (count c _ (List.length_pos_iff.mpr h1)).mp ⟨h3, h5⟩, h4, h6⟩
  · rintro ⟨a, ks, c, e, rfl, h1, h2, h3, h4, h5⟩
    obtain ⟨h6, h7⟩ := (count c _ (List.length_pos_iff.mpr h1)).mpr h3
    exact (isMultiSig_shape a c e ks).mpr ⟨h1, (small a).mpr h2, h6, h4, h7, h5⟩

open Script VM in
/-- **C30.** Every generated policy over 1 to 16 keys of the two standard lengths is recognised. -/
theorem C30_recognised (m : Nat) (keys : List Bytes) (hmn : m ≤ keys.length) (h1 : 1 ≤ keys.length)
    (hn : keys.length ≤ 16) (hk : ∀ k ∈ keys, k.length = 33 ∨ k.length = 65) (s : Bytes)
    (hs : genMultiSig m keys = .ok s) (hl : s.length < 2^62) :
    ∃ is, allInstructions s = .ok is ∧ isMultiSig is = true := by
  have hk' : ∀ k ∈ keys, k.length < 2^32 := fun k h => by rcases hk k h with h | h <;> omega
  have hg := genMultiSig_small hmn hn hk'
  have sm : ∀ k : Fin 17, (⟨smallOp k.val, []⟩ : Token).Valid ∧ (smallOp k.val = 0x00 ∨ 0x51 ≤ smallOp k.val ∧ smallOp k.val ≤ 0x60) ∧
      (0 < k.val → (smallOp k.val).toNat = 0x50 + k.val) := by unfold Token.Valid; decide +kernel
  have h81 : ∀ k ∈ keys, k ≠ [0x81] := fun k h e => by subst e; rcases hk _ h with h | h <;> simp at h
  have hv : ∀ t ∈ (⟨smallOp m, []⟩ :: keys.map pushToken ++ [⟨smallOp keys.length, []⟩, ⟨0xae, []⟩] : List Token), t.Valid := by
    intro t ht
    rw [List.mem_append, List.mem_cons] at ht
    rcases ht with (rfl | ht) | ht
    · exact (sm ⟨m, by omega⟩).1
    · obtain ⟨k, hk2, rfl⟩ := List.mem_map.mp ht
      exact pushToken_valid (hk' k hk2) (h81 k hk2)
    · simp only [List.mem_cons, List.not_mem_nil, or_false] at ht
      rcases ht with rfl | rfl
      · exact (sm ⟨keys.length, by omega⟩).1
      · exact ⟨by decide, by decide⟩
  rw [hg] at hs
  have hs := Res.ok.inj hs
  rw [← hs] at hl ⊢
  rcases allInstructions_tokens hv (Or.inl rfl) (by rw [List.append_nil]; exact hl) with ⟨_, h⟩ | ⟨h, _⟩
  · rw [List.append_nil] at h
    refine ⟨_, h, ?_⟩
    rw [C30_recognised_iff]
    refine ⟨instrOf ⟨smallOp m, []⟩, (keys.map pushToken).map instrOf, instrOf ⟨smallOp keys.length, []⟩,
      instrOf ⟨0xae, []⟩, by simp, by simp; rintro rfl; simp at h1, ?_, ?_, by decide +kernel, ?_⟩
    · rw [instrOf_value (sm ⟨m, by omega⟩).1.1]
      exact (sm ⟨m, by omega⟩).2.1
    · rw [instrOf_value (sm ⟨keys.length, by omega⟩).1.1]
      simp only [List.length_map]
      exact ⟨(sm ⟨keys.length, by omega⟩).2.2 h1, hn⟩
    · intro k hk2
      obtain ⟨t, ht, rfl⟩ := List.mem_map.mp hk2
      obtain ⟨d, hd, rfl⟩ := List.mem_map.mp ht
      have hlen := hk d hd
      have : (instrOf (pushToken d)).data = d := by
        unfold pushToken
        rw [if_neg (by omega), if_neg (by omega), if_neg (by omega), if_neg (by omega), if_pos (by omega)]
        rfl
      rw [this]; exact hlen
  · obtain ⟨_, _, h, _⟩ := h; cases h

example : genMultiSig 1 [[2, 3], [4, 5]] = .ok [0x51, 2, 2, 3, 2, 4, 5, 0x52, 0xae] := by decide +kernel

end Toku.Props
