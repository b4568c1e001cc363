import Verif.Props.Locking
import Verif.Props.Keys
/-
Property C30 for numbers of required signatures below one, and property C60 as an equivalence. The number of required signatures is an `int`
of xcore/script_multsig.go:44, 64 bits wide, and only compared with the number of keys.
-/
namespace Toku.Props
open Toku Toku.Spec Toku.Script Toku.VM Toku.Locking

/-- what is written for a negative number other than -1 -/
private theorem addInt64_neg (b : Buffer) (m : ℤ) (h1 : -2 ^ 63 < m) (h2 : m ≤ -2) : ∃ b' d, addInt64 b m = .ok b' ∧
    b'.data = b.data ++ Token.enc (pushToken d) ∧ IsPush (pushToken d) ∧ pushValue (pushToken d) = d ∧
    (-(2 ^ 31 - 1) ≤ m → ScriptNum.make d 4 = .ok m) ∧ (m < -(2 ^ 31 - 1) → ScriptNum.make d 4 = .err ScriptNum.tooBig) := by
  unfold addInt64
  rw [if_neg (by omega), if_neg (by omega)]
  obtain ⟨d, e, hmin, h8, hv⟩ := ScriptNum.bytes_spec (n := m) (by omega) (by omega)
  rw [e, Res.ok_bind]
  have h0 : d ≠ [0x00] := by
    rintro rfl; revert hmin; rw [← ScriptNum.checkMinimal_iff]; decide +kernel
  have hm8 : ScriptNum.make d 8 = .ok m := (C15_accepts_iff d 8 (by omega) m).mpr ⟨h8, by omega, by omega, e⟩
  have h81 : d ≠ [0x81] := by
    rintro rfl
    have : ScriptNum.make [0x81] 8 = .ok (-1) := by decide +kernel
    rw [this] at hm8; have := Res.ok.inj hm8; omega
  refine ⟨_, d, rfl, addData_data _ _ (by omega), pushToken_isPush (by omega) h81, pushToken_value h0 h81, fun h => ?_, fun h => ?_⟩
  · exact (C15_accepts_iff d 4 (by omega) m).mpr
      ⟨by rw [ScriptNum.length_le_iff hmin 4 (by omega), hv]; norm_num; omega, by omega, by omega, e⟩
  · have : ¬ d.length ≤ 4 := by rw [ScriptNum.length_le_iff hmin 4 (by omega), hv]; norm_num; omega
    unfold ScriptNum.make
    rw [if_pos (by omega)]

/-- **C30**, exactly which numbers of required signatures a script is generated for: all that are at most the number of keys, also zero and
negative ones; for the least `int` the program stops. -/
theorem C30_generated_exact (m : ℤ) (h1 : -2 ^ 63 ≤ m) (keys : List Bytes) (hn : keys.length < 2 ^ 31) :
    (genMultiSig m keys = .panic ↔ m = -2 ^ 63) ∧ ((∃ s, genMultiSig m keys = .ok s) ↔ m ≠ -2 ^ 63 ∧ m ≤ keys.length) := by
  by_cases hm : 1 ≤ m
  · have hi := C30_generated_iff_partial m hm keys hn
    refine ⟨⟨fun h => ?_, fun h => by omega⟩, by rw [hi]; omega⟩
    by_cases hl : m ≤ keys.length
    · obtain ⟨s, e⟩ := hi.mpr hl; rw [e] at h; cases h
    · unfold genMultiSig at h; rw [if_pos (by omega)] at h; cases h
  unfold genMultiSig
  rw [if_neg (by omega)]
  by_cases hmin : m = -2 ^ 63
  · subst hmin
    have : addInt64 Buffer.new (-2 ^ 63) = .panic := by
      unfold addInt64
      rw [if_neg (by omega), if_neg (by omega), C14_min_panics]
      rfl
    rw [this]
    refine ⟨⟨fun _ => rfl, fun _ => rfl⟩, ⟨?_, fun h => absurd rfl h.1⟩⟩
    rintro ⟨s, h⟩; cases h
  have : ∃ b1, addInt64 Buffer.new m = .ok b1 := by
    by_cases h0 : m = 0
    · exact ⟨_, by unfold addInt64; rw [if_pos h0]⟩
    by_cases h0 : m = -1
    · exact ⟨_, by unfold addInt64; rw [if_neg (by omega), if_pos (Or.inl h0)]⟩
    · obtain ⟨b, _, e, _⟩ := addInt64_neg Buffer.new m (by omega) (by omega)
      exact ⟨b, e⟩
  obtain ⟨b1, e1⟩ := this
  obtain ⟨b2, _, e2, _⟩ := addInt64_token (keys.foldl Script.addData b1) keys.length hn
  rw [e1, Res.ok_bind]
  dsimp only
  rw [e2, Res.ok_bind]
  refine ⟨⟨fun h => ?_, fun h => absurd h hmin⟩, ⟨fun _ => ⟨hmin, by omega⟩, fun _ => ⟨_, rfl⟩⟩⟩
  cases h

/-- **C30**, what the scripts for zero and for negative numbers do. For zero, anyone can spend with a single push; for -1, the script does not
parse; for numbers that fit four bytes, the program that checks a spending transaction stops; for those that do not, the check fails. -/
theorem C30_nonpositive (env : Env) (m : ℤ) (h1 : -2 ^ 63 < m) (h0 : m ≤ 0) (keys : List Bytes) (hn : keys.length < 2 ^ 31)
    (hk : ∀ k ∈ keys, k.length < 2 ^ 32 ∧ k ≠ [0x00] ∧ k ≠ [0x81]) (s : Bytes) (hs : genMultiSig m keys = .ok s) (hl : s.length < 2 ^ 62)
    (stack : Stack) :
    (m = 0 → ∀ d, execute env s false ⟨d :: stack, []⟩ = .ok ⟨[1] :: stack, []⟩) ∧
    (m = -1 → ∃ e, execute env s false ⟨stack, []⟩ = .err e) ∧
    (-(2 ^ 31 - 1) ≤ m ∧ m ≤ -2 → execute env s false ⟨stack, []⟩ = .panic) ∧
    (m < -(2 ^ 31 - 1) → ∃ e, execute env s false ⟨stack, []⟩ = .err e) := by
  have tail : ∀ (tm tn : Token) (b1 b2 : Buffer), addInt64 Buffer.new m = .ok b1 → b1.data = Token.enc tm → IsPush tm →
      addInt64 (keys.foldl addData b1) keys.length = .ok b2 → b2.data = (keys.foldl addData b1).data ++ Token.enc tn → IsPush tn →
      ∀ st, execute env s false ⟨st, []⟩ =
        (opCheckMultiSig env (pushValue tn :: (keys.reverse ++ pushValue tm :: st)) >>= fun t => .ok ⟨t, []⟩) := by
    intro tm tn b1 b2 e1 d1 p1 e2 d2 p2 st
    unfold genMultiSig at hs
    rw [if_neg (by omega), e1, Res.ok_bind] at hs
    dsimp only at hs
    rw [e2, Res.ok_bind] at hs
    have hse : s = encTokens ((tm :: keys.map pushToken ++ [tn]) ++ [⟨0xae, []⟩]) := by
      have := (Res.ok.inj hs).symm
      rw [this]
      simp only [addOp, Buffer.writeU8, d2, foldl_addData keys (fun k h => (hk k h).1), d1]
      simp [encTokens, Token.enc, lenWidth, leBytes]
    have hps : ∀ t ∈ tm :: keys.map pushToken ++ [tn], IsPush t := by
      intro t ht
      simp only [List.mem_append, List.mem_cons, List.not_mem_nil, or_false, List.mem_map] at ht
      rcases ht with (rfl | ⟨k, hk', rfl⟩) | rfl
      · exact p1
      · exact pushToken_isPush (hk k hk').1 (hk k hk').2.2
      · exact p2
    have hv : ∀ t ∈ (tm :: keys.map pushToken ++ [tn]) ++ [⟨0xae, []⟩], Token.Valid t := by
      intro t ht
      rcases List.mem_append.mp ht with h | h
      · exact (hps t h).1
      · rw [List.mem_singleton.mp h]; exact ⟨by decide, by decide⟩
    rw [execute_false, hse, run_tokens env hv (by rw [← hse]; exact hl), execAll_append, execAll_pushes env hps, Res.ok_bind]
    simp only [execAll]
    rw [exec_data env ⟨by decide, by decide⟩ (by unfold IsCond; decide) _ rfl]
    have hkeys : (keys.map pushToken).map pushValue = keys := by
      rw [List.map_map]
      conv_rhs => rw [← List.map_id keys]
      apply List.map_congr_left
      intro k hk'
      exact pushToken_value (hk k hk').2.1 (hk k hk').2.2
    have he : ((tm :: keys.map pushToken ++ [tn]).map pushValue).reverse ++ st =
        pushValue tn :: (keys.reverse ++ pushValue tm :: st) := by
      rw [List.map_append, List.map_cons, hkeys]; simp
    simp only [he]
    rw [show dataOp env (Script.instrOf ⟨0xae, []⟩) = opCheckMultiSig env from rfl]
    cases opCheckMultiSig env (pushValue tn :: (keys.reverse ++ pushValue tm :: st)) <;> rfl
  have head : ∀ x y rest, ScriptNum.make x 4 = .ok (keys.length : ℤ) →
      opCheckMultiSig env (x :: (keys.reverse ++ y :: rest)) = (popInt (y :: rest) >>= fun p =>
        if ScriptNum.int32 p.1 > keys.length then .err errExec else if ScriptNum.int32 p.1 < 0 then .panic else
        popMany (ScriptNum.int32 p.1).toNat p.2 >>= fun q => pop q.2 >>= fun r => multisigLoop env q.1 keys.reverse >>= fun b =>
          .ok (boolBytes b :: r.2)) := by
    intro x y rest hx
    unfold opCheckMultiSig
    rw [popInt_cons hx, Res.ok_bind]
    simp only
    rw [int32_small hn, if_neg (by omega)]
    have h1 : popMany (keys.length : Int).toNat (keys.reverse ++ y :: rest) = .ok (keys.reverse, y :: rest) := by
      have := popMany_append keys.reverse (y :: rest)
      simpa using this
    rw [h1, Res.ok_bind]
    rfl
  refine ⟨fun hm d => ?_, fun hm => ?_, fun hm => ?_, fun hm => ?_⟩
  · subst hm
    obtain ⟨b1, tm, e1, d1, p1, v1⟩ := addInt64_token Buffer.new 0 (by omega)
    obtain ⟨b2, tn, e2, d2, p2, v2⟩ := addInt64_token (keys.foldl addData b1) keys.length hn
    rw [tail tm tn b1 b2 e1 (by rw [d1]; rfl) p1 e2 d2 p2, head _ _ _ v2, popInt_cons v1]
    rw [Res.ok_bind, if_neg (by unfold ScriptNum.int32; simp), if_neg (by unfold ScriptNum.int32; simp)]
    simp [ScriptNum.int32, popMany, pop, multisigLoop, boolBytes]
    rfl
  · subst hm
    have : ∃ r, s = 0x4f :: r := by
      unfold genMultiSig at hs
      rw [if_neg (by omega), show addInt64 Buffer.new (-1) = .ok (Buffer.new.writeU8 0x4f) from rfl, Res.ok_bind] at hs
      dsimp only at hs
      obtain ⟨b2, tn, e2, d2, p2, v2⟩ := addInt64_token (keys.foldl addData (Buffer.new.writeU8 0x4f)) keys.length hn
      rw [e2, Res.ok_bind] at hs
      have := (Res.ok.inj hs).symm
      rw [this]
      simp only [addOp, Buffer.writeU8, d2, foldl_addData keys (fun k h => (hk k h).1)]
      exact ⟨_, rfl⟩
    obtain ⟨r, rfl⟩ := this
    have hst : Stuck (0x4f :: r) := ⟨_, _, rfl, Or.inl (by decide)⟩
    rw [execute_false]
    have hr := Buffer.rd_reader _ hl
    rcases runLoop_tokens env [] (by simp) (0x4f :: r) (Or.inr hst) _ ((0x4f :: r).length + 1) ⟨stack, []⟩ hr (by simp) with ⟨h, _⟩ | ⟨_, h⟩
    · cases h
    · obtain ⟨e, h⟩ := h
      exact ⟨e, h⟩
  · obtain ⟨b1, d, e1, d1, p1, v1, hm4, _⟩ := addInt64_neg Buffer.new m h1 hm.2
    obtain ⟨b2, tn, e2, d2, p2, v2⟩ := addInt64_token (keys.foldl addData b1) keys.length hn
    rw [tail _ tn b1 b2 e1 (by rw [d1]; rfl) p1 e2 d2 p2, head _ _ _ v2, v1, popInt_cons (hm4 hm.1), Res.ok_bind]
    have : ScriptNum.int32 m = m := by unfold ScriptNum.int32; split_ifs <;> omega
    dsimp only
    rw [this, if_neg (by omega), if_pos (by omega)]
    rfl
  · obtain ⟨b1, d, e1, d1, p1, v1, _, hm4⟩ := addInt64_neg Buffer.new m h1 (by omega)
    obtain ⟨b2, tn, e2, d2, p2, v2⟩ := addInt64_token (keys.foldl addData b1) keys.length hn
    rw [tail _ tn b1 b2 e1 (by rw [d1]; rfl) p1 e2 d2 p2, head _ _ _ v2, v1]
    have : popInt (d :: stack) = .err ScriptNum.tooBig := by
      unfold popInt
      rw [show pop (d :: stack) = .ok (d, stack) from rfl, Res.ok_bind]
      simp only
      rw [hm4 hm]; rfl
    rw [this]
    exact ⟨_, rfl⟩

/-- All four cases: -5 of two keys stops the program whatever is on the stack, 0 of two keys is satisfied by any push. -/
example : ∃ s, genMultiSig (-5) [[2, 3], [2, 4]] = .ok s ∧ execute toyEnv s false ⟨[[7], []], []⟩ = .panic :=
  ⟨_, rfl, by decide +kernel⟩

example : (∃ s, genMultiSig 0 [[2, 3], [2, 4]] = .ok s ∧ execute toyEnv s false ⟨[[7]], []⟩ = .ok ⟨[[1]], []⟩) ∧
    (∃ s, genMultiSig (-1) [[2, 3], [2, 4]] = .ok s ∧ ∃ e, execute toyEnv s false ⟨[[7]], []⟩ = .err e) ∧
    (∃ s, genMultiSig (-2 ^ 40) [[2, 3], [2, 4]] = .ok s ∧ ∃ e, execute toyEnv s false ⟨[[7]], []⟩ = .err e) :=
  ⟨⟨_, rfl, by decide +kernel⟩, ⟨_, rfl, _, rfl⟩, ⟨_, rfl, _, rfl⟩⟩

open Keys Curve in
/-- **C60**, exactly which byte strings are accepted as which public keys: the three standard serialisations of the finite points, and the
uncompressed one with prefix 5. -/
theorem C60_accepted_iff (bs : Bytes) (k : PubKey) : pubFromBytes bs = .ok k ↔ ∃ q : Pt, q ≠ 0 ∧ k = keyOf q ∧
    (Compressed q bs ∨ Uncompressed q bs ∨ Hybrid q bs ∨ ∃ r, bs = 5 :: r ∧ Uncompressed q (4 :: r)) := by
  constructor
  · intro h
    exact (C60_accepted_partial bs k h).2.2.2
  · rintro ⟨q, hq, rfl, h | h | h | ⟨r, rfl, xb, yb, hx, hy, e⟩⟩
    · exact C59_parse q hq bs (Or.inl h)
    · exact C59_parse q hq bs (Or.inr (Or.inl h))
    · exact C59_parse q hq bs (Or.inr (Or.inr h))
    · obtain ⟨_, rfl⟩ := List.cons.inj e
      exact parse_long hq hx hy (Or.inl (by decide))

/-- The string with prefix 5 is accepted, as the base point. -/
example : Keys.pubFromBytes prefix5 = .ok (keyOf Curve.G) := C60_negation.1

end Toku.Props
