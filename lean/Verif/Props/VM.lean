import Verif.Proof.Under
/-
Properties C21 to C28: the script engine (xvm/engine.go, xvm/instruction_*.go).
-/
namespace Toku.Props
open Toku Toku.Spec Toku.VM Toku.Script

/-- An environment for examples: the hash is the identity on the first 20 bytes, the signature hash is the
hash type byte, and a signature is valid for a key if it equals the key. -/
def toyEnv : Env where
  hash160 x := x.take 20
  sigHasher := some fun t => .ok [t]
  sigVerifier := some fun _ sig key => if sig = key then .ok () else .err (.other 0)

/-- **C21.** With `n` keys and `m ≤ n` non-empty signatures on the stack, OP_CHECKMULTISIG pushes true
exactly when the signatures match, in order, a subsequence of the keys. `K` and `S` are in the order in
which they were pushed; `d` is the extra element that is dropped. -/
theorem C21_multisig_iff (env : Env) (K S : List Bytes) (ho : Oracles env S K) (hS : ∀ s ∈ S, s ≠ [])
    (hSK : S.length ≤ K.length) (hK : K.length < 2^31) (x y d : Bytes)
    (hx : ScriptNum.make x 4 = .ok (K.length : Int)) (hy : ScriptNum.make y 4 = .ok (S.length : Int)) (rest : Stack) :
    ∃ b, opCheckMultiSig env (x :: (K.reverse ++ y :: (S.reverse ++ d :: rest))) = .ok (boolBytes b :: rest) ∧
      (b = true ↔ Matching (SigOk env) S K) :=
  opCheckMultiSig_spec ho hS hSK hK hx hy rest

/-- **C21.** With more signatures than keys the instruction is an error. -/
theorem C21_too_many_sigs (env : Env) (K : List Bytes) (hK : K.length < 2^31) (m : Nat) (hm : m < 2^31)
    (x y : Bytes) (hx : ScriptNum.make x 4 = .ok (K.length : Int)) (hy : ScriptNum.make y 4 = .ok (m : Int))
    (hlt : K.length < m) (rest : Stack) :
    ∃ e, opCheckMultiSig env (x :: (K.reverse ++ y :: rest)) = .err e := by
  unfold opCheckMultiSig
  rw [popInt_cons hx, Res.ok_bind]
  simp only
  rw [int32_small hK, if_neg (by omega)]
  have h1 : popMany (K.length : Int).toNat (K.reverse ++ y :: rest) = .ok (K.reverse, y :: rest) := by
    have := popMany_append K.reverse (y :: rest)
    simpa using this
  rw [h1, Res.ok_bind]
  simp only
  rw [popInt_cons hy, Res.ok_bind]
  simp only
  rw [int32_small hm, if_pos (by omega)]
  exact ⟨_, rfl⟩

/-- Two of three: keys a, b, c and signatures for a and c are accepted, c and a are not. -/
example : opCheckMultiSig toyEnv [[3], [12], [11], [10], [2], [12, 1], [10, 1], []] = .ok [[1]] ∧
    opCheckMultiSig toyEnv [[3], [12], [11], [10], [2], [10, 1], [12, 1], []] = .ok [[]] := by
  constructor <;> decide +kernel

example : Oracles toyEnv [[10, 1], [12, 1]] [[10], [11], [12]] :=
  ⟨_, _, rfl, rfl, fun der t _ => ⟨⟨_, rfl⟩, fun h k _ => by split <;> simp⟩⟩

private theorem run_panic {env : Env} (hc : CallbacksSafe env) (hh : ∀ x, (env.hash160 x).length < 2^62)
    {s : Bytes} (hl : s.length < 2^62) {vm : State} (hs : SmallStack vm.dstack) (h : run env s vm = .panic) :
    ∃ pre t post tail vm1, s = encTokens (pre ++ t :: post) ++ tail ∧ (∀ u ∈ pre ++ t :: post, Token.Valid u) ∧
      execAll env pre vm = .ok vm1 ∧ (t.op = 0xae ∨ t.op = 0xaf) ∧ branchShouldSkip vm1 = false ∧
      MultisigFault env vm1.dstack := by
  obtain ⟨ts, tail, hv, rfl, ht⟩ := tokens_exist s
  have hlen : (encTokens ts).length < 2^62 := by simp at hl; omega
  have hp : execAll env ts vm = .panic := by
    rcases ht with rfl | ht
    · rw [List.append_nil] at h hl
      rw [run_tokens env hv hl] at h; exact h
    · obtain ⟨e, he⟩ := run_stuck env hv ht hl vm
      rw [he, Res.bind_eq_panic] at h
      rcases h with h | ⟨_, _, h⟩
      · exact h
      · cases h
  obtain ⟨pre, t, post, vm1, rfl, h1, h2, h3, h4⟩ := execAll_panic hc hh hv
    (fun t ht => by have := data_le_enc ht; omega) hs hp
  exact ⟨pre, t, post, tail, vm1, rfl, hv, h1, h2, h3, h4⟩

private theorem run_small {env : Env} (hh : ∀ x, (env.hash160 x).length < 2^62) {s : Bytes} (hl : s.length < 2^62)
    {vm vm' : State} (hs : SmallStack vm.dstack) (h : run env s vm = .ok vm') : SmallStack vm'.dstack := by
  obtain ⟨ts, hv, rfl, h'⟩ := run_ok hl h
  exact execAll_small hh hv (fun t ht => by have := data_le_enc ht; omega) hs h'

private theorem execute_panic {env : Env} {s : Bytes} {final : Bool} {vm : State} (h : execute env s final vm = .panic) :
    run env s vm = .panic := by
  unfold execute at h
  rw [Res.bind_eq_panic] at h
  rcases h with h | ⟨vm1, h1, h⟩
  · exact h
  · exfalso
    split at h
    · split at h
      · revert h
        exact bind_ne_panic (popBool_np _) fun _ _ => by dsimp only; split <;> simp
      · cases h
    · cases h

/-- A CHECKMULTISIG instruction of the script is reached, in an executing branch, with a fault on the stack. -/
def ReachesFault (env : Env) (script : Bytes) (vm : State) : Prop :=
  ∃ pre t post tail vm1, script = encTokens (pre ++ t :: post) ++ tail ∧ (∀ u ∈ pre ++ t :: post, Token.Valid u) ∧
    execAll env pre vm = .ok vm1 ∧ (t.op = 0xae ∨ t.op = 0xaf) ∧ branchShouldSkip vm1 = false ∧
    MultisigFault env vm1.dstack

private theorem fault_run {env : Env} (hc : CallbacksSafe env) {s : Bytes} (hl : s.length < 2^62) {vm : State}
    (h : ReachesFault env s vm) : run env s vm = .panic := by
  obtain ⟨pre, t, post, tail, vm1, rfl, hv, h1, h2, h3, h4⟩ := h
  obtain ⟨ts, tail', hv', rfl, ht⟩ := tokens_exist tail
  have hall : ∀ u ∈ (pre ++ t :: post) ++ ts, Token.Valid u := by
    intro u hu
    rcases List.mem_append.mp hu with hu | hu
    · exact hv u hu
    · exact hv' u hu
  rw [← List.append_assoc, show encTokens (pre ++ t :: post) ++ encTokens ts = encTokens ((pre ++ t :: post) ++ ts) from
    (List.flatMap_append ..).symm] at hl ⊢
  have hp : execAll env ((pre ++ t :: post) ++ ts) vm = .panic := by
    rw [List.append_assoc, List.cons_append, execAll_append, h1, Res.ok_bind]
    simp only [execAll]
    rw [exec_faulty hc (hv t (by simp)) h2 h3 h4]
    rfl
  have hlen : (encTokens ((pre ++ t :: post) ++ ts)).length < 2^62 := by
    rw [List.length_append] at hl; omega
  rcases ht with rfl | ht
  · rw [List.append_nil, run_tokens env hall hlen]; exact hp
  · obtain ⟨e, he⟩ := run_stuck env hall ht hl vm
    rw [he, hp]; rfl

/-- **C22 (partial).** Full statement: Execute never panics. It is false; it panics exactly if a
CHECKMULTISIG is reached with a negative key count, a negative signature count, or signatures whose checks come to an
empty signature or a missing callback (`MultisigFault`). -/
theorem C22_execute_panics_iff_partial (env : Env) (hc : CallbacksSafe env) (hh : ∀ x, (env.hash160 x).length < 2^62)
    (script : Bytes) (hl : script.length < 2^62) (final : Bool) (vm : State) (hs : SmallStack vm.dstack) :
    execute env script final vm = .panic ↔ ReachesFault env script vm := by
  refine ⟨fun h => run_panic hc hh hl hs (execute_panic h), fun h => ?_⟩
  have := fault_run hc hl h
  unfold run at this
  unfold execute
  rw [this]
  rfl

/-- **C22 (partial).** A script without CHECKMULTISIG never panics. -/
theorem C22_no_multisig_no_panic_partial (env : Env) (hc : CallbacksSafe env) (hh : ∀ x, (env.hash160 x).length < 2^62)
    (ts : List Token) (hv : ∀ t ∈ ts, t.Valid) (tail : Bytes) (ht : tail = [] ∨ Stuck tail)
    (hl : (encTokens ts ++ tail).length < 2^62) (hno : ∀ t ∈ ts, t.op ≠ 0xae ∧ t.op ≠ 0xaf)
    (final : Bool) (vm : State) (hs : SmallStack vm.dstack) : execute env (encTokens ts ++ tail) final vm ≠ .panic := by
  intro h
  have hp := execute_panic h
  have hlen : (encTokens ts).length < 2^62 := by simp at hl; omega
  have hp : execAll env ts vm = .panic := by
    rcases ht with rfl | ht
    · rw [List.append_nil] at hp hl
      rw [run_tokens env hv hl] at hp; exact hp
    · obtain ⟨e, he⟩ := run_stuck env hv ht hl vm
      rw [he, Res.bind_eq_panic] at hp
      rcases hp with h | ⟨_, _, h⟩
      · exact h
      · cases h
  obtain ⟨pre, t, post, vm1, rfl, _, h2, _⟩ := execAll_panic hc hh hv
    (fun t ht => by have := data_le_enc ht; omega) hs hp
  have := hno t (by simp)
  tauto

/-- **C22 (partial).** Verify panics exactly by such a fault: in the unlocking script, in unlocking followed
by locking script, or, when these leave more than one element, in the redeem script that the unlocking script alone has left
on top of the stack. -/
theorem C22_verify_panics_iff_partial (env : Env) (hc : CallbacksSafe env) (hh : ∀ x, (env.hash160 x).length < 2^62)
    (u l : Bytes) (hl : (u ++ l).length < 2^62) (vm : State) (hs : SmallStack vm.dstack) :
    verify env u l vm = .panic ↔
    ReachesFault env u vm ∨
    ∃ vm1, execute env u false vm = .ok vm1 ∧
      (ReachesFault env (u ++ l) ⟨[], vm1.cstack⟩ ∨
       ∃ vm2, execute env (u ++ l) true ⟨[], vm1.cstack⟩ = .ok vm2 ∧ vm2.dstack.length > 1 ∧
         ∃ redeem rest, vm1.dstack = redeem :: rest ∧ ReachesFault env redeem ⟨rest, vm2.cstack⟩) := by
  have hl' : u.length + l.length < 2^62 := by simpa using hl
  have hsmall : ∀ vm1, execute env u false vm = .ok vm1 → SmallStack vm1.dstack := by
    intro vm1 h1
    rw [execute_false] at h1
    exact run_small hh (by omega) hs h1
  unfold verify
  rw [Res.bind_eq_panic, C22_execute_panics_iff_partial env hc hh u (by omega) false vm hs]
  refine or_congr Iff.rfl (exists_congr fun vm1 => and_congr_right fun h1 => ?_)
  dsimp only
  rw [Res.bind_eq_panic, show reset vm1 = ⟨[], vm1.cstack⟩ from rfl,
    C22_execute_panics_iff_partial env hc hh (u ++ l) hl true ⟨[], vm1.cstack⟩ (by intro x hx; cases hx)]
  refine or_congr Iff.rfl (exists_congr fun vm2 => and_congr_right fun h2 => ?_)
  have hsm := hsmall vm1 h1
  by_cases hgt : vm2.dstack.length > 1
  · rw [if_pos hgt]
    cases hd : vm1.dstack with
    | nil =>
      refine ⟨(fun h => by cases h), ?_⟩
      rintro ⟨_, _, _, h, _⟩
      cases h
    | cons a r =>
      rw [hd] at hsm
      rw [show pop (a :: r) = .ok (a, r) from rfl, Res.ok_bind]
      dsimp only
      rw [C22_execute_panics_iff_partial env hc hh a (hsm a (by simp)) true ⟨r, vm2.cstack⟩ (fun x hx => hsm x (by simp [hx]))]
      refine ⟨fun h => ⟨hgt, a, r, rfl, h⟩, ?_⟩
      rintro ⟨_, _, _, h, h'⟩
      cases h
      exact h'
  · rw [if_neg hgt]
    exact ⟨(fun h => by cases h), fun h => absurd h.1 hgt⟩

/-- **C22, negation.** `-2 CHECKMULTISIG` panics: a negative key count. -/
theorem C22_negative_key_count_panics (env : Env) (l : Bytes) : verify env [0x01, 0x82, 0xae] l fresh = .panic := rfl

/-- **C22, negation.** `0 -2 CHECKMULTISIG`, a negative signature count, panics. -/
theorem C22_negative_sig_count_panics (env : Env) (l : Bytes) :
    verify env [0x01, 0x82, 0x00, 0xae] l fresh = .panic := rfl

/-- **C22, negation.** An empty signature panics: `0 0 1 <key> 1 CHECKMULTISIG` with any callbacks. -/
theorem C22_empty_sig_panics (env : Env) (l : Bytes) :
    verify env [0x00, 0x00, 0x51, 0x01, 0x77, 0x51, 0xae] l fresh = .panic := rfl

/-- An empty signature that the checks do not come to is no fault, and one they come to is. -/
example : opCheckMultiSig toyEnv [[2], [12], [11], [2], [10, 1], [], [0]] = .ok [[]] ∧
    opCheckMultiSig toyEnv [[2], [12], [11], [2], [12, 1], [], [0]] = .panic ∧
    LoopFault toyEnv [[12, 1], []] [[12], [11]] := by
  refine ⟨by decide +kernel, by decide +kernel, [[12, 1]], [], [], [[12]], [[11]], rfl, rfl, le_refl _, ⟨[[12]], List.Sublist.refl _, ?_⟩, .inl rfl⟩
  exact .cons ⟨_, _, [12], 1, _, rfl, rfl, rfl, rfl, rfl⟩ .nil

example : CallbacksSafe toyEnv ∧ ∀ x, (toyEnv.hash160 x).length < 2^62 := by
  refine ⟨⟨?_, ?_⟩, fun x => ?_⟩
  · rintro _ h; cases h; simp
  · rintro _ h; cases h; intro h s k; dsimp only; split <;> simp
  · have := List.length_take_le 20 x
    change (x.take 20).length < _
    omega

/-- The pay-to-pubkey-hash locking script. -/
def lockP2PKH (h : Bytes) : Bytes := [0x76, 0xa9, 0x14] ++ h ++ [0x88, 0xac]

def p2pkhTokens (h : Bytes) : List Token :=
  [⟨0x76, []⟩, ⟨0xa9, []⟩, ⟨0x14, h⟩, ⟨0x88, []⟩, ⟨0xac, []⟩]

theorem p2pkh_enc (h : Bytes) : lockP2PKH h = encTokens (p2pkhTokens h) := by
  simp [lockP2PKH, encTokens, p2pkhTokens, Token.enc, lenWidth, leBytes]

theorem p2pkh_valid {h : Bytes} (hh : h.length = 20) : ∀ t ∈ p2pkhTokens h, t.Valid := by
  intro t ht
  simp only [p2pkhTokens, List.mem_cons, List.not_mem_nil, or_false] at ht
  rcases ht with rfl | rfl | rfl | rfl | rfl
  · exact ⟨by decide, by decide⟩
  · exact ⟨by decide, by decide⟩
  · exact ⟨by simp only; decide, by simp only; rw [if_pos (by decide), hh]; rfl⟩
  · exact ⟨by decide, by decide⟩
  · exact ⟨by decide, by decide⟩

theorem p2pkh_exec (env : Env) (h : Bytes) (s : Stack) (cs : List Cond)
    (hcs : branchShouldSkip ⟨s, cs⟩ = false) :
    execAll env (p2pkhTokens h) ⟨s, cs⟩ = (do
      let s ← dupN s 1
      let s ← opHash160 env s
      let s ← (do equalVerify (← opEqual (h :: s)))
      let s ← opCheckSig env s
      return ⟨s, cs⟩) := by
  have hex : ∀ (i : Instruction) (x : Stack), exec env i ⟨x, cs⟩ = opfunc env i ⟨x, cs⟩ := by
    intro i x
    unfold exec
    rw [show branchShouldSkip ⟨x, cs⟩ = false from hcs]
    rfl
  simp only [p2pkhTokens, execAll]
  rw [show exec env (instrOf ⟨0x76, []⟩) ⟨s, cs⟩ = (dupN s 1 >>= fun s => .ok ⟨s, cs⟩) from by rw [hex]; rfl]
  cases dupN s 1 with
  | err e => rfl
  | panic => rfl
  | ok s1 =>
    simp only [Res.ok_bind]
    rw [show exec env (instrOf ⟨0xa9, []⟩) ⟨s1, cs⟩ = (opHash160 env s1 >>= fun s => .ok ⟨s, cs⟩) from by rw [hex]; rfl]
    cases opHash160 env s1 with
    | err e => rfl
    | panic => rfl
    | ok s2 =>
      simp only [Res.ok_bind]
      rw [show exec env (instrOf ⟨0x14, h⟩) ⟨s2, cs⟩ = .ok ⟨h :: s2, cs⟩ from by rw [hex]; rfl]
      simp only [Res.ok_bind]
      rw [show exec env (instrOf ⟨0x88, []⟩) ⟨h :: s2, cs⟩ = ((do equalVerify (← opEqual (h :: s2))) >>= fun s => .ok ⟨s, cs⟩) from by rw [hex]; rfl]
      cases (do equalVerify (← opEqual (h :: s2))) with
      | err e => rfl
      | panic => rfl
      | ok s3 =>
        simp only [Res.ok_bind]
        rw [show exec env (instrOf ⟨0xac, []⟩) ⟨s3, cs⟩ = (opCheckSig env s3 >>= fun s => .ok ⟨s, cs⟩) from by rw [hex]; rfl]
        cases opCheckSig env s3 <;> rfl

private theorem checkSig_true {env : Env} {s r : Stack} {x : Bytes} (h : opCheckSig env s = .ok (x :: r)) (hb : asBool x = true) :
    ∃ key sig, s = key :: sig :: r ∧ SigOk env sig key := by
  unfold opCheckSig at h
  split at h
  · rename_i hasher verifier h1 h2
    simp only [Res.bind_eq_ok] at h
    obtain ⟨⟨key, s1⟩, ha, ⟨sig, s2⟩, hb', h⟩ := h
    cases s with
    | nil => cases ha
    | cons a s =>
      cases ha
      cases s with
      | nil => cases hb'
      | cons b s =>
        cases hb'
        dsimp only at h
        split at h
        · cases h; cases hb
        · rename_i hl
          rcases ScriptNum.nil_or_snoc sig with e | ⟨der, t, rfl⟩
          · rw [e] at hl; simp at hl
          · rw [splitSig_snoc, Res.ok_bind] at h
            simp only [Res.bind_eq_ok] at h
            obtain ⟨hash, hh, v, hv, h⟩ := h
            cases h
            have hvt : v = true := by cases v; cases hb; rfl
            subst hvt
            refine ⟨key, der ++ [t], rfl, hasher, verifier, der, t, hash, h1, h2, rfl, hh, ?_⟩
            cases hq : verifier hash der key <;> rw [hq] at hv <;> cases hv
  · cases h

/-- **C23 (partial).** For every unlocking script: if Verify succeeds, then the unlocking script, run a second time on an empty
stack with the conditionals it has left open, ends either in a branch that is skipped (so that nothing of the locking script
is executed), or with a key of the hash `h` on the stack above a signature that is good for it. -/
theorem C23_p2pkh_sound_all_partial (env : Env) (h : Bytes) (hh : h.length = 20) (u : Bytes)
    (hl : (u ++ lockP2PKH h).length < 2^62) (vm' : State) (hx : verify env u (lockP2PKH h) fresh = .ok vm') :
    ∃ vm1 vm2, execute env u false fresh = .ok vm1 ∧ execute env u false ⟨[], vm1.cstack⟩ = .ok vm2 ∧
      (branchShouldSkip vm2 = true ∨
       ∃ key sig rest, vm2.dstack = key :: sig :: rest ∧ env.hash160 key = h ∧ SigOk env sig key) := by
  have hl' : u.length < 2^62 := by simp at hl; omega
  unfold verify at hx
  rw [Res.bind_eq_ok] at hx
  obtain ⟨vm1, h1, hx⟩ := hx
  dsimp only at hx
  rw [Res.bind_eq_ok] at hx
  obtain ⟨vm4, h2, _⟩ := hx
  have h1' := h1
  rw [execute_false] at h1'
  obtain ⟨ts, hv, rfl, _⟩ := run_ok hl' h1'
  rw [show reset vm1 = ⟨[], vm1.cstack⟩ from rfl, execute_true] at h2
  obtain ⟨vm3, h3, h4⟩ := h2
  rw [run_append_ok hv hl] at h3
  obtain ⟨vm2, h2, h3⟩ := h3
  refine ⟨vm1, vm2, h1, by rw [execute_false, run_tokens env hv hl']; exact h2, ?_⟩
  by_cases hsk : branchShouldSkip vm2 = true
  · exact .inl hsk
  right
  have hl2 : (lockP2PKH h).length < 2^62 := by simp [lockP2PKH, hh]
  rw [p2pkh_enc] at h3 hl2
  rw [run_tokens env (p2pkh_valid hh) hl2] at h3
  rw [show vm2 = ⟨vm2.dstack, vm2.cstack⟩ from rfl, p2pkh_exec _ _ _ _ (by simpa using hsk)] at h3
  simp only [Res.bind_eq_ok] at h3
  obtain ⟨s1, e1, s2, e2, s3, ⟨s3', e3', e3⟩, s4, e4, h3⟩ := h3
  cases h3
  have hne : s4 ≠ [] := by
    intro h0; subst h0
    unfold opCheckSig at e4
    split at e4
    · simp only [Res.bind_eq_ok] at e4
      obtain ⟨⟨key, s1⟩, ha, ⟨sig, s2⟩, hb', e4⟩ := e4
      dsimp only at e4
      split at e4
      · cases e4
      · simp only [Res.bind_eq_ok] at e4
        obtain ⟨_, _, _, _, _, _, e4⟩ := e4
        cases e4
    · cases e4
  rcases h4 with ⟨h4, _⟩ | ⟨x, r, h4, hxt, _⟩
  · exact absurd h4 hne
  · simp only at h4
    subst h4
    obtain ⟨key, sig, rfl, hok⟩ := checkSig_true e4 hxt
    -- the stack before: dup, hash, compare
    cases hd : vm2.dstack with
    | nil => rw [hd] at e1; cases e1
    | cons a l =>
      rw [hd] at e1
      have : dupN (a :: l) 1 = .ok (a :: a :: l) := rfl
      rw [this] at e1; cases e1
      have : opHash160 env (a :: a :: l) = .ok (env.hash160 a :: a :: l) := rfl
      rw [this] at e2; cases e2
      have : opEqual (h :: env.hash160 a :: a :: l) = .ok (boolBytes (h == env.hash160 a) :: a :: l) := rfl
      rw [this] at e3'; cases e3'
      cases he : (h == env.hash160 a) with
      | false => rw [he] at e3; cases e3
      | true =>
        rw [he] at e3; cases e3
        exact ⟨key, sig, r, rfl, by simpa using (beq_iff_eq.mp he).symm, hok⟩

/-- **C23, negation.** The other case for every unlocking script: if it ends in a branch that is skipped, then Verify does
what it does for an empty locking script, whatever the hash. -/
theorem C23_skipped (env : Env) (h : Bytes) (hh : h.length = 20) (u : Bytes) (hl : (u ++ lockP2PKH h).length < 2^62) (vm1 vm2 : State)
    (h1 : execute env u false fresh = .ok vm1) (h2 : execute env u false ⟨[], vm1.cstack⟩ = .ok vm2)
    (hs : branchShouldSkip vm2 = true) : verify env u (lockP2PKH h) fresh = verify env u [] fresh := by
  have hl' : u.length < 2^62 := by simp at hl; omega
  have h1' := h1
  rw [execute_false] at h1' h2
  obtain ⟨ts, hv, rfl, _⟩ := run_ok hl' h1'
  have hrun : run env (encTokens ts ++ lockP2PKH h) ⟨[], vm1.cstack⟩ = .ok vm2 := by
    rw [run_append_ok hv hl]
    refine ⟨vm2, by rw [← run_tokens env hv hl']; exact h2, ?_⟩
    have hl2 : (encTokens (p2pkhTokens h)).length < 2^62 := by rw [← p2pkh_enc]; simp [lockP2PKH, hh]
    rw [p2pkh_enc, run_tokens env (p2pkh_valid hh) hl2]
    have hall : ∀ ts : List Token, (∀ t ∈ ts, t.Valid ∧ ¬ IsCond t) → execAll env ts vm2 = .ok vm2 := by
      intro ts
      induction ts with
      | nil => intro _; rfl
      | cons t ts ih =>
        intro ht
        simp only [execAll]
        rw [exec_skip env (ht t (by simp)).1 (ht t (by simp)).2 vm2 hs, Res.ok_bind]
        exact ih fun t h => ht t (by simp [h])
    apply hall
    intro t ht
    refine ⟨p2pkh_valid hh t ht, ?_⟩
    simp only [p2pkhTokens, List.mem_cons, List.not_mem_nil, or_false] at ht
    rcases ht with rfl | rfl | rfl | rfl | rfl <;> simp [IsCond]
  unfold verify
  simp only [h1, Res.ok_bind, List.append_nil]
  have : execute env (encTokens ts ++ lockP2PKH h) true (reset vm1) = execute env (encTokens ts) true (reset vm1) := by
    unfold execute
    unfold run at hrun h2
    rw [show reset vm1 = ⟨[], vm1.cstack⟩ from rfl, hrun, h2]
  rw [this]

/-- **C23 (partial).** Full statement: if Verify succeeds on a fresh engine for the pay-to-pubkey-hash
script of `h`, a key hashing to `h` and a signature valid under it were provided. Proved for unlocking
scripts with as many ENDIF as IF/NOTIF; for unbalanced ones it is false (`C23_unbalanced_spends`). The
key and signature are those on top of the stack after the unlocking script. -/
theorem C23_p2pkh_sound_partial (env : Env) (h : Bytes) (hh : h.length = 20) (ts : List Token)
    (hv : ∀ t ∈ ts, t.Valid) (hb : Balanced ts) (hl : (encTokens ts ++ lockP2PKH h).length < 2^62) (vm' : State)
    (hx : verify env (encTokens ts) (lockP2PKH h) fresh = .ok vm') :
    ∃ vm1 key sig rest, execute env (encTokens ts) false fresh = .ok vm1 ∧ vm1.dstack = key :: sig :: rest ∧
      env.hash160 key = h ∧ SigOk env sig key := by
  have hl' : (encTokens ts).length < 2^62 := by simp at hl; omega
  obtain ⟨vm1, vm2, h1, h2, hd⟩ := C23_p2pkh_sound_all_partial env h hh _ hl vm' hx
  have h1' := h1
  rw [execute_false, run_tokens env hv hl'] at h1'
  have hc := balanced_cstack hv hb h1'
  rw [hc, show (⟨[], []⟩ : State) = fresh from rfl, h1] at h2
  cases h2
  rcases hd with hd | ⟨key, sig, rest, hd⟩
  · simp [branchShouldSkip, hc] at hd
  · exact ⟨vm1, key, sig, rest, h1, hd⟩

/-- **C23, negation.** The unlocking script `OP_0 OP_IF` spends every pay-to-pubkey-hash output, with
every oracle: no key and no signature is needed. -/
theorem C23_unbalanced_spends (env : Env) (h : Bytes) (hh : h.length = 20) :
    ∃ vm', verify env [0x00, 0x63] (lockP2PKH h) fresh = .ok vm' := by
  have hv : ∀ t ∈ [(⟨0x00, []⟩ : Token), ⟨0x63, []⟩], t.Valid := by
    intro t ht
    simp only [List.mem_cons, List.not_mem_nil, or_false] at ht
    rcases ht with rfl | rfl <;> exact ⟨by decide, by decide⟩
  have he : [0x00, 0x63] = encTokens [⟨0x00, []⟩, ⟨0x63, []⟩] := rfl
  have hl : ([0x00, 0x63] ++ lockP2PKH h).length < 2^62 := by simp [lockP2PKH, hh]
  have hl2 : (encTokens (p2pkhTokens h)).length < 2^62 := by
    rw [← p2pkh_enc]; simp [lockP2PKH, hh]
  refine ⟨⟨[], [.skip, .no]⟩, ?_⟩
  unfold verify
  rw [show execute env [0x00, 0x63] false fresh = .ok ⟨[], [.no]⟩ from rfl, Res.ok_bind]
  dsimp only
  have h2 : execute env ([0x00, 0x63] ++ lockP2PKH h) true (reset ⟨[], [.no]⟩) = .ok ⟨[], [.skip, .no]⟩ := by
    rw [execute_true]
    refine ⟨⟨[], [.skip, .no]⟩, ?_, Or.inl ⟨rfl, rfl⟩⟩
    rw [he, run_append_ok hv (by rw [← he]; exact hl)]
    refine ⟨⟨[], [.skip, .no]⟩, rfl, ?_⟩
    rw [p2pkh_enc, run_tokens env (p2pkh_valid hh) hl2]
    rfl
  rw [h2]
  rfl

example : (verify toyEnv [0x00, 0x63] (lockP2PKH (List.replicate 20 7)) fresh).bind (fun _ => .ok ()) = .ok () := by
  decide +kernel

/-- **C24.** A key and a signature that verify unlock the script of the key's hash. The unlocking script
is built by two AddData calls. -/
theorem C24_p2pkh_complete (env : Env) (key sig : Bytes) (hsig : 9 ≤ sig.length ∧ sig.length ≤ 75)
    (hkey : key.length = 33 ∨ key.length = 65) (hh : (env.hash160 key).length = 20) (hok : SigOk env sig key) :
    verify env (addData (addData Buffer.new sig) key).data (lockP2PKH (env.hash160 key)) fresh = .ok fresh := by
  have s0 : sig ≠ [0x00] := by rintro rfl; simp at hsig
  have s81 : sig ≠ [0x81] := by rintro rfl; simp at hsig
  have k0 : key ≠ [0x00] := by rintro rfl; simp at hkey
  have k81 : key ≠ [0x81] := by rintro rfl; simp at hkey
  have he : (addData (addData Buffer.new sig) key).data = encTokens [pushToken sig, pushToken key] := by
    rw [addData_data _ _ (by omega), addData_data _ _ (by omega)]
    simp [encTokens, Buffer.new]
  have vs := pushToken_valid (d := sig) (by omega) s81
  have vk := pushToken_valid (d := key) (by omega) k81
  have hv : ∀ t ∈ [pushToken sig, pushToken key], t.Valid := by
    intro t ht
    simp only [List.mem_cons, List.not_mem_nil, or_false] at ht
    rcases ht with rfl | rfl <;> assumption
  have ps : pushToken sig = ⟨UInt8.ofNat sig.length, sig⟩ := by
    unfold pushToken
    rw [if_neg (by omega), if_neg (by omega), if_neg (by omega), if_neg (by omega), if_pos (by omega)]
  have pk : pushToken key = ⟨UInt8.ofNat key.length, key⟩ := by
    unfold pushToken
    rw [if_neg (by omega), if_neg (by omega), if_neg (by omega), if_neg (by omega), if_pos (by omega)]
  have push : ∀ t ∈ [pushToken sig, pushToken key], IsPush t := by
    intro t ht
    refine ⟨hv t ht, ?_⟩
    simp only [List.mem_cons, List.not_mem_nil, or_false] at ht
    rcases ht with rfl | rfl
    · rw [ps]; simp; omega
    · rw [pk]; simp; omega
  have val : [pushToken sig, pushToken key].map pushValue = [sig, key] := by
    rw [ps, pk]
    have e1 : (UInt8.ofNat sig.length).toNat = sig.length := by simp; omega
    have e2 : (UInt8.ofNat key.length).toNat = key.length := by simp; omega
    simp only [List.map_cons, List.map_nil, pushValue]
    rw [e1, e2, if_neg (by omega), if_pos (by omega), if_neg (by omega), if_pos (by omega)]
  have elen : (encTokens [pushToken sig, pushToken key]).length ≤ 142 := by
    rw [ps, pk]
    have e1 : (UInt8.ofNat sig.length).toNat = sig.length := by simp; omega
    have e2 : (UInt8.ofNat key.length).toNat = key.length := by simp; omega
    have w1 : lenWidth (UInt8.ofNat sig.length) = 0 := by
      unfold lenWidth; rw [e1, if_neg (by omega), if_neg (by omega), if_neg (by omega)]
    have w2 : lenWidth (UInt8.ofNat key.length) = 0 := by
      unfold lenWidth; rw [e2, if_neg (by omega), if_neg (by omega), if_neg (by omega)]
    simp [encTokens, enc_length, w1, w2]; omega
  have run1 := execAll_pushes env push []
  rw [val] at run1
  simp only [List.reverse_cons, List.reverse_nil, List.nil_append, List.cons_append, List.append_nil] at run1
  have ll : (lockP2PKH (env.hash160 key)).length = 25 := by simp [lockP2PKH, hh]
  unfold verify
  rw [he, execute_false, run_tokens env hv (by omega)]
  rw [show (fresh : State) = ⟨[], []⟩ from rfl, run1, Res.ok_bind]
  dsimp only
  obtain ⟨hasher, verifier, der, t, hash, h1, h2, rfl, h4, h5⟩ := hok
  have hcs : opCheckSig env [key, der ++ [t]] = .ok [boolBytes true] := by
    unfold opCheckSig
    simp only [h1, h2]
    rw [show pop [key, der ++ [t]] = .ok (key, [der ++ [t]]) from rfl, Res.ok_bind]
    dsimp only
    rw [show pop [der ++ [t]] = .ok (der ++ [t], []) from rfl, Res.ok_bind]
    dsimp only
    rw [if_neg (by simp), splitSig_snoc, Res.ok_bind]
    dsimp only
    rw [h4, Res.ok_bind, h5]
    rfl
  have h2 : execute env (encTokens [pushToken (der ++ [t]), pushToken key] ++ lockP2PKH (env.hash160 key)) true (reset ⟨[key, der ++ [t]], []⟩) =
      .ok ⟨[], []⟩ := by
    rw [execute_true]
    refine ⟨⟨[boolBytes true], []⟩, ?_, Or.inr ⟨boolBytes true, [], rfl, rfl, rfl⟩⟩
    rw [run_append_ok hv (by rw [List.length_append]; omega)]
    refine ⟨_, run1, ?_⟩
    rw [p2pkh_enc, run_tokens env (p2pkh_valid hh) (by rw [← p2pkh_enc]; omega), p2pkh_exec _ _ _ _ rfl]
    rw [show dupN [key, der ++ [t]] 1 = .ok [key, key, der ++ [t]] from rfl, Res.ok_bind]
    rw [show opHash160 env [key, key, der ++ [t]] = .ok [env.hash160 key, key, der ++ [t]] from rfl, Res.ok_bind]
    rw [show opEqual [env.hash160 key, env.hash160 key, key, der ++ [t]] =
      .ok (boolBytes (env.hash160 key == env.hash160 key) :: [key, der ++ [t]]) from rfl, Res.ok_bind, beq_self_eq_true]
    rw [show equalVerify (boolBytes true :: [key, der ++ [t]]) = .ok [key, der ++ [t]] from rfl, Res.ok_bind, hcs]
    rfl
  rw [h2]
  rfl

/-- What CHECKSIG says of a key and a signature with its hash type byte. -/
def sigValue (hasher : UInt8 → Res Bytes) (verifier : Bytes → Bytes → Bytes → Res Unit) (sig key : Bytes) : Res Bool :=
  match sig.getLast? with
  | none => .ok false
  | some t => hasher t >>= fun hash => verified (verifier hash sig.dropLast key)

/-- **C23.** Exactly what Verify does for a pay-to-pubkey-hash output and an unlocking script that ends in two pushes `a`, `b`
after other pushes: `b` must hash to `h` and `a` must be a signature good for it. With two or more further pushes the bytes of
the key are then executed as a script. -/
theorem C23_pushes (env : Env) (hasher : UInt8 → Res Bytes) (verifier : Bytes → Bytes → Bytes → Res Unit)
    (e1 : env.sigHasher = some hasher) (e2 : env.sigVerifier = some verifier) (h : Bytes) (hh : h.length = 20)
    (init : List Token) (ta tb : Token) (hp : ∀ t ∈ init ++ [ta, tb], IsPush t)
    (hl : (encTokens (init ++ [ta, tb]) ++ lockP2PKH h).length < 2^62) :
    verify env (encTokens (init ++ [ta, tb])) (lockP2PKH h) fresh =
      if env.hash160 (pushValue tb) = h then
        (sigValue hasher verifier (pushValue ta) (pushValue tb) >>= fun v =>
          if v = true then
            (if init.length ≤ 1 then .ok ⟨(init.map pushValue).reverse, []⟩
             else execute env (pushValue tb) true ⟨pushValue ta :: (init.map pushValue).reverse, []⟩)
          else .err errExec)
      else .err errExec := by
  have hv : ∀ t ∈ init ++ [ta, tb], t.Valid := fun t ht => (hp t ht).1
  have hl1 : (encTokens (init ++ [ta, tb])).length < 2^62 := by rw [List.length_append] at hl; omega
  have hll : (encTokens (p2pkhTokens h)).length < 2^62 := by rw [← p2pkh_enc]; simp [lockP2PKH, hh]
  have run1 := execAll_pushes env hp []
  simp only [List.map_append, List.map_cons, List.map_nil, List.reverse_append, List.reverse_cons, List.reverse_nil,
    List.nil_append, List.cons_append, List.append_nil] at run1
  generalize pushValue ta = a at run1 ⊢
  generalize pushValue tb = b at run1 ⊢
  generalize hr : (init.map pushValue).reverse = rs at run1 ⊢
  have hrl : rs.length = init.length := by rw [← hr]; simp
  have hcat : encTokens (init ++ [ta, tb]) ++ lockP2PKH h = encTokens ((init ++ [ta, tb]) ++ p2pkhTokens h) := by
    rw [p2pkh_enc]; simp [encTokens, List.flatMap_append]
  have hv2 : ∀ t ∈ (init ++ [ta, tb]) ++ p2pkhTokens h, t.Valid := by
    intro t ht
    rcases List.mem_append.mp ht with q | q
    · exact hv t q
    · exact p2pkh_valid hh t q
  have hcs : opCheckSig env (b :: a :: rs) = (sigValue hasher verifier a b >>= fun v => .ok (boolBytes v :: rs)) := by
    unfold opCheckSig sigValue
    simp only [e1, e2]
    rw [show pop (b :: a :: rs) = .ok (b, a :: rs) from rfl, Res.ok_bind]
    dsimp only
    rw [show pop (a :: rs) = .ok (a, rs) from rfl, Res.ok_bind]
    dsimp only
    rcases ScriptNum.nil_or_snoc a with rfl | ⟨der, t, rfl⟩
    · rfl
    · rw [if_neg (by simp), splitSig_snoc, Res.ok_bind, List.getLast?_concat, List.dropLast_concat]
      dsimp only
      rw [bind_assoc']
      rfl
  have run2 : run env (encTokens (init ++ [ta, tb]) ++ lockP2PKH h) ⟨[], []⟩ =
      if env.hash160 b = h then (sigValue hasher verifier a b >>= fun v => .ok ⟨boolBytes v :: rs, []⟩) else .err errExec := by
    rw [hcat, run_tokens env hv2 (by rw [← hcat]; exact hl), execAll_append, run1, Res.ok_bind, p2pkh_exec _ _ _ _ rfl]
    rw [show dupN (b :: a :: rs) 1 = .ok (b :: b :: a :: rs) from rfl, Res.ok_bind]
    rw [show opHash160 env (b :: b :: a :: rs) = .ok (env.hash160 b :: b :: a :: rs) from rfl, Res.ok_bind]
    rw [show opEqual (h :: env.hash160 b :: b :: a :: rs) = .ok (boolBytes (h == env.hash160 b) :: b :: a :: rs) from rfl, Res.ok_bind]
    by_cases hq : env.hash160 b = h
    · rw [if_pos hq, hq, beq_self_eq_true]
      rw [show equalVerify (boolBytes true :: b :: a :: rs) = .ok (b :: a :: rs) from rfl, Res.ok_bind, hcs, bind_assoc']
      rfl
    · rw [if_neg hq, show (h == env.hash160 b) = false from by rw [beq_eq_false_iff_ne]; exact fun e => hq e.symm]
      rfl
  unfold verify
  rw [execute_false, run_tokens env hv hl1, show (fresh : State) = ⟨[], []⟩ from rfl, run1, Res.ok_bind]
  dsimp only [reset]
  unfold run at run2
  unfold execute
  rw [run2]
  by_cases hq : env.hash160 b = h
  · rw [if_pos hq, if_pos hq]
    cases hsv : sigValue hasher verifier a b with
    | err e => rfl
    | panic => rfl
    | ok v =>
      simp only [Res.ok_bind]
      cases v with
      | false => rfl
      | true =>
        have : popBool (boolBytes true :: rs) = .ok (true, rs) := rfl
        simp only [List.length_cons, gt_iff_lt, Nat.zero_lt_succ, if_true, this, Res.ok_bind, Bool.not_true, Bool.false_eq_true, if_false]
        rw [hrl]
        by_cases hn : init.length ≤ 1
        · rw [if_pos hn, if_neg (by omega)]
        · rw [if_neg hn, if_pos (by omega)]
          rfl
  · rw [if_neg hq, if_neg hq]
    rfl

/-- Two pushes spend; with two more pushes below, the key is run as a script (here of pushes). -/
example : verify toyEnv (encTokens [⟨0x15, List.replicate 20 5 ++ [1]⟩, ⟨0x14, List.replicate 20 5⟩]) (lockP2PKH (List.replicate 20 5)) fresh = .ok fresh ∧
    verify toyEnv (encTokens [⟨0x51, []⟩, ⟨0x51, []⟩, ⟨0x15, List.replicate 20 5 ++ [1]⟩, ⟨0x14, List.replicate 20 5⟩])
      (lockP2PKH (List.replicate 20 5)) fresh = execute toyEnv (List.replicate 20 5) true ⟨[List.replicate 20 5 ++ [1], [1], [1]], []⟩ := by
  constructor <;> decide +kernel

example : SigOk toyEnv (List.replicate 33 5 ++ [1]) (List.replicate 33 5) :=
  ⟨_, _, List.replicate 33 5, 1, [1], rfl, rfl, rfl, rfl, by simp⟩

/-- The pay-to-script-hash locking script. -/
def lockP2SH (h : Bytes) : Bytes := [0xa9, 0x14] ++ h ++ [0x87]

def p2shTokens (h : Bytes) : List Token := [⟨0xa9, []⟩, ⟨0x14, h⟩, ⟨0x87, []⟩]

theorem p2sh_enc (h : Bytes) : lockP2SH h = encTokens (p2shTokens h) := by
  simp [lockP2SH, encTokens, p2shTokens, Token.enc, lenWidth, leBytes]

theorem p2sh_valid {h : Bytes} (hh : h.length = 20) : ∀ t ∈ p2shTokens h, t.Valid := by
  intro t ht
  simp only [p2shTokens, List.mem_cons, List.not_mem_nil, or_false] at ht
  rcases ht with rfl | rfl | rfl
  · exact ⟨by decide, by decide⟩
  · exact ⟨by simp only; decide, by simp only; rw [if_pos (by decide), hh]; rfl⟩
  · exact ⟨by decide, by decide⟩

private theorem p2sh_exec (env : Env) (h a : Bytes) (s : Stack) :
    execAll env (p2shTokens h) ⟨a :: s, []⟩ = .ok ⟨boolBytes (h == env.hash160 a) :: s, []⟩ := rfl

/-- what Verify does for a P2SH output and a push-only unlocking script ending in a push of `redeem` -/
theorem p2sh_verify (env : Env) {h : Bytes} (hh : h.length = 20) {init : List Token} {last : Token}
    (hp : ∀ t ∈ init ++ [last], IsPush t) (hl : (encTokens (init ++ [last]) ++ lockP2SH h).length < 2^62) :
    verify env (encTokens (init ++ [last])) (lockP2SH h) fresh =
      if env.hash160 (pushValue last) = h then
        (if init.length ≤ 1 then .ok ⟨(init.map pushValue).reverse, []⟩
         else execute env (pushValue last) true ⟨(init.map pushValue).reverse, []⟩)
      else .err errExec := by
  have hv : ∀ t ∈ init ++ [last], t.Valid := fun t ht => (hp t ht).1
  have hl1 : (encTokens (init ++ [last])).length < 2^62 := by simp at hl; simp; omega
  have run1 := execAll_pushes env hp []
  simp only [List.map_append, List.map_cons, List.map_nil, List.reverse_append, List.reverse_cons, List.reverse_nil,
    List.nil_append, List.cons_append, List.append_nil] at run1
  have hll : (lockP2SH h).length < 2^62 := by simp [lockP2SH, hh]
  have run2 : run env (encTokens (init ++ [last]) ++ lockP2SH h) fresh =
      .ok ⟨boolBytes (h == env.hash160 (pushValue last)) :: (init.map pushValue).reverse, []⟩ := by
    rw [run_append_ok hv hl]
    refine ⟨_, run1, ?_⟩
    rw [p2sh_enc, run_tokens env (p2sh_valid hh) (by rw [← p2sh_enc]; exact hll), p2sh_exec]
  unfold verify
  rw [execute_false, run_tokens env hv hl1, show (fresh : State) = ⟨[], []⟩ from rfl, run1, Res.ok_bind]
  dsimp only [reset]
  by_cases hq : env.hash160 (pushValue last) = h
  · rw [if_pos hq]
    have h2 : execute env (encTokens (init ++ [last]) ++ lockP2SH h) true ⟨[], []⟩ =
        .ok ⟨(init.map pushValue).reverse, []⟩ := by
      rw [execute_true]
      refine ⟨_, run2, Or.inr ⟨_, _, rfl, ?_, rfl⟩⟩
      rw [hq, beq_self_eq_true]; rfl
    rw [h2, Res.ok_bind]
    simp only [List.length_reverse, List.length_map]
    by_cases hn : init.length ≤ 1
    · rw [if_pos hn, if_neg (by omega)]
    · rw [if_neg hn, if_pos (by omega)]
      rfl
  · rw [if_neg hq]
    have h2 : execute env (encTokens (init ++ [last]) ++ lockP2SH h) true ⟨[], []⟩ = .err errExec := by
      unfold execute
      unfold run at run2
      rw [show (fresh : State) = ⟨[], []⟩ from rfl] at run2
      rw [run2, Res.ok_bind]
      have : (h == env.hash160 (pushValue last)) = false := by
        rw [beq_eq_false_iff_ne]; exact fun e => hq e.symm
      rw [this]
      rfl
    rw [h2]; rfl

/-- **C25.** Every spend of a pay-to-script-hash output by pushes ends in a push of a redeem script that
hashes to `h`. -/
theorem C25_redeem_hash_checked (env : Env) (h : Bytes) (hh : h.length = 20) (ts : List Token)
    (hp : ∀ t ∈ ts, IsPush t) (hl : (encTokens ts ++ lockP2SH h).length < 2^62) (vm' : State)
    (hx : verify env (encTokens ts) (lockP2SH h) fresh = .ok vm') :
    ∃ init last, ts = init ++ [last] ∧ env.hash160 (pushValue last) = h := by
  rcases List.eq_nil_or_concat ts with rfl | ⟨init, last, rfl⟩
  · exfalso
    unfold verify at hx
    rw [show execute env (encTokens []) false fresh = .ok ⟨[], []⟩ from rfl, Res.ok_bind] at hx
    dsimp only [reset] at hx
    rw [Res.bind_eq_ok] at hx
    obtain ⟨vm2, h2, _⟩ := hx
    rw [execute_true] at h2
    obtain ⟨vm3, h3, _⟩ := h2
    rw [show encTokens [] ++ lockP2SH h = encTokens (p2shTokens h) by rw [p2sh_enc]; rfl,
      run_tokens env (p2sh_valid hh) (by rw [← p2sh_enc]; simp [lockP2SH, hh])] at h3
    cases h3
  · rw [List.concat_eq_append] at hp hl hx ⊢
    rw [p2sh_verify env hh hp hl] at hx
    refine ⟨init, last, rfl, ?_⟩
    by_contra hq
    rw [if_neg hq] at hx; cases hx

/-- **C25 (partial).** Full statement: the redeem script also executed successfully on the remaining
pushes. Proved for three or more pushes; with fewer it is false (`C25_short_not_executed`). -/
theorem C25_p2sh_partial (env : Env) (h : Bytes) (hh : h.length = 20) (ts : List Token) (h3 : 3 ≤ ts.length)
    (hp : ∀ t ∈ ts, IsPush t) (hl : (encTokens ts ++ lockP2SH h).length < 2^62) (vm' : State) :
    verify env (encTokens ts) (lockP2SH h) fresh = .ok vm' ↔
      ∃ init last, ts = init ++ [last] ∧ env.hash160 (pushValue last) = h ∧
        execute env (pushValue last) true ⟨(init.map pushValue).reverse, []⟩ = .ok vm' := by
  rcases List.eq_nil_or_concat ts with rfl | ⟨init, last, rfl⟩
  · simp at h3
  · rw [List.concat_eq_append] at hp hl h3 ⊢
    rw [p2sh_verify env hh hp hl]
    rw [List.length_append, List.length_singleton] at h3
    constructor
    · intro hx
      refine ⟨init, last, rfl, ?_⟩
      by_cases hq : env.hash160 (pushValue last) = h
      · rw [if_pos hq, if_neg (by omega)] at hx
        exact ⟨hq, hx⟩
      · rw [if_neg hq] at hx; cases hx
    · rintro ⟨init', last', e, hq, hx⟩
      obtain ⟨rfl, e2⟩ := List.append_inj' e rfl
      cases e2
      rw [if_pos hq, if_neg (by omega), hx]

/-- **C25, negation.** With one or two pushes the redeem script is not executed: any bytes hashing to `h`
spend the output, even bytes that are not a script or a script that fails. -/
theorem C25_short_not_executed (env : Env) (h : Bytes) (hh : h.length = 20) (init : List Token) (last : Token)
    (h2 : init.length ≤ 1) (hp : ∀ t ∈ init ++ [last], IsPush t)
    (hl : (encTokens (init ++ [last]) ++ lockP2SH h).length < 2^62) (hq : env.hash160 (pushValue last) = h) :
    verify env (encTokens (init ++ [last])) (lockP2SH h) fresh = .ok ⟨(init.map pushValue).reverse, []⟩ := by
  rw [p2sh_verify env hh hp hl, if_pos hq, if_pos h2]

/-- A redeem script that always fails (twenty zero bytes: push false twenty times) is "run" successfully. -/
example : verify toyEnv (encTokens [⟨0x14, List.replicate 20 0⟩]) (lockP2SH (List.replicate 20 0)) fresh = .ok ⟨[], []⟩ ∧
    execute toyEnv (List.replicate 20 0) true fresh = .err errExec := by
  constructor <;> decide +kernel

/-- **C26.** A structured program behaves like its meaning: the taken branches run and the others have no
effect, at any depth. `dataOp` is the meaning of the plain instructions. -/
theorem C26_conditionals (env : Env) (p : Prog) (hp : p.Valid) (hv : ∀ t ∈ p.flatten, t.Valid)
    (hl : (encTokens p.flatten).length < 2^62) (s : Stack) :
    execute env (encTokens p.flatten) false ⟨s, []⟩ =
      (p.sem (fun t s => dataOp env (instrOf t) s) popIfBool s >>= fun s' => .ok ⟨s', []⟩) := by
  rw [execute_false, run_tokens env hv hl]
  exact prog_sem env p hp s [] rfl

/-- **C26.** Every well-nested token sequence is a structured program. -/
theorem C26_every_wellnested (ts : List Token) (hv : ∀ t ∈ ts, t.Valid) (hw : WellNested 0 ts) :
    ∃ p : Prog, p.Valid ∧ p.flatten = ts :=
  (wellNested_prog ts.length ts le_rfl hv).1 hw

/-- `1 IF 5 ELSE RETURN ENDIF` -/
example : WellNested 0 [⟨0x51, []⟩, ⟨0x63, []⟩, ⟨0x55, []⟩, ⟨0x67, []⟩, ⟨0x6a, []⟩, ⟨0x68, []⟩] := by
  simp [WellNested, isIf, isElse, isEndIf]
example : execute toyEnv [0x51, 0x63, 0x55, 0x67, 0x56, 0x68] false fresh = .ok ⟨[[5]], []⟩ := by decide +kernel
example : execute toyEnv [0x00, 0x63, 0x51, 0x63, 0xac, 0x68, 0x67, 0x56, 0x68] false fresh = .ok ⟨[[6]], []⟩ := by decide +kernel

/-- **C104.** A script that does not fail for a missing element does, on a stack with more elements below, the same: the same
error or panic, or the same elements and conditionals, with the elements below untouched. -/
theorem C104_below (env : Env) (script : Bytes) (d s : Stack) (cs : List Cond)
    (h : execute env script false ⟨d, cs⟩ ≠ .err errIndex) :
    execute env script false ⟨d ++ s, cs⟩ = (execute env script false ⟨d, cs⟩ >>= fun vm => .ok ⟨vm.dstack ++ s, vm.cstack⟩) := by
  rcases execute_und env script ⟨d, cs⟩ s with hu | hu
  · exact absurd hu h
  · exact hu

/-- **C104.** With the final check too, if the script leaves an element. -/
theorem C104_final (env : Env) (script : Bytes) (d s : Stack) (cs : List Cond)
    (h : execute env script false ⟨d, cs⟩ ≠ .err errIndex)
    (hne : ∀ vm, execute env script false ⟨d, cs⟩ = .ok vm → vm.dstack ≠ []) :
    execute env script true ⟨d ++ s, cs⟩ = (execute env script true ⟨d, cs⟩ >>= fun vm => .ok ⟨vm.dstack ++ s, vm.cstack⟩) := by
  have hb := C104_below env script d s cs h
  rw [execute_false, execute_false] at hb
  rw [execute_false] at hne
  unfold run at hb hne
  unfold execute
  rw [hb]
  cases hr : runLoop env (script.length + 1) (Buffer.reader script) ⟨d, cs⟩ with
  | err e => rfl
  | panic => rfl
  | ok vm =>
    obtain ⟨ds, cs'⟩ := vm
    cases ds with
    | nil => exact absurd rfl (hne _ hr)
    | cons x r =>
      simp only [Res.ok_bind, List.cons_append, List.length_cons, gt_iff_lt, Nat.zero_lt_succ, if_true]
      rw [show popBool (x :: (r ++ s)) = .ok (asBool x, r ++ s) from rfl, show popBool (x :: r) = .ok (asBool x, r) from rfl]
      simp only [Res.ok_bind]
      cases asBool x <;> rfl

/-- `DUP ADD` needs one element and gives the same above others; on no element it fails, and on one from below it does not. -/
example : execute toyEnv [0x76, 0x93] false ⟨[[3]], []⟩ = .ok ⟨[[6]], []⟩ ∧
    execute toyEnv [0x76, 0x93] false ⟨[[3]] ++ [[7], [8]], []⟩ = .ok ⟨[[6], [7], [8]], []⟩ ∧
    execute toyEnv [0x76, 0x93] false ⟨[], []⟩ = .err errIndex := by
  refine ⟨by decide +kernel, by decide +kernel, by decide +kernel⟩

/-- **C27 (partial).** Full statement: on an engine that has executed other scripts, Verify gives the same
result as on a fresh one. Proved for an engine without open conditionals, if on a fresh engine the unlocking script does
not fail for a missing element and, when a redeem script is run, that script does not fail for a missing element and
leaves an element. Otherwise it is false (`C27_depends_on_history`, `C27_leftover_stack_used`, `C27_leftover_redeem`). -/
theorem C27_history_partial (env : Env) (s : Stack) (u l : Bytes) (hu : execute env u false fresh ≠ .err errIndex)
    (hr : ∀ vm1 vm2, execute env u false fresh = .ok vm1 → execute env (u ++ l) true ⟨[], vm1.cstack⟩ = .ok vm2 →
      vm2.dstack.length > 1 → ∃ redeem rest, vm1.dstack = redeem :: rest ∧
        execute env redeem false ⟨rest, vm2.cstack⟩ ≠ .err errIndex ∧
        ∀ vm3, execute env redeem false ⟨rest, vm2.cstack⟩ = .ok vm3 → vm3.dstack ≠ []) :
    (verify env u l ⟨s, []⟩).bind (fun _ => .ok ()) = (verify env u l fresh).bind (fun _ => .ok ()) := by
  have h1 := C104_below env u [] s [] hu
  rw [List.nil_append] at h1
  unfold verify
  rw [h1]
  rw [show (⟨[], []⟩ : State) = fresh from rfl]
  cases he : execute env u false fresh with
  | err e => rfl
  | panic => rfl
  | ok vm1 =>
    simp only [Res.ok_bind, reset]
    cases he2 : execute env (u ++ l) true ⟨[], vm1.cstack⟩ with
    | err e => rfl
    | panic => rfl
    | ok vm2 =>
      simp only [Res.ok_bind]
      by_cases hgt : vm2.dstack.length > 1
      · rw [if_pos hgt, if_pos hgt]
        obtain ⟨redeem, rest, e1, e2, e3⟩ := hr vm1 vm2 he he2 hgt
        rw [e1, List.cons_append, show pop (redeem :: (rest ++ s)) = .ok (redeem, rest ++ s) from rfl,
          show pop (redeem :: rest) = .ok (redeem, rest) from rfl]
        simp only [Res.ok_bind]
        rw [C104_final env redeem rest s vm2.cstack e2 e3]
        cases execute env redeem true ⟨rest, vm2.cstack⟩ <;> rfl
      · rw [if_neg hgt, if_neg hgt]

/-- **C27 (partial).** If no redeem script is run, the engine is left in the same state too. -/
theorem C27_history_state_partial (env : Env) (s : Stack) (u l : Bytes) (hu : execute env u false fresh ≠ .err errIndex)
    (hns : ∀ vm1 vm2, execute env u false fresh = .ok vm1 → execute env (u ++ l) true ⟨[], vm1.cstack⟩ = .ok vm2 →
      vm2.dstack.length ≤ 1) :
    verify env u l ⟨s, []⟩ = verify env u l fresh := by
  have h1 := C104_below env u [] s [] hu
  rw [List.nil_append] at h1
  unfold verify
  rw [h1]
  rw [show (⟨[], []⟩ : State) = fresh from rfl]
  cases he : execute env u false fresh with
  | err e => rfl
  | panic => rfl
  | ok vm1 =>
    simp only [Res.ok_bind, reset]
    cases he2 : execute env (u ++ l) true ⟨[], vm1.cstack⟩ with
    | err e => rfl
    | panic => rfl
    | ok vm2 =>
      simp only [Res.ok_bind]
      have := hns vm1 vm2 he he2
      rw [if_neg (by omega), if_neg (by omega)]

/-- **C27, negation.** With an empty unlocking script and a locking script that leaves more than one element, an element that
was left on the engine is run as the redeem script. -/
theorem C27_leftover_redeem (env : Env) : verify env [] [0x51, 0x51, 0x51] ⟨[[0x51]], []⟩ = .ok ⟨[], []⟩ ∧
    verify env [] [0x51, 0x51, 0x51] fresh = .err errIndex := ⟨rfl, rfl⟩

/-- **C27, negation.** After `Execute(OP_0 OP_IF)` an engine accepts what a fresh engine rejects. -/
theorem C27_depends_on_history (env : Env) :
    ∃ vm, execute env [0x00, 0x63] false fresh = .ok vm ∧
      verify env [] [0x00] vm = .ok vm ∧ verify env [] [0x00] fresh = .err errExec :=
  ⟨⟨[], [.no]⟩, rfl, rfl, rfl⟩

/-- **C27, negation.** Elements left on the stack by an earlier Execute reach the redeem script of a later
Verify. Here the redeem script is `ADD ADD ADD`, which needs two elements more than were pushed. -/
theorem C27_leftover_stack_used :
    ∃ env vm u l, execute env [0x52, 0x52] false fresh = .ok vm ∧
      (∃ r, verify env u l vm = .ok r) ∧ (∃ e, verify env u l fresh = .err e) := by
  refine ⟨⟨fun x => List.replicate 20 0, none, none⟩, ⟨[[2], [2]], []⟩,
    encTokens [⟨0x51, []⟩, ⟨0x51, []⟩, ⟨0x03, [0x93, 0x93, 0x93]⟩], lockP2SH (List.replicate 20 0), by decide +kernel, ?_, ?_⟩
  · exact ⟨⟨[], []⟩, by decide +kernel⟩
  · exact ⟨errIndex, by decide +kernel⟩

/-- **C28, negation.** OP_RETURN has no effect: a locking script beginning with it verifies exactly like
the rest of the script. -/
theorem C28_return_is_noop (env : Env) (ts tl : List Token) (hv : ∀ t ∈ ts, t.Valid) (hvl : ∀ t ∈ tl, t.Valid)
    (hb : Balanced ts) (hl : (encTokens ts ++ (0x6a :: encTokens tl)).length < 2^62) :
    verify env (encTokens ts) (0x6a :: encTokens tl) fresh = verify env (encTokens ts) (encTokens tl) fresh := by
  have he : (0x6a :: encTokens tl : Bytes) = encTokens (⟨0x6a, []⟩ :: tl) := rfl
  have hret : Token.Valid ⟨0x6a, []⟩ := ⟨by decide, by decide⟩
  have hv1 : ∀ t ∈ ts ++ ⟨0x6a, []⟩ :: tl, t.Valid := by
    intro t ht
    rcases List.mem_append.mp ht with h | h
    · exact hv t h
    · rcases List.mem_cons.mp h with rfl | h
      · exact hret
      · exact hvl t h
  have hv2 : ∀ t ∈ ts ++ tl, t.Valid := by
    intro t ht
    rcases List.mem_append.mp ht with h | h
    · exact hv t h
    · exact hvl t h
  have c1 : encTokens ts ++ encTokens (⟨0x6a, []⟩ :: tl) = encTokens (ts ++ ⟨0x6a, []⟩ :: tl) := by
    simp [encTokens, List.flatMap_append]
  have c2 : encTokens ts ++ encTokens tl = encTokens (ts ++ tl) := by simp [encTokens, List.flatMap_append]
  rw [he] at hl ⊢
  have l1 : (encTokens (ts ++ ⟨0x6a, []⟩ :: tl)).length < 2^62 := by rw [← c1]; exact hl
  have l2 : (encTokens (ts ++ tl)).length < 2^62 := by
    rw [← c2]; rw [← he] at hl; simp at hl ⊢; omega
  have l0 : (encTokens ts).length < 2^62 := by simp at hl; omega
  unfold verify
  rw [c1, c2]
  cases hx : execute env (encTokens ts) false fresh with
  | err e => rfl
  | panic => rfl
  | ok vm1 =>
    simp only [Res.ok_bind]
    have hx' := hx
    rw [execute_false, run_tokens env hv l0] at hx'
    have hc := balanced_cstack hv hb hx'
    have key : execute env (encTokens (ts ++ ⟨0x6a, []⟩ :: tl)) true (reset vm1) = execute env (encTokens (ts ++ tl)) true (reset vm1) := by
      have hr : reset vm1 = fresh := by unfold reset fresh; rw [hc]
      rw [hr]
      unfold execute
      have r1 := run_tokens env hv1 l1 fresh
      have r2 := run_tokens env hv2 l2 fresh
      unfold run at r1 r2
      rw [r1, r2, execAll_append, execAll_append, hx']
      simp only [Res.ok_bind]
      have : execAll env (⟨0x6a, []⟩ :: tl) vm1 = execAll env tl vm1 := by
        simp only [execAll]
        rw [exec_data env hret (by decide) vm1 (by simp [branchShouldSkip, hc])]
        rfl
      rw [this]
    rw [key]

/-- **C28, negation.** An output with OP_RETURN and any pushed data that is not false is spendable by
everyone with an empty unlocking script. -/
theorem C28_return_spendable (env : Env) (d : Bytes) (hl : d.length < 2^32) (h0 : d ≠ [0x00]) (h81 : d ≠ [0x81])
    (hd : asBool d = true) : verify env [] (addData (addOp Buffer.new 0x6a) d).data fresh = .ok fresh := by
  have hpv := pushToken_valid hl h81
  have he : (addData (addOp Buffer.new 0x6a) d).data = 0x6a :: encTokens [pushToken d] := by
    rw [addData_data _ _ hl]; simp [encTokens, addOp, Buffer.new, Buffer.writeU8]
  have hlen := enc_length (pushToken d)
  have hw := lenWidth_le (pushToken d).op
  have hdl : (pushToken d).data.length < 2^32 := by unfold pushToken; split_ifs <;> simp_all
  rw [he]
  have := C28_return_is_noop env [] [pushToken d] (by simp) (by simpa using hpv) rfl (by simp [encTokens]; omega)
  rw [show (encTokens [] : Bytes) = [] from rfl] at this
  rw [this]
  unfold verify
  rw [show execute env [] false fresh = .ok fresh from rfl, Res.ok_bind]
  dsimp only
  have hnc : ¬ IsCond (pushToken d) := by
    intro hc
    have hp := pushToken_pushes env hl h0 h81 []
    have := exec_cond env hpv hc fresh
    obtain ⟨h1, h2⟩ := isCond_iff (pushToken d) |>.mp hc |> fun h => And.intro h trivial
    unfold IsCond at hc
    revert hc
    unfold pushToken
    split
    · decide
    split
    · decide
    split
    · rename_i h
      exact (by apply Base58.forall_uint8; decide +kernel :
        ∀ c : UInt8, c ≤ 16 → (0x50 + c : UInt8).toNat ∉ [0x63, 0x64, 0x67, 0x68]) _ h.2
    split
    · decide
    split
    · have hn : (UInt8.ofNat d.length).toNat = d.length := by simp; omega
      simp only [hn, List.mem_cons, List.not_mem_nil, or_false]; omega
    split
    · simp
    split
    · simp
    · simp
  have h2 : execute env ([] ++ encTokens [pushToken d]) true (reset fresh) = .ok fresh := by
    rw [execute_true]
    refine ⟨⟨[d], []⟩, ?_, Or.inr ⟨d, [], rfl, hd, rfl⟩⟩
    rw [List.nil_append, run_tokens env (by simpa using hpv) (by simp [encTokens]; omega)]
    simp only [execAll]
    rw [exec_data env hpv hnc _ rfl]
    rw [show (reset fresh).dstack = [] from rfl, pushToken_pushes env hl h0 h81]
    rfl
  rw [h2]
  rfl

/-- **C28 (partial).** Full statement: no unlocking script spends a locking script beginning with
OP_RETURN. Proved only when what follows OP_RETURN does not parse; otherwise it is false
(`C28_return_is_noop`, `C28_return_spendable`). -/
theorem C28_unspendable_partial (env : Env) (u rest : Bytes) (e : Err)
    (hrest : allInstructions rest = .err e) (hl : (u ++ 0x6a :: rest).length < 2^62) (vm vm' : State) :
    verify env u (0x6a :: rest) vm ≠ .ok vm' := by
  intro h
  unfold verify at h
  rw [Res.bind_eq_ok] at h
  obtain ⟨vm1, hu, h⟩ := h
  rw [execute_false] at hu
  obtain ⟨ts, hv, rfl, _⟩ := run_ok (by rw [List.length_append] at hl; omega) hu
  dsimp only at h
  rw [Res.bind_eq_ok] at h
  obtain ⟨vm2, h, _⟩ := h
  rw [execute_true] at h
  obtain ⟨vm3, h, _⟩ := h
  rw [run_append_ok hv hl] at h
  obtain ⟨vm4, _, h⟩ := h
  have hlr : (0x6a :: rest).length < 2^62 := by simp at hl ⊢; omega
  obtain ⟨tl, hvl, he, _⟩ := run_ok hlr h
  obtain ⟨tr, tail, hvr, rfl, htr⟩ := tokens_exist rest
  rcases allInstructions_tokens hvr htr (by simp at hlr ⊢; omega) with ⟨rfl, h'⟩ | ⟨hst, e', h'⟩
  · rw [hrest] at h'; cases h'
  · have hret : Token.Valid ⟨0x6a, []⟩ := ⟨by decide, by decide⟩
    have e2 : encTokens (⟨0x6a, []⟩ :: tr) ++ tail = encTokens tl ++ [] := by
      rw [List.append_nil, ← he]; rfl
    obtain ⟨_, rfl⟩ := tokens_unique (by intro t ht; rcases List.mem_cons.mp ht with rfl | h; exact hret; exact hvr t h)
      hvl (Or.inr hst) (Or.inl rfl) e2
    exact not_stuck_nil hst

example : allInstructions [0xff] = .err errUnknown := by decide +kernel

end Toku.Props
