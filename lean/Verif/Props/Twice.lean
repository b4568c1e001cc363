import Verif.Proof.VMTwice
import Verif.Props.VM
/-
Property C112: Verify runs the unlocking script twice; what that does. With it the exact conditions for spending P2PKH (C23)
and P2SH (C25) outputs with any unlocking script.
-/
namespace Toku.Props
open Toku Toku.Spec Toku.VM Toku.Script

/-- **C112.** The second pass over the unlocking script never fails if the first succeeded, and it leaves the values of the
first pass, or none if the first ended in a branch that is skipped (`again`). -/
theorem C112_second_pass (env : Env) (u : Bytes) (hl : u.length < 2^62) (vm : State)
    (h : execute env u false fresh = .ok vm) :
    execute env u false (reset vm) = .ok (again vm) ∧ branchShouldSkip (again vm) = branchShouldSkip vm := by
  rw [execute_false] at h
  obtain ⟨ts, hv, rfl, h3⟩ := run_ok hl h
  exact ⟨by rw [execute_false, run_tokens env hv hl]; exact execAll_again hv h3, again_skip vm⟩

/-- **C112.** Exactly when Verify succeeds on a fresh engine, for every unlocking and every locking script: the unlocking
script runs; the locking script runs on what it left (on nothing if it ended in a skipped branch), leaving nothing or a true
value; and if more than one value is left below, the last value of the unlocking script is run as a script on its other
values. -/
theorem C112_verify_iff (env : Env) (u l : Bytes) (hl : (u ++ l).length < 2^62) (vm' : State) :
    verify env u l fresh = .ok vm' ↔
      ∃ vm, execute env u false fresh = .ok vm ∧ ∃ vm2, execute env l true (again vm) = .ok vm2 ∧
        if vm2.dstack.length ≤ 1 then vm' = vm2
        else ∃ redeem s, vm.dstack = redeem :: s ∧ execute env redeem true ⟨s, vm2.cstack⟩ = .ok vm' := by
  have hlu : u.length < 2^62 := by rw [List.length_append] at hl; omega
  unfold verify
  rw [Res.bind_eq_ok]
  refine exists_congr fun vm => and_congr_right fun h1 => ?_
  dsimp only
  rw [Res.bind_eq_ok]
  rw [execute_false] at h1
  obtain ⟨ts, hv, rfl, h1'⟩ := run_ok hlu h1
  have h2 := execAll_again hv h1'
  refine exists_congr fun vm2 => and_congr ?_ ?_
  · rw [execute_true, execute_true]
    refine exists_congr fun vm3 => and_congr_left fun _ => ?_
    rw [run_append_ok hv hl]
    constructor
    · rintro ⟨vm4, h3, h4⟩
      rw [show reset vm = ⟨[], vm.cstack⟩ from rfl, h2] at h3
      cases h3; exact h4
    · intro h; exact ⟨_, h2, h⟩
  · by_cases hn : vm2.dstack.length ≤ 1
    · rw [if_pos hn, if_neg (by omega)]
      constructor
      · intro h; cases h; rfl
      · rintro rfl; rfl
    · rw [if_neg hn, if_pos (by omega), Res.bind_eq_ok]
      cases hd : vm.dstack with
      | nil =>
        constructor
        · rintro ⟨_, h, _⟩; cases h
        · rintro ⟨_, _, h, _⟩; cases h
      | cons r s =>
        constructor
        · rintro ⟨_, h, h'⟩; cases h; exact ⟨r, s, rfl, h'⟩
        · rintro ⟨_, _, h, h'⟩; cases h; exact ⟨(r, s), rfl, h'⟩

/-- An unlocking script that leaves a conditional open but executed is as good as one that does not: `1 IF 5`. One that ends in
a skipped branch leaves nothing: `5 0 IF`. -/
example : (execute toyEnv [0x51, 0x63, 0x55] false fresh) = .ok ⟨[[5]], [.yes]⟩ ∧
    again ⟨[[5]], [.yes]⟩ = ⟨[[5]], [.yes, .yes]⟩ ∧ verify toyEnv [0x51, 0x63, 0x55] [0x55, 0x87] fresh = .ok ⟨[], [.yes, .yes]⟩ ∧
    (execute toyEnv [0x55, 0x00, 0x63] false fresh) = .ok ⟨[[5]], [.no]⟩ ∧ again ⟨[[5]], [.no]⟩ = ⟨[], [.skip, .no]⟩ := by
  refine ⟨by decide +kernel, by decide +kernel, by decide +kernel, by decide +kernel, by decide +kernel⟩

/-- The script that pushes the values of a stack, each with OP_PUSHDATA4, bottom first. -/
def pushAll (s : Stack) : Bytes := encTokens (s.reverse.map fun d => ⟨0x4e, d⟩)

/-- **C112.** Pushes suffice: an unlocking script that closes its conditionals can be replaced by plain pushes of the values it
leaves. Verify says the same for every locking script. -/
theorem C112_pushes_suffice (env : Env) (u l : Bytes) (hl : (u ++ l).length < 2^62) (s : Stack)
    (h : execute env u false fresh = .ok ⟨s, []⟩) (hs : ∀ d ∈ s, d.length < 2^32) (hl' : (pushAll s ++ l).length < 2^62) (vm' : State) :
    verify env (pushAll s) l fresh = .ok vm' ↔ verify env u l fresh = .ok vm' := by
  have hp : ∀ t ∈ s.reverse.map (fun d => (⟨0x4e, d⟩ : Token)), IsPush t := by
    intro t ht
    obtain ⟨d, hd, rfl⟩ := List.mem_map.mp ht
    have := hs d (List.mem_reverse.mp hd)
    refine ⟨⟨by simp only; decide, ?_⟩, by simp only; decide⟩
    rw [if_neg (by simp only; decide)]
    exact this
  have hl2 : (pushAll s).length < 2^62 := by rw [List.length_append] at hl'; omega
  have hrun : execute env (pushAll s) false fresh = .ok ⟨s, []⟩ := by
    rw [execute_false, pushAll, run_tokens env (fun t ht => (hp t ht).1) (by rw [pushAll] at hl2; exact hl2)]
    have := execAll_pushes env hp []
    rw [List.map_map, show (pushValue ∘ fun d => (⟨0x4e, d⟩ : Token)) = id from rfl, List.map_id, List.reverse_reverse,
      List.append_nil] at this
    exact this
  rw [C112_verify_iff env _ _ hl, C112_verify_iff env _ _ hl']
  constructor
  · rintro ⟨vm, h1, h2⟩
    rw [hrun] at h1; cases h1
    exact ⟨_, h, h2⟩
  · rintro ⟨vm, h1, h2⟩
    rw [h] at h1; cases h1
    exact ⟨_, hrun, h2⟩

/-- `1 2 DUP` and `2 2 1` the other way round. -/
example : execute toyEnv [0x51, 0x52, 0x76] false fresh = .ok ⟨[[2], [2], [1]], []⟩ ∧
    pushAll [[2], [2], [1]] = [0x4e, 1, 0, 0, 0, 1, 0x4e, 1, 0, 0, 0, 2, 0x4e, 1, 0, 0, 0, 2] := by
  refine ⟨by decide +kernel, by decide +kernel⟩

/-! ### pay to public key hash -/

/-- CHECKSIG leaves a true value exactly for a good signature. -/
private theorem checkSig_iff (env : Env) (s r : Stack) :
    (∃ x, opCheckSig env s = .ok (x :: r) ∧ asBool x = true) ↔ ∃ key sig, s = key :: sig :: r ∧ SigOk env sig key := by
  constructor
  · rintro ⟨x, h, hb⟩
    unfold opCheckSig at h
    split at h
    · rename_i hasher verifier h1 h2
      simp only [Res.bind_eq_ok] at h
      obtain ⟨⟨key, s1⟩, ha, ⟨sig, s2⟩, hb', h⟩ := h
      cases s with
      | nil => cases ha
      | cons a s =>
        cases ha
        cases s with
        | nil => cases hb'
        | cons b s =>
          cases hb'
          dsimp only at h
          split at h
          · cases h; cases hb
          · rename_i hl
            rcases ScriptNum.nil_or_snoc sig with e | ⟨der, t, rfl⟩
            · rw [e] at hl; simp at hl
            · rw [splitSig_snoc, Res.ok_bind] at h
              simp only [Res.bind_eq_ok] at h
              obtain ⟨hash, hh, v, hv, h⟩ := h
              cases h
              have hvt : v = true := by cases v; cases hb; rfl
              subst hvt
              refine ⟨key, der ++ [t], rfl, hasher, verifier, der, t, hash, h1, h2, rfl, hh, ?_⟩
              cases hq : verifier hash der key <;> rw [hq] at hv <;> cases hv
    · cases h
  · rintro ⟨key, sig, rfl, hasher, verifier, der, t, hash, h1, h2, rfl, h4, h5⟩
    refine ⟨boolBytes true, ?_, rfl⟩
    unfold opCheckSig
    simp only [h1, h2]
    rw [show pop (key :: (der ++ [t]) :: r) = .ok (key, (der ++ [t]) :: r) from rfl, Res.ok_bind]
    dsimp only
    rw [show pop ((der ++ [t]) :: r) = .ok (der ++ [t], r) from rfl, Res.ok_bind]
    dsimp only
    rw [if_neg (by simp), splitSig_snoc, Res.ok_bind]
    dsimp only
    rw [h4, Res.ok_bind, h5]
    rfl

private theorem checkSig_ne {env : Env} {s : Stack} : opCheckSig env s ≠ .ok [] := by
  intro e4
  unfold opCheckSig at e4
  split at e4
  · simp only [Res.bind_eq_ok] at e4
    obtain ⟨⟨key, s1⟩, ha, ⟨sig, s2⟩, hb', e4⟩ := e4
    dsimp only at e4
    split at e4
    · cases e4
    · simp only [Res.bind_eq_ok] at e4
      obtain ⟨_, _, _, _, _, _, e4⟩ := e4
      cases e4
  · cases e4

/-- instructions that are no conditionals have no effect in a skipped branch -/
private theorem all_skipped (env : Env) {vm : State} (hs : branchShouldSkip vm = true) :
    ∀ ts : List Token, (∀ t ∈ ts, t.Valid ∧ ¬ IsCond t) → execAll env ts vm = .ok vm
  | [], _ => rfl
  | t :: ts, ht => by
    simp only [execAll]
    rw [exec_skip env (ht t (by simp)).1 (ht t (by simp)).2 vm hs, Res.ok_bind]
    exact all_skipped env hs ts fun t h => ht t (by simp [h])

/-- the P2PKH script, run to its end -/
private theorem p2pkh_true (env : Env) {h : Bytes} (hh : h.length = 20) (s : Stack) (cs : List Cond)
    (hcs : branchShouldSkip ⟨s, cs⟩ = false) (vm2 : State) :
    execute env (lockP2PKH h) true ⟨s, cs⟩ = .ok vm2 ↔
      ∃ key sig rest, s = key :: sig :: rest ∧ env.hash160 key = h ∧ SigOk env sig key ∧ vm2 = ⟨rest, cs⟩ := by
  have hl2 : (encTokens (p2pkhTokens h)).length < 2^62 := by rw [← p2pkh_enc]; simp [lockP2PKH, hh]
  rw [execute_true, p2pkh_enc, run_tokens env (p2pkh_valid hh) hl2, p2pkh_exec _ _ _ _ hcs]
  cases s with
  | nil =>
    constructor
    · rintro ⟨vm1, h1, _⟩; cases h1
    · rintro ⟨_, _, _, h1, _⟩; cases h1
  | cons a l =>
    rw [show dupN (a :: l) 1 = .ok (a :: a :: l) from rfl, Res.ok_bind,
      show opHash160 env (a :: a :: l) = .ok (env.hash160 a :: a :: l) from rfl, Res.ok_bind,
      show opEqual (h :: env.hash160 a :: a :: l) = .ok (boolBytes (h == env.hash160 a) :: a :: l) from rfl, Res.ok_bind]
    by_cases hq : env.hash160 a = h
    · rw [hq, beq_self_eq_true, show equalVerify (boolBytes true :: a :: l) = .ok (a :: l) from rfl, Res.ok_bind]
      constructor
      · rintro ⟨vm1, h1, h2⟩
        rw [Res.bind_eq_ok] at h1
        obtain ⟨s4, e4, h1⟩ := h1
        cases h1
        rcases h2 with ⟨h2, _⟩ | ⟨x, r, h2, hx, rfl⟩
        · simp only at h2; subst h2; exact absurd e4 checkSig_ne
        · simp only at h2; subst h2
          obtain ⟨key, sig, e, hok⟩ := (checkSig_iff env _ r).mp ⟨x, e4, hx⟩
          cases e
          exact ⟨a, sig, r, rfl, hq, hok, rfl⟩
      · rintro ⟨key, sig, rest, e, _, hok, rfl⟩
        cases e
        obtain ⟨x, e4, hx⟩ := (checkSig_iff env _ rest).mpr ⟨a, sig, rfl, hok⟩
        exact ⟨⟨x :: rest, cs⟩, by rw [e4]; rfl, .inr ⟨x, rest, rfl, hx, rfl⟩⟩
    · rw [show (h == env.hash160 a) = false from by rw [beq_eq_false_iff_ne]; exact fun e => hq e.symm]
      constructor
      · rintro ⟨vm1, h1, _⟩; cases h1
      · rintro ⟨key, sig, rest, e, hk, _⟩; cases e; exact absurd hk hq

private theorem p2pkh_plain {h : Bytes} (hh : h.length = 20) : ∀ t ∈ p2pkhTokens h, t.Valid ∧ ¬ IsCond t := by
  intro t ht
  refine ⟨p2pkh_valid hh t ht, ?_⟩
  simp only [p2pkhTokens, List.mem_cons, List.not_mem_nil, or_false] at ht
  rcases ht with rfl | rfl | rfl | rfl | rfl <;> simp [IsCond]

private theorem p2sh_plain {h : Bytes} (hh : h.length = 20) : ∀ t ∈ p2shTokens h, t.Valid ∧ ¬ IsCond t := by
  intro t ht
  refine ⟨p2sh_valid hh t ht, ?_⟩
  simp only [p2shTokens, List.mem_cons, List.not_mem_nil, or_false] at ht
  rcases ht with rfl | rfl | rfl <;> simp [IsCond]

/-- a script without conditionals, under a skipped branch and with an empty stack -/
private theorem skipped_true (env : Env) {ts : List Token} (hp : ∀ t ∈ ts, t.Valid ∧ ¬ IsCond t) (hl : (encTokens ts).length < 2^62)
    {cs : List Cond} (hs : branchShouldSkip ⟨[], cs⟩ = true) : execute env (encTokens ts) true ⟨[], cs⟩ = .ok ⟨[], cs⟩ := by
  rw [execute_true]
  refine ⟨⟨[], cs⟩, ?_, .inl ⟨rfl, rfl⟩⟩
  rw [run_tokens env (fun t ht => (hp t ht).1) hl]
  exact all_skipped env hs ts hp

/-- **C23.** Exactly when Verify succeeds for a pay-to-pubkey-hash output and any unlocking script: it runs, and ends in a
branch that is skipped, or leaves a key that hashes to `h` above a signature good for it. In the latter case, if two or more
values are below these, the key must also run as a script on the other values. -/
theorem C23_iff (env : Env) (h : Bytes) (hh : h.length = 20) (u : Bytes) (hl : (u ++ lockP2PKH h).length < 2^62) :
    (∃ vm', verify env u (lockP2PKH h) fresh = .ok vm') ↔
      ∃ vm, execute env u false fresh = .ok vm ∧
        (branchShouldSkip vm = true ∨
         branchShouldSkip vm = false ∧ ∃ key sig rest, vm.dstack = key :: sig :: rest ∧ env.hash160 key = h ∧ SigOk env sig key ∧
           (2 ≤ rest.length → ∃ vm', execute env key true ⟨sig :: rest, vm.cstack ++ vm.cstack⟩ = .ok vm')) := by
  have hl2 : (encTokens (p2pkhTokens h)).length < 2^62 := by rw [← p2pkh_enc]; simp [lockP2PKH, hh]
  simp only [C112_verify_iff env _ _ hl]
  rw [exists_comm]
  refine exists_congr fun vm => ?_
  rw [exists_and_left]
  refine and_congr_right fun _ => ?_
  cases hs : branchShouldSkip vm with
  | true =>
    refine iff_of_true ?_ (.inl rfl)
    have ha := again_skip vm
    unfold again at ha ⊢
    rw [hs, if_pos rfl] at ha ⊢
    refine ⟨⟨[], List.replicate vm.cstack.length .skip ++ vm.cstack⟩, _, by rw [p2pkh_enc]; exact skipped_true env (p2pkh_plain hh) hl2 ha, ?_⟩
    rw [if_pos (by simp)]
  | false =>
    have ha := again_skip vm
    unfold again at ha ⊢
    rw [hs, if_neg (by decide)] at ha ⊢
    simp only [p2pkh_true env hh _ _ ha]
    constructor
    · rintro ⟨vm', vm2, ⟨key, sig, rest, e, hk, hok, rfl⟩, h3⟩
      refine .inr ⟨trivial, key, sig, rest, e, hk, hok, fun hn => ?_⟩
      rw [if_neg (by simp only; omega)] at h3
      obtain ⟨r, s, e2, h3⟩ := h3
      rw [e] at e2; cases e2
      exact ⟨_, h3⟩
    · rintro (h0 | ⟨_, key, sig, rest, e, hk, hok, h3⟩)
      · cases h0
      · by_cases hn : 2 ≤ rest.length
        · obtain ⟨vm', h3⟩ := h3 hn
          exact ⟨vm', _, ⟨key, sig, rest, e, hk, hok, rfl⟩, by rw [if_neg (by simp only; omega)]; exact ⟨key, _, e, h3⟩⟩
        · exact ⟨_, _, ⟨key, sig, rest, e, hk, hok, rfl⟩, by rw [if_pos (by simp only; omega)]⟩

/-- Both cases occur. -/
example : (∃ vm, execute toyEnv [0x00, 0x63] false fresh = .ok vm ∧ branchShouldSkip vm = true) ∧
    ∃ vm key sig rest, execute toyEnv (encTokens [⟨0x51, []⟩, ⟨0x63, []⟩, ⟨0x15, List.replicate 20 5 ++ [1]⟩, ⟨0x14, List.replicate 20 5⟩]) false fresh = .ok vm ∧
      branchShouldSkip vm = false ∧ vm.cstack = [.yes] ∧ vm.dstack = key :: sig :: rest ∧ toyEnv.hash160 key = List.replicate 20 5 ∧ SigOk toyEnv sig key := by
  refine ⟨⟨⟨[], [.no]⟩, by decide +kernel, rfl⟩, ⟨[List.replicate 20 5, List.replicate 20 5 ++ [1]], [.yes]⟩, _, _, [], by decide +kernel, rfl, rfl, rfl, by decide +kernel, ?_⟩
  exact ⟨_, _, List.replicate 20 5, 1, [1], rfl, rfl, rfl, rfl, by simp⟩

/-! ### pay to script hash -/

private theorem p2sh_true (env : Env) {h : Bytes} (hh : h.length = 20) (s : Stack) (cs : List Cond)
    (hcs : branchShouldSkip ⟨s, cs⟩ = false) (vm2 : State) :
    execute env (lockP2SH h) true ⟨s, cs⟩ = .ok vm2 ↔ ∃ r rest, s = r :: rest ∧ env.hash160 r = h ∧ vm2 = ⟨rest, cs⟩ := by
  have hl2 : (encTokens (p2shTokens h)).length < 2^62 := by rw [← p2sh_enc]; simp [lockP2SH, hh]
  have hex : ∀ (i : Instruction) (x : Stack), exec env i ⟨x, cs⟩ = opfunc env i ⟨x, cs⟩ := by
    intro i x
    unfold exec
    rw [show branchShouldSkip ⟨x, cs⟩ = false from hcs]
    rfl
  rw [execute_true, p2sh_enc, run_tokens env (p2sh_valid hh) hl2]
  simp only [p2shTokens, execAll]
  rw [hex]
  cases s with
  | nil =>
    constructor
    · rintro ⟨vm1, h1, _⟩; cases h1
    · rintro ⟨_, _, h1, _⟩; cases h1
  | cons a l =>
    rw [show opfunc env (instrOf ⟨0xa9, []⟩) ⟨a :: l, cs⟩ = .ok ⟨env.hash160 a :: l, cs⟩ from rfl, Res.ok_bind, hex,
      show opfunc env (instrOf ⟨0x14, h⟩) ⟨env.hash160 a :: l, cs⟩ = .ok ⟨h :: env.hash160 a :: l, cs⟩ from rfl, Res.ok_bind, hex,
      show opfunc env (instrOf ⟨0x87, []⟩) ⟨h :: env.hash160 a :: l, cs⟩ = .ok ⟨boolBytes (h == env.hash160 a) :: l, cs⟩ from rfl, Res.ok_bind]
    by_cases hq : env.hash160 a = h
    · rw [hq, beq_self_eq_true]
      constructor
      · rintro ⟨vm1, h1, h2⟩
        cases h1
        rcases h2 with ⟨h2, _⟩ | ⟨x, r, h2, hx, rfl⟩
        · cases h2
        · cases h2; exact ⟨a, _, rfl, hq, rfl⟩
      · rintro ⟨r, rest, e, _, rfl⟩
        cases e
        exact ⟨_, rfl, .inr ⟨_, _, rfl, rfl, rfl⟩⟩
    · rw [show (h == env.hash160 a) = false from by rw [beq_eq_false_iff_ne]; exact fun e => hq e.symm]
      constructor
      · rintro ⟨vm1, h1, h2⟩
        cases h1
        rcases h2 with ⟨h2, _⟩ | ⟨x, r, h2, hx, rfl⟩
        · cases h2
        · cases h2; cases hx
      · rintro ⟨r, rest, e, hk, _⟩; cases e; exact absurd hk hq

/-- **C25.** Exactly when Verify succeeds for a pay-to-script-hash output and any unlocking script: it runs, and ends in a
branch that is skipped, or leaves a redeem script that hashes to `h`, which is run on the other values if they are two or
more, and not run otherwise. -/
theorem C25_iff (env : Env) (h : Bytes) (hh : h.length = 20) (u : Bytes) (hl : (u ++ lockP2SH h).length < 2^62) :
    (∃ vm', verify env u (lockP2SH h) fresh = .ok vm') ↔
      ∃ vm, execute env u false fresh = .ok vm ∧
        (branchShouldSkip vm = true ∨
         branchShouldSkip vm = false ∧ ∃ redeem rest, vm.dstack = redeem :: rest ∧ env.hash160 redeem = h ∧
           (2 ≤ rest.length → ∃ vm', execute env redeem true ⟨rest, vm.cstack ++ vm.cstack⟩ = .ok vm')) := by
  have hl2 : (encTokens (p2shTokens h)).length < 2^62 := by rw [← p2sh_enc]; simp [lockP2SH, hh]
  simp only [C112_verify_iff env _ _ hl]
  rw [exists_comm]
  refine exists_congr fun vm => ?_
  rw [exists_and_left]
  refine and_congr_right fun _ => ?_
  cases hs : branchShouldSkip vm with
  | true =>
    refine iff_of_true ?_ (.inl rfl)
    have ha := again_skip vm
    unfold again at ha ⊢
    rw [hs, if_pos rfl] at ha ⊢
    refine ⟨⟨[], List.replicate vm.cstack.length .skip ++ vm.cstack⟩, _, by rw [p2sh_enc]; exact skipped_true env (p2sh_plain hh) hl2 ha, ?_⟩
    rw [if_pos (by simp)]
  | false =>
    have ha := again_skip vm
    unfold again at ha ⊢
    rw [hs, if_neg (by decide)] at ha ⊢
    simp only [p2sh_true env hh _ _ ha]
    constructor
    · rintro ⟨vm', vm2, ⟨redeem, rest, e, hk, rfl⟩, h3⟩
      refine .inr ⟨trivial, redeem, rest, e, hk, fun hn => ?_⟩
      rw [if_neg (by simp only; omega)] at h3
      obtain ⟨r, s, e2, h3⟩ := h3
      rw [e] at e2; cases e2
      exact ⟨_, h3⟩
    · rintro (h0 | ⟨_, redeem, rest, e, hk, h3⟩)
      · cases h0
      · by_cases hn : 2 ≤ rest.length
        · obtain ⟨vm', h3⟩ := h3 hn
          exact ⟨vm', _, ⟨redeem, rest, e, hk, rfl⟩, by rw [if_neg (by simp only; omega)]; exact ⟨redeem, _, e, h3⟩⟩
        · exact ⟨_, _, ⟨redeem, rest, e, hk, rfl⟩, by rw [if_pos (by simp only; omega)]⟩

/-- A redeem script of twenty OP_1, run on two values left under an open conditional. -/
example : ∃ vm, execute toyEnv (encTokens [⟨0x51, []⟩, ⟨0x63, []⟩, ⟨0x52, []⟩, ⟨0x53, []⟩, ⟨0x14, List.replicate 20 0x51⟩]) false fresh = .ok vm ∧
    branchShouldSkip vm = false ∧ vm.dstack = [List.replicate 20 0x51, [3], [2]] ∧
    ((execute toyEnv (List.replicate 20 0x51) true ⟨[[3], [2]], vm.cstack ++ vm.cstack⟩).bind fun _ => .ok ()) = .ok () := by
  refine ⟨⟨[List.replicate 20 0x51, [3], [2]], [.yes]⟩, by decide +kernel, rfl, rfl, by decide +kernel⟩

end Toku.Props
