import Verif.Spec.Standard
import Verif.Props.Bitcoin
import Verif.Props.Policies
import Verif.Model.Sha
/-
Property C128, continued: P2SH coins of any redeem script made of the opcodes that the library knows.
-/
namespace Toku.Props
open Toku Toku.Spec Toku.VM Toku.Locking Toku.Script Toku.Tx
open Toku.Spec.Bitcoin (In BTx ValidInput ValidScripts Rules Multi Act Eval EvalScript Stricter standard consensus library allCheck
  legacyCheck checkSig legacyHash StandardP2SH StandardP2PKH VerifyLegacy)

/-! ### Another check of signatures -/

section
variable {R : Rules} {hash : Bytes → Bytes} {c c' : Bytes → Bytes → Option Bool}

private theorem multi_check (hc : ∀ s k b, c s k = some b → c' s k = some b) {sigs keys : List Bytes} {b : Bool} (h : Multi R c sigs keys b) :
    Multi R c' sigs keys b := by
  induction h with
  | done keys => exact .done keys
  | few sigs keys hl => exact .few sigs keys hl
  | hit sig sigs key keys b hl hs h _ ih => exact .hit _ _ _ _ _ hl hs (hc _ _ _ h) ih
  | miss sig sigs key keys b hl hs h _ ih => exact .miss _ _ _ _ _ hl hs (hc _ _ _ h) ih

private theorem op_check (hc : ∀ s k b, c s k = some b → c' s k = some b) {t : Token} {s s' : Bitcoin.Stack} {k : ℕ} (ho : Bitcoin.Op R hash c t s s' k) :
    Bitcoin.Op R hash c' t s s' k := by
  cases ho with
  | push _ _ h0 => exact .push _ _ h0
  | negate => exact .negate ..
  | num _ _ h1 h2 => exact .num _ _ h1 h2
  | ret d _ hr => exact .ret _ _ hr
  | dup2 => exact .dup2 ..
  | dup3 => exact .dup3 ..
  | drop => exact .drop ..
  | dup => exact .dup ..
  | swap => exact .swap ..
  | size d a s r hn => exact .size _ _ _ _ hn
  | equal => exact .equal ..
  | equalVerify => exact .equalVerify ..
  | add d a b s m n r h1 h2 h3 => exact .add _ _ _ _ _ _ _ h1 h2 h3
  | hash => exact .hash ..
  | checkSig d key sig s b h => exact .checkSig _ _ _ _ _ (hc _ _ _ h)
  | checkSigVerify d key sig s h => exact .checkSigVerify _ _ _ _ (hc _ _ _ h)
  | multi d x keys y sigs dm s b hx hy hl hk hn hm => exact .multi _ _ _ _ _ _ _ _ hx hy hl hk hn (multi_check hc hm)
  | multiVerify d x keys y sigs dm s hx hy hl hk hn hm => exact .multiVerify _ _ _ _ _ _ _ hx hy hl hk hn (multi_check hc hm)

private theorem act_check (hc : ∀ s k b, c s k = some b → c' s k = some b) {t : Token} {s s' : Bitcoin.Stack} {e e' : List Bool} {k : ℕ}
    (ha : Act R hash c t s e s' e' k) : Act R hash c' t s e s' e' k := by
  cases ha with
  | run _ _ _ _ _ hc' ha ho => exact .run _ _ _ _ _ hc' ha (op_check hc ho)
  | skip _ _ _ hc ha => exact .skip _ _ _ hc ha
  | ifTrue d a _ _ ha hm ht => exact .ifTrue _ _ _ _ ha hm ht
  | ifFalse d a _ _ ha hm ht => exact .ifFalse _ _ _ _ ha hm ht
  | notifTrue d a _ _ ha hm ht => exact .notifTrue _ _ _ _ ha hm ht
  | notifFalse d a _ _ ha hm ht => exact .notifFalse _ _ _ _ ha hm ht
  | ifSkipped _ _ _ ho ha => exact .ifSkipped _ _ _ ho ha
  | els => exact .els ..
  | endif => exact .endif ..

private theorem eval_check (hc : ∀ s k b, c s k = some b → c' s k = some b) {ts : List Token} {a z : Bitcoin.State} (h : Eval R hash c ts a z) :
    Eval R hash c' ts a z := by
  induction h with
  | nil st => exact .nil st
  | cons t ts s e n s' e' k st ha hl _ ih => exact .cons _ _ _ _ _ _ _ _ _ (act_check hc ha) hl ih

/-- A script without opcodes for signatures runs with any check. -/
private theorem evalScript_free {ts : List Token} {s s' : Bitcoin.Stack} (hf : ∀ t ∈ ts, t.op.toNat < 0xac) (h : EvalScript R hash c ts s s') :
    EvalScript R hash c' ts s s' := by
  obtain ⟨hl, n, he⟩ := h
  refine ⟨hl, n, ?_⟩
  clear hl
  have hop : ∀ {t : Token} {s s' : Bitcoin.Stack} {k : ℕ}, t.op.toNat < 0xac → Bitcoin.Op R hash c t s s' k → Bitcoin.Op R hash c' t s s' k := by
    intro t s s' k ht ho
    cases ho with
    | push _ _ h0 => exact .push _ _ h0
    | negate => exact .negate ..
    | num _ _ h1 h2 => exact .num _ _ h1 h2
    | ret d _ hr => exact .ret _ _ hr
    | dup2 => exact .dup2 ..
    | dup3 => exact .dup3 ..
    | drop => exact .drop ..
    | dup => exact .dup ..
    | swap => exact .swap ..
    | size d a s r hn => exact .size _ _ _ _ hn
    | equal => exact .equal ..
    | equalVerify => exact .equalVerify ..
    | add d a b s m n r h1 h2 h3 => exact .add _ _ _ _ _ _ _ h1 h2 h3
    | hash => exact .hash ..
    | checkSig d key sig s b h => exact absurd ht (by decide : ¬ (0xac : UInt8).toNat < 0xac)
    | checkSigVerify d key sig s h => exact absurd ht (by decide : ¬ (0xad : UInt8).toNat < 0xac)
    | multi d x keys y sigs dm s b hx hy hl hk hn hm => exact absurd ht (by decide : ¬ (0xae : UInt8).toNat < 0xac)
    | multiVerify d x keys y sigs dm s hx hy hl hk hn hm => exact absurd ht (by decide : ¬ (0xaf : UInt8).toNat < 0xac)
  generalize (⟨s, [], 0⟩ : Bitcoin.State) = a at he
  generalize (⟨s', [], n⟩ : Bitcoin.State) = z at he
  induction he with
  | nil st => exact .nil st
  | cons t ts s e n s' e' k st ha hl _ ih =>
    refine .cons _ _ _ _ _ _ _ _ _ ?_ hl (ih fun x hx => hf x (List.mem_cons_of_mem _ hx))
    have ht := hf t List.mem_cons_self
    cases ha with
    | run _ _ _ _ _ hc' ha ho => exact .run _ _ _ _ _ hc' ha (hop ht ho)
    | skip _ _ _ hc ha => exact .skip _ _ _ hc ha
    | ifTrue d a _ _ ha hm hy => exact .ifTrue _ _ _ _ ha hm hy
    | ifFalse d a _ _ ha hm hy => exact .ifFalse _ _ _ _ ha hm hy
    | notifTrue d a _ _ ha hm hy => exact .notifTrue _ _ _ _ ha hm hy
    | notifFalse d a _ _ ha hm hy => exact .notifFalse _ _ _ _ ha hm hy
    | ifSkipped _ _ _ ho ha => exact .ifSkipped _ _ _ ho ha
    | els => exact .els ..
    | endif => exact .endif ..

/-- A run stays one when the check of signatures is replaced by one that gives the same answers where the first gives one. -/
private theorem evalScript_check (hc : ∀ s k b, c s k = some b → c' s k = some b) {ts : List Token} {s s' : Bitcoin.Stack}
    (h : EvalScript R hash c ts s s') : EvalScript R hash c' ts s s' := by
  obtain ⟨hl, n, he⟩ := h
  exact ⟨hl, n, eval_check hc he⟩

end

private theorem standard_consensus : Stricter standard consensus :=
  ⟨fun _ => rfl, fun h => (by cases h), fun h => (by cases h), fun h => (by cases h), fun _ => rfl, fun _ => rfl⟩

private theorem standard_library : Stricter standard library :=
  ⟨fun h => (by cases h), fun _ => rfl, fun _ => rfl, fun h => (by cases h), fun h => (by cases h), fun h => (by cases h)⟩

section
variable [Hashes]

private theorem allCheck_legacy {b : BTx} {idx : ℕ} {code : List Token} {s k : Bytes} {v : Bool} (h : allCheck b idx code s k = some v) :
    legacyCheck b idx code s k = some v := by
  unfold allCheck at h
  split at h
  · exact h
  · cases h

/-- **C128.** What is said of a P2SH input in `StandardP2SH` is a part of Bitcoin's rules. -/
theorem C128_standard_valid (b : BTx) (idx : ℕ) (i : In) (hi : b.ins[idx]? = some i) (coin : TxOut) (redeem : Bytes)
    (h : StandardP2SH b idx i coin redeem) : ValidInput b idx coin := by
  obtain ⟨hw, u, p, hu, hs, hp, hc, ⟨s1, x, s2, h1, h2, hx, h3⟩, _⟩ := h
  have henc : encTokens [⟨0xa9, []⟩, ⟨0x14, p⟩, ⟨0x87, []⟩] = lockP2SH p := (p2sh_enc p).symm
  have hc' : coin.script = encTokens [⟨0xa9, []⟩, ⟨0x14, p⟩, ⟨0x87, []⟩] := by rw [henc, hc]; simp [lockP2SH]
  have hv : ∀ t ∈ ([⟨0xa9, []⟩, ⟨0x14, p⟩, ⟨0x87, []⟩] : List Token), t.Valid := p2sh_valid hp
  refine ⟨i, hi, Or.inl ⟨?_, hw, u, _, ?_, hs, hc', s1, x, s2, ?_, ?_, hx, fun hip => ?_⟩⟩
  · rw [hc']
    exact not_program hv (by rw [henc]; simp [lockP2SH, hp]) (by simp)
  · intro t ht
    rcases List.mem_append.mp ht with ht | ht
    · exact hu t ht
    · exact hv t ht
  · exact evalScript_mono standard_consensus (evalScript_check (fun _ _ _ => allCheck_legacy) h1)
  · exact evalScript_mono standard_consensus (evalScript_check (fun _ _ _ => allCheck_legacy) h2)
  · obtain ⟨hpush, rts, s3, y, s4, a1, a2, a3, a4, a5⟩ := h3 hip
    exact ⟨hpush, rts, s3, y, s4, a1, a2, a3, evalScript_mono standard_consensus (evalScript_check (fun _ _ _ => allCheck_legacy) a4), a5⟩

/-- The library gives the answers of `allCheck`, if it hashes the script that runs. -/
private theorem check_agrees (fuel : ℕ) (b : BTx) (tx : Transaction) (idx : ℕ) (code : List Token)
    (hh : rawSignatureHash tx idx 1 = .ok (legacyHash b idx (encTokens code) 1)) {s k : Bytes} {v : Bool} (h : allCheck b idx code s k = some v) :
    checkOf (legacyEnv (Ecdsa.scheme fuel) tx idx) s k = some v := by
  unfold allCheck at h
  split at h
  swap
  · cases h
  rename_i hc
  obtain ⟨ht, h5⟩ := hc
  unfold legacyCheck at h
  split at h
  · cases h
  rcases ScriptNum.nil_or_snoc s with rfl | ⟨der, t, rfl⟩
  · unfold checkSig at h
    rw [if_pos rfl] at h
    cases h
    rfl
  · have ht1 : t = 1 := by
      rcases ht with ht | ht
      · simp at ht
      · rw [List.getLast?_concat] at ht
        exact Option.some.inj ht
    subst ht1
    have hk5 : ∀ rest, k ≠ 5 :: rest := by
      rintro rest rfl
      exact h5 rfl
    unfold checkOf legacyEnv
    dsimp only
    rw [List.getLast?_concat, List.dropLast_concat]
    dsimp only
    rw [show (1 : UInt8).toUInt32 = 1 from rfl, hh]
    dsimp only
    change (match Ecdsa.verifyBytes (legacyHash b idx (encTokens code) 1) der k with
      | .ok _ => some true | .err _ => some false | .panic => none) = some v
    cases v with
    | true =>
      have := verify_of_check h
      rw [show (1 : UInt8).toUInt32 = 1 from rfl] at this
      rw [this]
    | false =>
      cases hv : Ecdsa.verifyBytes (legacyHash b idx (encTokens code) 1) der k with
      | err e => rfl
      | panic => exact absurd hv (verifyBytes_no_panic _ _ _)
      | ok x =>
        exfalso
        have hb : ∃ r s t, Bitcoin.Bip66 (der ++ [1]) r s t := by
          by_contra hb
          unfold checkSig at h
          rw [if_neg (by simp), if_neg hb] at h
          cases h
        obtain ⟨r, s, t, hb⟩ := hb
        obtain ⟨rfl, _⟩ := der_of_bip66 hb
        have := check_of_verify (hash := legacyHash b idx (encTokens code)) hb hk5 hv
        rw [h] at this
        cases this

/-- **C128.** And what is said of a P2PKH input in `StandardP2PKH`. -/
theorem C128_standard_valid_key (b : BTx) (idx : ℕ) (i : In) (hi : b.ins[idx]? = some i) (coin : TxOut)
    (h : StandardP2PKH b idx i coin) : ValidInput b idx coin := by
  obtain ⟨hw, u, p, hu, hpush, hs, hp, hc, s1, x, h1, h2, hx⟩ := h
  have henc : encTokens (p2pkhTokens p) = lockP2PKH p := (p2pkh_enc p).symm
  have hc' : coin.script = encTokens (p2pkhTokens p) := by rw [henc, hc]; simp [lockP2PKH]
  have hv := p2pkh_valid hp
  refine ⟨i, hi, Or.inl ⟨?_, hw, u, _, ?_, hs, hc', s1, x, [], ?_, ?_, hx, fun hip => ?_⟩⟩
  · rw [hc']
    exact not_program hv (by rw [henc]; simp [lockP2PKH, hp]) (by simp [p2pkhTokens])
  · intro t ht
    rcases List.mem_append.mp ht with ht | ht
    · exact hu t ht
    · exact hv t ht
  · exact evalScript_mono standard_consensus (evalScript_check (fun _ _ _ => allCheck_legacy) h1)
  · exact evalScript_mono standard_consensus (evalScript_check (fun _ _ _ => allCheck_legacy) h2)
  · obtain ⟨q, _, e⟩ := hip
    cases e

/-! ### One input -/

private theorem redeem_compared {fuel : ℕ} {t0 : UInt32} {b : BTx} {idx : ℕ} {i : In} {coin : TxOut} {redeem : Bytes} (strict : Prop)
    (hi : b.ins[idx]? = some i) (hk : StandardP2SH b idx i coin redeem) :
    ∃ p un, Shape i coin (some redeem) .p2sh p un ∧ ∀ tx, wire tx = b → Encodable tx →
      tx.inputs[idx]? = some (setWith i coin (some redeem) .p2sh p un) →
      ∃ L, Compared fuel t0 b tx idx coin strict (setWith i coin (some redeem) .p2sh p un) L := by
  have hvalid := C128_standard_valid b idx i hi coin redeem hk
  obtain ⟨hw, u, p, hu, hss, hp, hcs, ⟨s1, x, s2, h1, h2, hx, h3⟩, htop⟩ := hk
  have hsl : (encTokens u).length ≤ 10000 := h1.1 rfl
  refine ⟨p, encTokens u, ⟨hp, by rw [hcs]; simp [standardScript], ⟨none, rfl, hss⟩, hss, by omega⟩, fun tx hwire henc hj => ⟨True, ?_, fun _ => trivial,
    fun _ _ => hvalid⟩⟩
  rintro s ⟨hinv, hin⟩
  obtain ⟨⟨r, hr⟩, hiff, _⟩ := C111_legacy_input (Ecdsa.scheme fuel) s idx (setWith i coin (some redeem) .p2sh p (encTokens u)) ⟨.p2sh, p⟩
    (C29_parse_build .p2sh p hp) (Or.inr rfl)
  refine ⟨?_, by rw [hr]; exact hinv, by rw [hr]; exact hin⟩
  rw [hiff, iff_true]
  obtain ⟨hpush, rts, s3, y, s4, a1, a2, a3, a4, a5⟩ := h3 ⟨p, hp, rfl⟩
  have hred : redeem = encTokens rts := by
    have := htop s1 h1
    rw [a2] at this
    exact (Option.some.inj this).symm
  have hl : (encTokens rts).length < 2^62 := lt_of_le_of_lt (a4.1 rfl) (by norm_num)
  have hhash : rawSignatureHash s idx 1 = .ok (legacyHash b idx (encTokens rts) 1) := by
    rw [rawHash_frozen hinv.frozen]
    unfold rawSignatureHash
    rw [C39_format tx henc idx _ (encTokens rts) hj (by rw [hred]; rfl) hl, ← hwire, legacyHash_all]
    rfl
  have henc' : encTokens (p2shTokens p) = lockP2SH p := (p2sh_enc p).symm
  have hacc := C124_complete_partial (legacyEnv (Ecdsa.scheme fuel) s idx) (fun x => by
      change (hash160 x).length < _
      rw [hash160_length]; norm_num) standard_library hu (p2sh_valid hp) (by
      rw [encTokens, List.flatMap_append, ← encTokens, ← encTokens, henc', List.length_append]
      simp only [lockP2SH, List.length_append, List.length_cons, List.length_nil, hp]
      omega)
    (evalScript_free (c' := checkOf (legacyEnv (Ecdsa.scheme fuel) s idx)) (fun t ht => by have := hpush t ht; omega) h1)
    (evalScript_free (c' := checkOf (legacyEnv (Ecdsa.scheme fuel) s idx)) (by
      intro t ht
      simp only [p2shTokens, List.mem_cons, List.not_mem_nil, or_false] at ht
      rcases ht with rfl | rfl | rfl
      · exact (by decide : (0xa9 : UInt8).toNat < 0xac)
      · exact (by decide : (0x14 : UInt8).toNat < 0xac)
      · exact (by decide : (0x87 : UInt8).toNat < 0xac)) h2) hx
    (fun _ => ⟨rts, s3, y, s4, a1, a2, evalScript_check (fun _ _ _ => check_agrees fuel b s idx rts hhash) a4, a5⟩)
    (fun hnp => absurd ⟨p, hp, rfl⟩ hnp)
  rw [henc'] at hacc
  rw [show (setWith i coin (some redeem) .p2sh p (encTokens u)).finalLockingScript = lockP2SH p from C29_build .p2sh p hp]
  exact hacc

private theorem pushes_compared {fuel : ℕ} {t0 : UInt32} {b : BTx} {idx : ℕ} {i : In} {coin : TxOut} (strict : Prop)
    (hi : b.ins[idx]? = some i) (hk : StandardP2PKH b idx i coin) :
    ∃ p un, Shape i coin none .p2pkh p un ∧ ∀ tx, wire tx = b → Encodable tx →
      tx.inputs[idx]? = some (setWith i coin none .p2pkh p un) →
      ∃ L, Compared fuel t0 b tx idx coin strict (setWith i coin none .p2pkh p un) L := by
  have hvalid := C128_standard_valid_key b idx i hi coin hk
  obtain ⟨hw, u, p, hu, hpush, hss, hp, hcs, s1, x, h1, h2, hx⟩ := hk
  have hsl : (encTokens u).length ≤ 10000 := h1.1 rfl
  refine ⟨p, encTokens u, ⟨hp, by rw [hcs]; simp [standardScript], ⟨none, rfl, hss⟩, hss, by omega⟩, fun tx hwire henc hj => ⟨True, ?_, fun _ => trivial,
    fun _ _ => hvalid⟩⟩
  rintro s ⟨hinv, hin⟩
  obtain ⟨⟨r, hr⟩, hiff, _⟩ := C111_legacy_input (Ecdsa.scheme fuel) s idx (setWith i coin none .p2pkh p (encTokens u)) ⟨.p2pkh, p⟩
    (C29_parse_build .p2pkh p hp) (Or.inl rfl)
  refine ⟨?_, by rw [hr]; exact hinv, by rw [hr]; exact hin⟩
  rw [hiff, iff_true]
  have henc' : encTokens (p2pkhTokens p) = lockP2PKH p := (p2pkh_enc p).symm
  have hcode : signedScript (setWith i coin none .p2pkh p (encTokens u)) = .ok (encTokens (p2pkhTokens p)) := by
    change Script.removeOpcode (rawLocking ⟨.p2pkh, p⟩) 0xab = _
    rw [C29_build .p2pkh p hp, henc', C20_codeseparator_kept _ (standard_short .p2pkh p hp)]
    rfl
  have hhash : rawSignatureHash s idx 1 = .ok (legacyHash b idx (encTokens (p2pkhTokens p)) 1) := by
    rw [rawHash_frozen hinv.frozen]
    unfold rawSignatureHash
    rw [C39_format tx henc idx _ _ hj hcode (by rw [henc']; simp [lockP2PKH, hp]), ← hwire, legacyHash_all]
    rfl
  have hacc := C124_complete_partial (legacyEnv (Ecdsa.scheme fuel) s idx) (fun x => by
      change (hash160 x).length < _
      rw [hash160_length]; norm_num) standard_library hu (p2pkh_valid hp) (by
      rw [encTokens, List.flatMap_append, ← encTokens, ← encTokens, henc', List.length_append]
      simp only [lockP2PKH, List.length_append, List.length_cons, List.length_nil, hp]
      omega)
    (evalScript_free (c' := checkOf (legacyEnv (Ecdsa.scheme fuel) s idx)) (fun t ht => by have := hpush t ht; omega) h1)
    (evalScript_check (c' := checkOf (legacyEnv (Ecdsa.scheme fuel) s idx)) (fun _ _ _ => check_agrees fuel b s idx (p2pkhTokens p) hhash) h2) hx
    (fun hip => by obtain ⟨q, _, e⟩ := hip; cases e)
    (fun _ => by simp)
  rw [henc'] at hacc
  rw [show (setWith i coin none .p2pkh p (encTokens u)).finalLockingScript = lockP2PKH p from C29_build .p2pkh p hp]
  exact hacc

/-! ### All inputs -/

/-- **C128 (partial).** The library and Bitcoin say the same of a received transaction, where inputs of these kinds can be mixed: coins of keys and of
m-of-n scripts spent as in `C128_exact_partial`, P2SH coins of any redeem script, and P2PKH coins opened by any pushes, under the rules of
`StandardP2SH` and `StandardP2PKH`. Full statement: for every transaction, which is false (`C128_negation_program` and the others). -/
theorem C128_any_partial (fuel : ℕ) (T : ℕ → UInt32) (hT : ∀ n, Covers (T n) (T (n + 1))) (b : BTx) (coins : List (TxOut × Option Bytes)) (h : Sizes b)
    (hn : coins.length = b.ins.length)
    (hk : ∀ (idx : ℕ) i c, b.ins[idx]? = some i → coins[idx]? = some c →
      StrictlySpends (T idx) i c.1 c.2 ∨ (∃ redeem, c.2 = some redeem ∧ StandardP2SH b idx i c.1 redeem) ∨ (c.2 = none ∧ StandardP2PKH b idx i c.1)) :
    verdictWith fuel b coins = .ok () ↔ ValidScripts b (coins.map (·.1)) := by
  refine (compared_all (fuel := fuel) hT h hn True ?_).2 trivial
  rintro idx i ⟨coin, redeem⟩ hi hc
  rcases hk idx i _ hi hc with (⟨hr, p, sig, key, hks, hst⟩ | ⟨p, m, keys, sigs, hr, hps, hst⟩) | ⟨r, hr, hs⟩ | ⟨hr, hs⟩
  · dsimp only at hr hks
    subst hr
    obtain ⟨k, un, hsh, hcmp⟩ := key_compared (fuel := fuel) (b := b) hks
    refine ⟨k, p, un, hsh, fun tx hw he hj => ?_⟩
    obtain ⟨L, hL⟩ := hcmp tx idx hw he hi hj
    exact ⟨L, compared_mono hL fun _ => hst⟩
  · dsimp only at hr hps
    subst hr
    obtain ⟨k, un, hsh, hcmp⟩ := policy_compared (fuel := fuel) (b := b) hps
    refine ⟨k, p, un, hsh, fun tx hw he hj => ?_⟩
    obtain ⟨L, hL⟩ := hcmp tx idx hw he hi hj
    exact ⟨L, compared_mono hL fun _ => hst⟩
  · dsimp only at hr hs
    subst hr
    obtain ⟨p, un, hsh, hcmp⟩ := redeem_compared (fuel := fuel) (t0 := T idx) True hi hs
    exact ⟨_, p, un, hsh, hcmp⟩
  · dsimp only at hr hs
    subst hr
    obtain ⟨p, un, hsh, hcmp⟩ := pushes_compared (fuel := fuel) (t0 := T idx) True hi hs
    exact ⟨_, p, un, hsh, hcmp⟩

/-- **C128 (partial).** Full statement: for coins of every kind, and with "if and only if". Proved: a transaction on the wire that spends P2SH coins by
any redeem scripts made of the opcodes that the library knows, and P2PKH coins, under the rules of `StandardP2SH` and `StandardP2PKH`, is accepted
when each coin is given with its redeem script. The converse is false (C111_forged, C124_negation_p2sh). -/
theorem C128_standard_partial (fuel : ℕ) (b : BTx) (coins : List (TxOut × Option Bytes)) (h : Sizes b) (hn : coins.length = b.ins.length)
    (hk : ∀ (idx : ℕ) i c, b.ins[idx]? = some i → coins[idx]? = some c →
      (∃ redeem, c.2 = some redeem ∧ StandardP2SH b idx i c.1 redeem) ∨ (c.2 = none ∧ StandardP2PKH b idx i c.1)) :
    verdictWith fuel b coins = .ok () := by
  refine (C128_any_partial fuel (fun _ => 1) (fun _ => Covers.refl 1) b coins h hn fun idx i c hi hc => Or.inr (hk idx i c hi hc)).mpr
    ⟨by rw [List.length_map, hn], fun idx coin hc' => ?_⟩
  rw [List.getElem?_map] at hc'
  cases hc : coins[idx]? with
  | none => rw [hc] at hc'; cases hc'
  | some c =>
    rw [hc] at hc'
    cases hc'
    obtain ⟨i, hi⟩ : ∃ i, b.ins[idx]? = some i := by
      refine ⟨_, List.getElem?_eq_getElem (l := b.ins) (i := idx) ?_⟩
      rw [← hn]
      by_contra hlt
      rw [List.getElem?_eq_none (by omega)] at hc
      cases hc
    rcases hk idx i c hi hc with ⟨redeem, _, hs⟩ | ⟨_, hs⟩
    · exact C128_standard_valid b idx i hi c.1 redeem hs
    · exact C128_standard_valid_key b idx i hi c.1 hs

end

/-! ### A concrete case: a hash lock in one branch of a condition -/

/-- An unlocking script that only pushes leaves on top what is pushed last. -/
theorem push_top {R : Rules} {hash : Bytes → Bytes} {c : Bytes → Bytes → Option Bool} {t : Token} (ht : t.op.toNat ≤ 0x4e) :
    ∀ {ts : List Token} {s : Bitcoin.Stack} {n : ℕ} {z : Bitcoin.State}, (∀ t ∈ ts, t.op.toNat ≤ 0x60) →
      Eval R hash c (ts ++ [t]) ⟨s, [], n⟩ z → z.stack.head? = some t.data := by
  intro ts
  induction ts with
  | nil =>
    intro s n z _ h
    cases h with
    | cons _ _ _ _ _ s' e' k _ ha _ h =>
      cases h
      cases ha with
      | run _ _ _ _ _ _ _ ho =>
        cases ho with
        | push => rfl
        | num _ _ h1 _ => omega
        | _ => exact absurd ht (by simp)
      | skip _ _ _ _ hb => obtain ⟨_, hb, _⟩ := hb; cases hb
      | ifSkipped _ _ _ _ hb => obtain ⟨_, hb, _⟩ := hb; cases hb
      | _ => exact absurd ht (by simp)
  | cons a ts ih =>
    intro s n z hts h
    have hta := hts a List.mem_cons_self
    cases h with
    | cons _ _ _ _ _ s' e' k _ ha _ h =>
      cases ha with
      | run _ _ _ _ _ _ _ ho => exact ih (fun x hx => hts x (List.mem_cons_of_mem _ hx)) h
      | skip _ _ _ _ hb => obtain ⟨_, hb, _⟩ := hb; cases hb
      | ifSkipped _ _ _ _ hb => obtain ⟨_, hb, _⟩ := hb; cases hb
      | _ => exact absurd hta (by simp)

section
variable [Hashes]

/-- IF HASH160 `hash` EQUAL ELSE 0 ENDIF -/
def condLock (text : Bytes) : List Token :=
  [⟨0x63, []⟩, ⟨0xa9, []⟩, ⟨0x14, hash160 text⟩, ⟨0x87, []⟩, ⟨0x67, []⟩, ⟨0x00, []⟩, ⟨0x68, []⟩]

/-- A transaction that spends the P2SH coin of this script by the text 1, 2, 3 and the first branch. -/
def opensCond : BTx :=
  ⟨2, [⟨List.replicate 32 9, 0, encTokens [⟨3, [1, 2, 3]⟩, ⟨0x51, []⟩, ⟨27, encTokens (condLock [1, 2, 3])⟩], 0xffffffff, []⟩],
    [⟨4000, standardScript .p2pkh (List.replicate 20 3)⟩], 0⟩

/-- The hypotheses of `C128_standard_partial` can be met. -/
example (v : UInt64) : ∃ i, opensCond.ins[0]? = some i ∧
    StandardP2SH opensCond 0 i ⟨v, [0xa9, 0x14] ++ hash160 (encTokens (condLock [1, 2, 3])) ++ [0x87]⟩ (encTokens (condLock [1, 2, 3])) := by
  have hlen : (encTokens (condLock [1, 2, 3])).length = 27 := by
    simp [condLock, encTokens, Token.enc, lenWidth, leBytes, hash160_length]
  have hval : ∀ t ∈ condLock [1, 2, 3], t.Valid := by
    intro t ht
    simp only [condLock, List.mem_cons, List.not_mem_nil, or_false] at ht
    rcases ht with rfl | rfl | rfl | rfl | rfl | rfl | rfl
    · exact ⟨by decide, by decide⟩
    · exact ⟨by decide, by decide⟩
    · exact ⟨by simp only; decide, by simp only; rw [if_pos (by decide), hash160_length]; rfl⟩
    · exact ⟨by decide, by decide⟩
    · exact ⟨by decide, by decide⟩
    · exact ⟨by decide, by decide⟩
    · exact ⟨by decide, by decide⟩
  refine ⟨_, rfl, rfl, [⟨3, [1, 2, 3]⟩, ⟨0x51, []⟩, ⟨27, encTokens (condLock [1, 2, 3])⟩], _, ?_, rfl, hash160_length _, rfl,
    ⟨[encTokens (condLock [1, 2, 3]), [1], [1, 2, 3]], [1], [[1], [1, 2, 3]], ⟨?_, 0, ?_⟩, ⟨?_, 2, ?_⟩, ?_, ?_⟩, ?_⟩
  · intro t ht
    simp only [List.mem_cons, List.not_mem_nil, or_false] at ht
    rcases ht with rfl | rfl | rfl
    · exact ⟨by decide, by decide⟩
    · exact ⟨by decide, by decide⟩
    · exact ⟨by simp only; decide, by simp only; rw [if_pos (by decide), hlen]; rfl⟩
  · intro _
    simp [encTokens, Token.enc, lenWidth, leBytes, condLock, hash160_length]
  · refine .cons _ _ _ _ _ _ _ 0 _ (.run _ _ _ _ _ (by decide) (by simp) (.push _ _ (by decide))) (fun _ => ⟨by simp, by simp, by simp⟩) ?_
    refine .cons _ _ _ _ _ _ _ 0 _ (.run _ _ _ _ _ (by decide) (by simp) (.num _ _ (by decide) (by decide)))
      (fun _ => ⟨by simp, by simp, by simp⟩) ?_
    exact .cons _ _ _ _ _ _ _ 0 _ (.run _ _ _ _ _ (by decide : ¬ Bitcoin.isCond 27) (by simp) (.push _ _ (by decide : (27 : UInt8).toNat ≤ 0x4e)))
      (fun _ => ⟨by simp only [hlen]; omega, by simp, by simp⟩) (.nil _)
  · intro _
    simp [encTokens, Token.enc, lenWidth, leBytes, hash160_length]
  · refine .cons _ _ _ _ _ _ _ 0 _ (.run _ _ _ _ _ (by decide) (by simp) (.hash _ _ _)) (fun _ => ⟨by simp, by simp, by simp⟩) ?_
    refine .cons _ _ _ _ _ _ _ 0 _ (.run _ _ _ _ _ (by decide : ¬ Bitcoin.isCond 0x14) (by simp) (.push _ _ (by decide : (0x14 : UInt8).toNat ≤ 0x4e)))
      (fun _ => ⟨by simp [hash160_length], by simp, by simp⟩) ?_
    refine .cons _ _ _ _ _ [[1], [1], [1, 2, 3]] _ 0 _ (.run _ _ _ _ _ (by decide) (by simp) ?_) (fun _ => ⟨by simp, by simp, by simp⟩) (.nil _)
    have h := Bitcoin.Op.equal (R := Bitcoin.standard) (hash160 := hash160) (check := Bitcoin.allCheck opensCond 0
      [⟨0xa9, []⟩, ⟨0x14, hash160 (encTokens (condLock [1, 2, 3]))⟩, ⟨0x87, []⟩]) [] (hash160 (encTokens (condLock [1, 2, 3])))
      (hash160 (encTokens (condLock [1, 2, 3]))) [[1], [1, 2, 3]]
    rw [decide_eq_true rfl] at h
    exact h
  · exact Or.inr ⟨1, rfl, by decide, by decide⟩
  · intro _
    refine ⟨?_, condLock [1, 2, 3], [[1], [1, 2, 3]], [1], [], hval, rfl, ?_, ⟨?_, 5, ?_⟩, Or.inr ⟨1, rfl, by decide, by decide⟩⟩
    · intro t ht
      simp only [List.mem_cons, List.not_mem_nil, or_false] at ht
      rcases ht with rfl | rfl | rfl
      · decide
      · decide
      · exact (by decide : (27 : UInt8).toNat ≤ 0x60)
    · rintro ⟨w, q, hw, hq2, hq40, hv⟩
      have h0 := congrArg (fun l : Bytes => l[0]?) hw
      rcases hv with rfl | ⟨n, rfl, hn1, hn2⟩
      · simp [condLock, encTokens, Token.enc] at h0
      · simp [condLock, encTokens, Token.enc] at h0
        subst h0
        exact absurd hn2 (by decide)
    · intro _
      rw [hlen]
      omega
    · unfold condLock
      refine .cons _ _ _ _ _ [[1, 2, 3]] _ 0 _ (.ifTrue _ _ _ _ (by simp) (fun _ => Or.inr rfl) (Or.inr ⟨1, rfl, by decide, by decide⟩))
        (fun _ => ⟨by simp, by simp, by simp⟩) ?_
      refine .cons _ _ _ _ _ _ _ 0 _ (.run _ _ _ _ _ (by decide) (by simp) (.hash _ _ _)) (fun _ => ⟨by simp, by simp, by simp⟩) ?_
      refine .cons _ _ _ _ _ _ _ 0 _ (.run _ _ _ _ _ (by decide : ¬ Bitcoin.isCond 0x14) (by simp) (.push _ _ (by decide : (0x14 : UInt8).toNat ≤ 0x4e)))
        (fun _ => ⟨by simp [hash160_length], by simp, by simp⟩) ?_
      refine .cons _ _ _ _ _ [[1]] _ 0 _ (.run _ _ _ _ _ (by decide) (by simp) ?_) (fun _ => ⟨by simp, by simp, by simp⟩) ?_
      · have h := Bitcoin.Op.equal (R := Bitcoin.standard) (hash160 := hash160) (check := Bitcoin.allCheck opensCond 0 (condLock [1, 2, 3])) []
          (hash160 [1, 2, 3]) (hash160 [1, 2, 3]) []
        rw [decide_eq_true rfl] at h
        exact h
      · refine .cons _ _ _ _ _ _ _ 0 _ (.els _ _ _ _) (fun _ => ⟨by simp, by simp, by simp⟩) ?_
        refine .cons _ _ _ _ _ _ _ 0 _ (.skip _ _ _ (by decide) ⟨false, by simp, rfl⟩) (fun _ => ⟨by simp, by simp, by simp⟩) ?_
        exact .cons _ _ _ _ _ _ _ 0 _ (.endif _ _ _ _) (fun _ => ⟨by simp, by simp, by simp⟩) (.nil _)
  · rintro s ⟨_, n, h⟩
    exact push_top (t := ⟨27, encTokens (condLock [1, 2, 3])⟩) (ts := [⟨3, [1, 2, 3]⟩, ⟨0x51, []⟩]) (by decide : (27 : UInt8).toNat ≤ 0x4e)
      (by intro t ht; simp only [List.mem_cons, List.not_mem_nil, or_false] at ht; rcases ht with rfl | rfl <;> decide) h

end

section
attribute [local instance] Sha.realHashes

/-- The same coin with the real hashes: the library accepts. -/
example : verdictWith 4 opensCond [(⟨5000, [0xa9, 0x14] ++ hash160 (encTokens (condLock [1, 2, 3])) ++ [0x87]⟩,
    some (encTokens (condLock [1, 2, 3])))] = .ok () := by decide +kernel

end

end Toku.Props
