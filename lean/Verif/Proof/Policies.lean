import Verif.Proof.Receives
/-
An m-of-n script of at most 16 keys: when the engine of the library runs it successfully on a list of signatures, and when Bitcoin does.
-/
namespace Toku.Props
open Toku Toku.Spec Toku.Script Toku.Locking Toku.Tx Toku.Curve Toku.Keys Toku.VM
open Toku.Spec.Bitcoin (In BTx Rules Multi Bip66 checkSig legacyCheck legacyHash IsWitnessProgram IsP2SH ValidInput consensus VerifyLegacy
  VerifyP2WSH EvalScript Eval ofBool isCond Truthy NumIn)

/-- A push of 2 to 520 bytes. -/
def pushOf (d : Bytes) : Bytes :=
  if d.length ≤ 75 then UInt8.ofNat d.length :: d
  else if d.length ≤ 255 then 0x4c :: UInt8.ofNat d.length :: d
  else 0x4d :: UInt8.ofNat (d.length % 256) :: UInt8.ofNat (d.length / 256) :: d

/-- The script for `m` of at most 16 keys: OP_m, the keys, OP_n, OP_CHECKMULTISIG. -/
def policyScript (m : ℕ) (keys : List Bytes) : Bytes :=
  UInt8.ofNat (0x50 + m) :: keys.flatMap (fun k => UInt8.ofNat k.length :: k) ++ [UInt8.ofNat (0x50 + keys.length), 0xae]

theorem pushOf_enc {d : Bytes} (h2 : 2 ≤ d.length) (h : d.length ≤ 520) : (pushToken d).enc = pushOf d := by
  unfold pushOf
  split
  · rename_i h75
    rw [(pushToken_direct h2 h75).1]
    rfl
  · unfold pushToken
    rw [if_neg (by omega), if_neg (by omega), if_neg (by omega), if_neg (by omega), if_neg (by omega)]
    split
    · rename_i h255
      have : d.length % 256 = d.length := by omega
      simp [Token.enc, lenWidth, leBytes, this]
    · rw [if_pos (by omega)]
      have : d.length / 256 % 256 = d.length / 256 := by omega
      simp [Token.enc, lenWidth, leBytes, this]

private theorem smallOp_eq {n : ℕ} (h1 : 1 ≤ n) (h : n ≤ 16) : smallOp n = UInt8.ofNat (0x50 + n) := by
  unfold smallOp
  rw [if_neg (by omega)]
  interval_cases n <;> rfl

/-- Sizes of an m-of-n script of at most 16 keys. -/
structure PolicySizes (m : ℕ) (keys : List Bytes) : Prop where
  pos : 1 ≤ m
  le : m ≤ keys.length
  max : keys.length ≤ 16
  key : ∀ k ∈ keys, k.length = 33 ∨ k.length = 65

section
variable {m : ℕ} {keys : List Bytes}

theorem PolicySizes.key65 (h : PolicySizes m keys) : ∀ k ∈ keys, 33 ≤ k.length ∧ k.length ≤ 65 := by
  intro k hk
  have := h.key k hk
  omega

/-- It is what `genMultiSig` makes. -/
theorem genMultiSig_policy (h : PolicySizes m keys) : genMultiSig m keys = .ok (policyScript m keys) := by
  rw [genMultiSig_small h.le h.max (fun k hk => by have := h.key k hk; omega)]
  have e : encTokens (keys.map pushToken) = keys.flatMap (fun k => UInt8.ofNat k.length :: k) := by
    have : ∀ l : List Bytes, (∀ k ∈ l, 33 ≤ k.length ∧ k.length ≤ 65) →
        encTokens (l.map pushToken) = l.flatMap (fun k => UInt8.ofNat k.length :: k) := by
      intro l hl
      induction l with
      | nil => rfl
      | cons a l ih =>
        rw [List.map_cons, List.flatMap_cons, ← ih fun k hk => hl k (List.mem_cons_of_mem _ hk)]
        have := hl a List.mem_cons_self
        rw [encTokens, List.flatMap_cons, (pushToken_direct (d := a) (by omega) (by omega)).1]
        rfl
    exact this keys h.key65
  have sm : ∀ n, 1 ≤ n → n ≤ 16 → Token.enc ⟨smallOp n, []⟩ = [UInt8.ofNat (0x50 + n)] := by
    intro n h1 h2
    rw [smallOp_eq h1 h2]
    interval_cases n <;> rfl
  congr 1
  have split3 : encTokens (⟨smallOp m, []⟩ :: keys.map pushToken ++ [⟨smallOp keys.length, []⟩, ⟨0xae, []⟩]) =
      Token.enc ⟨smallOp m, []⟩ ++ encTokens (keys.map pushToken) ++ (Token.enc ⟨smallOp keys.length, []⟩ ++ [0xae]) := by
    simp [encTokens, Token.enc, lenWidth, leBytes]
  have := h.pos
  have := h.le
  have := h.max
  rw [split3, e, sm m (by omega) (by omega), sm keys.length (by omega) (by omega)]
  simp [policyScript]

/-- Its tokens. -/
theorem policy_tokens (h : PolicySizes m keys) : ∃ tm ks tn, policyScript m keys = encTokens (tm :: ks ++ [tn, ⟨0xae, []⟩]) ∧
    (∀ t ∈ tm :: ks ++ [tn], IsPush t) ∧ ScriptNum.make (pushValue tm) 4 = .ok (m : Int) ∧
    ScriptNum.make (pushValue tn) 4 = .ok (keys.length : Int) ∧ ks.map pushValue = keys ∧
    (∀ t ∈ tm :: ks ++ [tn, ⟨0xae, []⟩], t.Valid) ∧ 37 ≤ (policyScript m keys).length ∧ (policyScript m keys).length ≤ 1330 := by
  have hm := h.max
  obtain ⟨r0, tm, ks, tn, hr0, hse, hp, hd, v1, v2, hkeys, hv, hrl, hru⟩ := policy h.le (by omega) h.key65
  rw [genMultiSig_policy h] at hr0
  cases hr0
  refine ⟨tm, ks, tn, hse, hp, v1, v2, hkeys, hv, ?_, by omega⟩
  have hne : 1 ≤ keys.length := by have := h.pos; have := h.le; omega
  unfold policyScript
  cases hk : keys with
  | nil => rw [hk] at hne; simp at hne
  | cons a l =>
    have := h.key65 a (by rw [hk]; simp)
    simp only [List.flatMap_cons, List.length_append, List.length_cons, List.length_nil]
    omega

/-! ### The library -/

variable {sigs : List Bytes}

/-- The unlocking script of signatures for the script. -/
theorem policy_pushes (h : PolicySizes m keys) (hsig : ∀ s ∈ sigs, 2 ≤ s.length ∧ s.length ≤ 75) :
    (∀ t ∈ ([] :: sigs).map pushToken ++ [pushToken (policyScript m keys)], IsPush t) ∧
    (([] :: sigs).map pushToken).map pushValue = [] :: sigs ∧ pushValue (pushToken (policyScript m keys)) = policyScript m keys ∧
    (addData (([] :: sigs).foldl addData Buffer.new) (policyScript m keys)).data =
      encTokens (([] :: sigs).map pushToken ++ [pushToken (policyScript m keys)]) := by
  obtain ⟨_, _, _, _, _, _, _, _, _, hr1, hr2⟩ := policy_tokens h
  have r0 : policyScript m keys ≠ [0x00] := fun e => by rw [e] at hr1; simp at hr1
  have r81 : policyScript m keys ≠ [0x81] := fun e => by rw [e] at hr1; simp at hr1
  have big : ∀ s ∈ [] :: sigs, s.length < 2^32 ∧ s ≠ [0x00] ∧ s ≠ [0x81] := by
    intro s hm
    rcases List.mem_cons.mp hm with rfl | hm
    · simp
    · have := hsig s hm
      refine ⟨by omega, ?_, ?_⟩ <;> (rintro rfl; simp at this)
  refine ⟨?_, ?_, pushToken_value r0 r81, ?_⟩
  · intro t ht
    rcases List.mem_append.mp ht with ht | ht
    · obtain ⟨s, hs, rfl⟩ := List.mem_map.mp ht
      exact pushToken_isPush (big s hs).1 (big s hs).2.2
    · rw [List.mem_singleton.mp ht]
      exact pushToken_isPush (by omega) r81
  · rw [List.map_map]
    conv => rhs; rw [← List.map_id ([] :: sigs)]
    exact List.map_congr_left fun s hs => pushToken_value (big s hs).2.1 (big s hs).2.2
  · rw [VM.addData_data _ _ (by omega), foldl_addData _ (fun s hs => (big s hs).1)]
    simp [encTokens, Buffer.new]

theorem policy_pushes_length [Hashes] (h : PolicySizes m keys) (hsl : sigs.length = m) (hsig : ∀ s ∈ sigs, 2 ≤ s.length ∧ s.length ≤ 75) :
    (encTokens (([] :: sigs).map pushToken ++ [pushToken (policyScript m keys)])).length ≤ 2700 := by
  obtain ⟨_, _, _, _, _, _, _, _, _, hr1, hr2⟩ := policy_tokens h
  have a := encTokens_push_le ([] :: sigs) (fun d hd => by
    rcases List.mem_cons.mp hd with rfl | hd
    · simp
    · exact (hsig d hd).2)
  have b := pushToken_enc_le (policyScript m keys)
  have e : (encTokens (([] :: sigs).map pushToken ++ [pushToken (policyScript m keys)])).length =
      (encTokens (([] :: sigs).map pushToken)).length + (pushToken (policyScript m keys)).enc.length := by
    simp [encTokens]; omega
  have := h.le
  have := h.max
  rw [List.length_cons, hsl] at a
  omega

/-- The engine on such an unlocking script and a P2SH script. -/
theorem policy_verify [Hashes] (env : Env) (h : PolicySizes m keys) (hsl : sigs.length = m) (hsig : ∀ s ∈ sigs, 2 ≤ s.length ∧ s.length ≤ 75)
    (ho : Oracles env sigs keys) {p : Bytes} (hp : p.length = 20) :
    ((∃ vm, verify env (encTokens (([] :: sigs).map pushToken ++ [pushToken (policyScript m keys)])) (lockP2SH p) fresh = .ok vm) ↔
      env.hash160 (policyScript m keys) = p ∧ Matching (SigOk env) sigs keys) ∧
    verify env (encTokens (([] :: sigs).map pushToken ++ [pushToken (policyScript m keys)])) (lockP2SH p) fresh ≠ .panic := by
  obtain ⟨h1, h2, h3, _⟩ := policy_pushes h hsig
  have hlen := policy_pushes_length h hsl hsig
  obtain ⟨_, _, _, _, _, _, _, _, _, hr1, hr2⟩ := policy_tokens h
  have hx := h.pos
  have hy := h.max
  have hlk : (lockP2SH p).length = 23 := by simp [lockP2SH, hp]
  rw [p2sh_verify env hp h1 (by rw [List.length_append]; omega), h2, h3]
  obtain ⟨b, hb, hiff⟩ := C30_enforces env m keys sigs ho h.le (by omega) (fun k hk => by
      have := h.key k hk
      refine ⟨by omega, ?_, ?_⟩ <;> (rintro rfl; simp at this)) _ (genMultiSig_policy h) (by omega) hsl
    (fun s hs e => by have := hsig s hs; rw [e] at this; simp at this) [] []
  by_cases hh : env.hash160 (policyScript m keys) = p
  · rw [if_pos hh, if_neg (by simp only [List.length_map, List.length_cons]; omega)]
    have hex : execute env (policyScript m keys) true ⟨([] :: sigs).reverse, []⟩ = if b then .ok ⟨[], []⟩ else .err errExec := by
      have e2 : ([] :: sigs).reverse = sigs.reverse ++ [] :: [] := by simp
      rw [e2]
      unfold execute at hb ⊢
      rw [Res.bind_eq_ok] at hb
      obtain ⟨vm, h5, h6⟩ := hb
      rw [h5, Res.ok_bind]
      rw [if_neg (by simp)] at h6
      cases h6
      cases b <;> rfl
    rw [hex]
    cases b with
    | true => exact ⟨⟨fun _ => ⟨hh, hiff.mp rfl⟩, fun _ => ⟨_, rfl⟩⟩, by simp⟩
    | false =>
      refine ⟨⟨?_, fun ⟨_, hm⟩ => ?_⟩, by simp⟩
      · rintro ⟨vm, e⟩; cases e
      · exact absurd (hiff.mpr hm) (by simp)
  · rw [if_neg hh]
    refine ⟨⟨?_, fun ⟨e, _⟩ => absurd e hh⟩, by simp⟩
    rintro ⟨vm, e⟩; cases e

/-! ### Bitcoin -/

/-- CHECKMULTISIG succeeds only if the signatures match keys in order. -/
theorem matching_of_multi {R : Rules} {check : Bytes → Bytes → Option Bool} {S K : List Bytes} {b : Bool} (h : Multi R check S K b) :
    b = true → Matching (fun s k => check s k = some true) S K := by
  induction h with
  | done keys => intro _; exact ⟨[], List.nil_sublist _, .nil⟩
  | few => intro h; cases h
  | hit sig sigs key keys b _ _ hc _ ih =>
    intro hb
    obtain ⟨c, h1, h2⟩ := ih hb
    exact ⟨key :: c, h1.cons_cons _, .cons hc h2⟩
  | miss sig sigs key keys b _ _ _ _ ih =>
    intro hb
    obtain ⟨c, h1, h2⟩ := ih hb
    exact ⟨c, h1.cons _, h2⟩

private theorem numIn_consensus {x : Bytes} {n k : ℕ} (h1 : ScriptNum.make x 4 = .ok (n : Int)) (h2 : NumIn consensus x (k : Int)) : n = k := by
  have := ((VM.make_iff _ _).mp h1).2.2
  have := h2.2.2
  omega

/-- What the script asks of the signatures. -/
theorem policy_needs (h : PolicySizes m keys) (hsl : sigs.length = m) {hash : Bytes → Bytes} {check : Bytes → Bytes → Option Bool}
    {rts : List Token} (hv : ∀ t ∈ rts, t.Valid) (he : encTokens rts = policyScript m keys) {s : List Bytes} {y dummy : Bytes}
    (hev : EvalScript consensus hash check rts (sigs.reverse ++ [dummy]) (y :: s)) (hy : Truthy y) :
    dummy = [] ∧ Matching (fun s k => check s k = some true) sigs keys := by
  obtain ⟨tm, ks, tn, hse, hp, v1, v2, hkeys, hv', hr1, hr2⟩ := policy_tokens h
  have : rts = tm :: ks ++ [tn, ⟨0xae, []⟩] := tokens_unique hv hv' (by rw [he]; omega) (by rw [he, hse])
  subst this
  obtain ⟨_, n, hev⟩ := hev
  have hsplit : tm :: ks ++ [tn, ⟨0xae, []⟩] = (tm :: ks ++ [tn]) ++ [⟨0xae, []⟩] := by simp
  rw [hsplit] at hev
  obtain ⟨⟨s1, e1, n1⟩, hev1, hev2⟩ := eval_split hev
  have := eval_pushes_inv _ _ _ _ hp hev1
  cases this
  obtain ⟨s', k, o, _, hev3⟩ := eval_op (show ¬ isCond 0xae by decide) hev2
  have e := congrArg Bitcoin.State.stack (eval_nil hev3)
  dsimp only at e
  obtain ⟨x, K, z, S, d, r, b, hs, n1, n2, _, _, hd, hm, hs', _⟩ := op_multi o rfl
  have hst : ((tm :: ks ++ [tn]).map pushValue).reverse ++ (sigs.reverse ++ [dummy]) =
      pushValue tn :: (keys.reverse ++ pushValue tm :: (sigs.reverse ++ [dummy])) := by
    simp [← hkeys]
  rw [hst] at hs
  obtain ⟨rfl, hs1⟩ := List.cons.inj hs
  have hK : keys.length = K.length := numIn_consensus v2 n1
  obtain ⟨rfl, hs2⟩ := List.append_inj hs1 ((List.length_reverse ..).trans hK)
  obtain ⟨rfl, hs3⟩ := List.cons.inj hs2
  have hS : m = S.length := numIn_consensus v1 n2
  obtain ⟨rfl, hs4⟩ := List.append_inj hs3 ((List.length_reverse ..).trans (hsl.trans hS))
  have hb : b = true := by
    cases b with
    | true => rfl
    | false =>
      rw [hs'] at e
      rw [(List.cons.inj e).1] at hy
      exact absurd hy truthy_nil
  exact ⟨(List.cons.inj hs4).1.trans (hd rfl), VM.matching_reverse.mp (matching_of_multi hm hb)⟩

end

section
variable [Hashes] {m : ℕ} {keys sigs : List Bytes}

omit [Hashes] in
/-- The unlocking script on the wire. -/
theorem policy_wire (h : PolicySizes m keys) (hsig : ∀ s ∈ sigs, 2 ≤ s.length ∧ s.length ≤ 75) (h520 : (policyScript m keys).length ≤ 520) :
    encTokens (([] :: sigs).map pushToken ++ [pushToken (policyScript m keys)]) =
      0 :: sigs.flatMap pushOf ++ pushOf (policyScript m keys) := by
  obtain ⟨_, _, _, _, _, _, _, _, _, hr1, _⟩ := policy_tokens h
  have e : ∀ l : List Bytes, (∀ s ∈ l, 2 ≤ s.length ∧ s.length ≤ 75) → encTokens (l.map pushToken) = l.flatMap pushOf := by
    intro l hl
    induction l with
    | nil => rfl
    | cons a l ih =>
      have := hl a List.mem_cons_self
      rw [List.map_cons, List.flatMap_cons, ← ih fun k hk => hl k (List.mem_cons_of_mem _ hk), ← pushOf_enc (by omega) (by omega)]
      rfl
  rw [← e sigs hsig, ← pushOf_enc (by omega) h520]
  simp [encTokens]
  rfl

/-- What a P2SH coin asks of an unlocking script of signatures and an m-of-n script. -/
theorem p2sh_needs (h : PolicySizes m keys) (hsl : sigs.length = m) (hsig : ∀ s ∈ sigs, 2 ≤ s.length ∧ s.length ≤ 75)
    (h520 : (policyScript m keys).length ≤ 520) {tx : BTx} {idx : ℕ} {i : In} {v : UInt64} {p : Bytes} (hp : p.length = 20)
    (hi : tx.ins[idx]? = some i) (he : i.scriptSig = 0 :: sigs.flatMap pushOf ++ pushOf (policyScript m keys))
    (hval : ValidInput tx idx ⟨v, standardScript .p2sh p⟩) :
    hash160 (policyScript m keys) = p ∧
      Matching (fun s k => checkSig (legacyHash tx idx (policyScript m keys)) s k = some true) sigs keys := by
  obtain ⟨j, hj, hval⟩ := hval
  rw [hi] at hj
  cases hj
  obtain ⟨g1, g2, g3, _⟩ := policy_pushes h hsig
  have hlen := policy_pushes_length h hsl hsig
  rcases hval with ⟨_, _, u, l, hv, hu, hl, s1, x, s2, h1, h2, hx, h3⟩ | ⟨q, _, e, _⟩ | ⟨q, _, _, e, _⟩
  · have hl' : l = standardTokens .p2sh p := by
      refine tokens_unique (fun t ht => hv t (List.mem_append_right _ ht)) (standard_valid hp) ?_ ?_
      · rw [← hl]; exact standard_short .p2sh p hp
      · rw [← hl, standard_enc]
    subst hl'
    have hu' : u = ([] :: sigs).map pushToken ++ [pushToken (policyScript m keys)] := by
      refine tokens_unique (fun t ht => hv t (List.mem_append_left _ ht)) (fun t ht => (g1 t ht).1) ?_ ?_
      · rw [← hu, he, ← policy_wire h hsig h520]; omega
      · rw [← hu, he, policy_wire h hsig h520]
    subst hu'
    obtain ⟨_, n, h1⟩ := h1
    have hs1 := congrArg Bitcoin.State.stack (eval_pushes_inv _ _ _ _ g1 h1)
    rw [List.map_append, g2, List.map_singleton, g3] at hs1
    have hs1' : s1 = policyScript m keys :: (sigs.reverse ++ [[]]) := by
      dsimp only at hs1
      rw [hs1]
      simp
    obtain ⟨_, rts, s3, y, s4, hrv, e, _, hev, hy⟩ := h3 ⟨p, hp, rfl⟩
    rw [hs1'] at e
    obtain ⟨e1, e2⟩ := List.cons.inj e
    subst e2
    refine ⟨?_, ?_⟩
    · obtain ⟨_, n, h2⟩ := h2
      unfold standardTokens at h2
      obtain ⟨_, _, o1, _, h2⟩ := eval_op (show ¬ isCond 0xa9 by decide) h2
      obtain ⟨_, _, o2, _, h2⟩ := eval_op (show ¬ isCond 0x14 by decide) h2
      obtain ⟨_, _, o3, _, h2⟩ := eval_op (show ¬ isCond 0x87 by decide) h2
      have e3 := congrArg Bitcoin.State.stack (eval_nil h2)
      obtain ⟨a, r, q1, rfl, _⟩ := op_hash o1 rfl
      obtain ⟨rfl, _⟩ := op_push o2 (show (0x14 : UInt8).toNat ≤ 0x4e by decide)
      obtain ⟨c, d, r', q2, q3, _⟩ := op_equal o3 rfl
      rw [hs1'] at q1
      obtain ⟨rfl, rfl⟩ := List.cons.inj q1
      obtain ⟨rfl, q2'⟩ := List.cons.inj q2
      obtain ⟨rfl, _⟩ := List.cons.inj q2'
      dsimp only at e3
      rw [q3] at e3
      by_contra hne
      rw [(List.cons.inj e3).1, decide_eq_false (fun e => hne e.symm)] at hx
      exact truthy_nil hx
    · obtain ⟨_, c, hc, hf⟩ := policy_needs h hsl hrv e1.symm hev hy
      refine ⟨c, hc, hf.imp fun s k hsk => ?_⟩
      unfold legacyCheck at hsk
      split at hsk
      · cases hsk
      · rw [← e1] at hsk
        exact hsk
  · simp [standardScript] at e
  · simp [standardScript] at e

/-- What a P2WSH coin asks of a witness of signatures and an m-of-n script. -/
theorem p2wsh_needs (h : PolicySizes m keys) (hsl : sigs.length = m) {tx : BTx} {idx : ℕ} {i : In} {v : UInt64} {p dummy : Bytes} (hp : p.length = 32)
    (hi : tx.ins[idx]? = some i) (hw : i.witness = dummy :: sigs ++ [policyScript m keys])
    (hval : ValidInput tx idx ⟨v, standardScript .p2wsh p⟩) :
    Hashes.sha256 (policyScript m keys) = p ∧ dummy = [] ∧
      Matching (fun s k => checkSig (Bitcoin.witnessHash tx idx i v (policyScript m keys)) s k = some true) sigs keys := by
  obtain ⟨j, hj, hval⟩ := hval
  rw [hi] at hj
  cases hj
  rcases hval with ⟨hn, _⟩ | ⟨q, hq, e, _⟩ | ⟨q, code, hq, e, hss, hlast, items, rts, x, hrv, hw', hsha, _, hev, hx⟩
  · exact absurd ⟨[0], p, by simp [standardScript, hp], by omega, by omega, Or.inl rfl⟩ hn
  · have := congrArg List.length e
    simp [standardScript, hp, hq] at this
  · have : p = q := by simpa [standardScript] using e
    subst this
    rw [hw, List.getLast?_concat] at hlast
    cases hlast
    rw [hw] at hw'
    obtain ⟨rfl, e2⟩ := List.append_inj' hw' rfl
    have e2 := (List.cons.inj e2).1
    refine ⟨by rw [e2]; exact hsha, ?_⟩
    rw [List.reverse_cons] at hev
    exact policy_needs h hsl hrv e2.symm hev hx

omit [Hashes] in
private theorem check_some {hash : UInt32 → Bytes} {s : Bytes} (hb : ∃ r x t, Bip66 s r x t) (k : Bytes) : checkSig hash s k ≠ none := by
  unfold checkSig
  split
  · simp
  · simp

omit [Hashes] in
private theorem bip66_length {s : Bytes} (hb : ∃ r x t, Bip66 s r x t) : s ≠ [] := by
  obtain ⟨r, x, t, e, _⟩ := hb
  rw [e]
  simp

omit [Hashes] in
/-- A signature that is none of the keys is not pushed by the script. -/
theorem not_in_script (h : PolicySizes m keys) {rts : List Token} (hv : ∀ t ∈ rts, t.Valid) (he : encTokens rts = policyScript m keys)
    {s : Bytes} (hs : 9 ≤ s.length ∧ s.length ≤ 75) (hn : s ∉ keys) : (⟨UInt8.ofNat s.length, s⟩ : Token) ∉ rts := by
  obtain ⟨tm, ks, tn, hse, hp, v1, v2, hkeys, hv', hr1, hr2⟩ := policy_tokens h
  have : rts = tm :: ks ++ [tn, ⟨0xae, []⟩] := tokens_unique hv hv' (by rw [he]; omega) (by rw [he, hse])
  subst this
  intro hm
  have hval : pushValue ⟨UInt8.ofNat s.length, s⟩ = s := by
    unfold pushValue
    have e : (UInt8.ofNat s.length).toNat = s.length := by rw [UInt8.toNat_ofNat']; omega
    rw [e, if_neg (by omega), if_pos (by omega)]
  have hnum : ∀ (t : Token) (n : Int), ScriptNum.make (pushValue t) 4 = .ok n → t ≠ ⟨UInt8.ofNat s.length, s⟩ := by
    rintro t n h rfl
    rw [hval] at h
    have := ((VM.make_iff _ _).mp h).1
    omega
  rcases List.mem_append.mp hm with hm | hm
  · rcases List.mem_cons.mp hm with hm | hm
    · exact hnum tm _ v1 hm.symm
    · have hmem := List.mem_map_of_mem (f := pushValue) hm
      rw [hkeys, hval] at hmem
      exact hn hmem
  · rcases List.mem_cons.mp hm with hm | hm
    · exact hnum tn _ v2 hm.symm
    · have := congrArg Token.data (List.mem_singleton.mp hm)
      dsimp only at this
      rw [this] at hs
      simp at hs

omit [Hashes] in
theorem bip66_nine {s : Bytes} (hb : ∃ r x t, Bip66 s r x t) : 9 ≤ s.length := by
  obtain ⟨r, x, t, e, _, hr, hx⟩ := hb
  have h1 : 1 ≤ r.length := List.length_pos_iff.mpr hr.1
  have h2 : 1 ≤ x.length := List.length_pos_iff.mpr hx.1
  rw [e]
  simp only [List.length_append, List.length_cons, List.length_nil]
  omega

/-- A P2SH coin is spent by signatures and an m-of-n script. -/
theorem p2sh_spent (h : PolicySizes m keys) (hsl : sigs.length = m) (hsig : ∀ s ∈ sigs, 2 ≤ s.length ∧ s.length ≤ 75)
    (h520 : (policyScript m keys).length ≤ 520) {tx : BTx} {idx : ℕ} {i : In} {v : UInt64} {p : Bytes} (hp : p.length = 20)
    (hi : tx.ins[idx]? = some i) (hw : i.witness = []) (he : i.scriptSig = 0 :: sigs.flatMap pushOf ++ pushOf (policyScript m keys))
    (hb : ∀ s ∈ sigs, (∃ r x t, Bip66 s r x t) ∧ s ∉ keys) (hh : hash160 (policyScript m keys) = p)
    (hm : Matching (fun s k => checkSig (legacyHash tx idx (policyScript m keys)) s k = some true) sigs keys) :
    ValidInput tx idx ⟨v, standardScript .p2sh p⟩ := by
  subst hh
  obtain ⟨tm, ks, tn, hse, _, _, _, _, hv', hr1, hr2⟩ := policy_tokens h
  have hmx := h.max
  have hcheck : ∀ s ∈ sigs, ∀ k, legacyCheck tx idx (tm :: ks ++ [tn, ⟨0xae, []⟩]) s k = checkSig (legacyHash tx idx (policyScript m keys)) s k := by
    intro s hs k
    unfold legacyCheck
    rw [if_neg (not_in_script h hv' hse.symm ⟨bip66_nine (hb s hs).1, (hsig s hs).2⟩ (hb s hs).2), ← hse]
  have hsigs : (sigs.map fun s => (⟨[], s⟩ : PubKeySign)).map (·.signature) = sigs := by
    rw [List.map_map]
    exact List.map_id sigs
  have hmulti : Multi consensus (legacyCheck tx idx (tm :: ks ++ [tn, ⟨0xae, []⟩])) sigs.reverse keys.reverse true := by
    refine multi_of_check (fun s hs => bip66_length (hb s hs).1) (fun s hs k _ => ?_) ?_
    · rw [hcheck s hs]
      exact check_some (hb s hs).1 k
    · obtain ⟨c, hc, hf⟩ := hm
      refine ⟨c, hc, ?_⟩
      have : ∀ (l c : List Bytes), (∀ s ∈ l, s ∈ sigs) →
          List.Forall₂ (fun s k => checkSig (legacyHash tx idx (policyScript m keys)) s k = some true) l c →
          List.Forall₂ (fun s k => legacyCheck tx idx (tm :: ks ++ [tn, ⟨0xae, []⟩]) s k = some true) l c := by
        intro l c hl hf
        induction hf with
        | nil => exact .nil
        | cons a _ ih => exact .cons (by rw [hcheck _ (hl _ List.mem_cons_self)]; exact a) (ih fun s hs => hl s (List.mem_cons_of_mem _ hs))
      exact this _ _ (fun _ h => h) hf
  obtain ⟨u, rts', hv, hv2, he', _, h1, h2, h3, h4, h5⟩ := p2sh_spend (R := consensus) h.pos h.le (by omega) h.key65 (genMultiSig_policy h)
    (by omega) (fun _ => h520) (sigs.map fun s => (⟨[], s⟩ : PubKeySign)) (by rw [List.length_map, hsl]) (by
      intro g hg
      obtain ⟨s, hs, rfl⟩ := List.mem_map.mp hg
      exact hsig s hs) (by rw [hsigs]; exact hmulti)
  have ert : rts' = tm :: ks ++ [tn, ⟨0xae, []⟩] := tokens_unique hv2 hv' (by rw [← he']; omega) (by rw [← he', ← hse])
  subst ert
  have hlen2 : (tm :: ks ++ [tn, ⟨0xae, []⟩]).length ≠ 2 := by
    intro e
    simp at e
  refine ⟨i, hi, Or.inl ⟨?_, hw, u, standardTokens .p2sh (hash160 (policyScript m keys)), ?_, ?_, ?_, ?_⟩⟩
  · change ¬ IsWitnessProgram (standardScript .p2sh _)
    rw [← standard_enc]
    exact not_program (standard_valid hp) (by rw [standard_enc]; exact standard_short .p2sh _ hp) (by simp [standardTokens])
  · intro t ht
    rcases List.mem_append.mp ht with ht | ht
    · exact hv t ht
    · exact standard_valid hp t ht
  · obtain ⟨_, _, _, g4⟩ := policy_pushes h hsig
    rw [he, ← policy_wire h hsig h520, ← g4]
    have e := Res.ok.inj h1
    rw [← e]
    change _ = unlockScriptHash _ _
    unfold unlockScriptHash
    rw [if_pos (by rw [List.length_map, hsl]; exact h.pos)]
    dsimp only
    rw [Option.getD_some, List.foldl_map]
    rfl
  · rw [standard_enc]
  · refine ⟨_, _, _, h3 _, h4 _, truthy_one, fun _ => ⟨h2, _, _, _, _, hv2, by rw [he'], ?_, h5, truthy_one⟩⟩
    exact not_program hv2 (by rw [← he']; omega) hlen2

/-- A P2WSH coin is spent by signatures and an m-of-n script. -/
theorem p2wsh_spent (h : PolicySizes m keys) (hsl : sigs.length = m) (hsig : ∀ s ∈ sigs, 2 ≤ s.length ∧ s.length ≤ 75)
    {tx : BTx} {idx : ℕ} {i : In} {v : UInt64} {p : Bytes} (hp : p.length = 32)
    (hi : tx.ins[idx]? = some i) (hw : i.witness = [] :: sigs ++ [policyScript m keys]) (he : i.scriptSig = [])
    (hb : ∀ s ∈ sigs, ∃ r x t, Bip66 s r x t) (hh : Hashes.sha256 (policyScript m keys) = p)
    (hm : Matching (fun s k => checkSig (Bitcoin.witnessHash tx idx i v (policyScript m keys)) s k = some true) sigs keys) :
    ValidInput tx idx ⟨v, standardScript .p2wsh p⟩ := by
  subst hh
  have hmx := h.max
  have hsigs : (sigs.map fun s => (⟨[], s⟩ : PubKeySign)).map (·.signature) = sigs := by
    rw [List.map_map]
    exact List.map_id sigs
  have hmulti : Multi consensus (checkSig (Bitcoin.witnessHash tx idx i v (policyScript m keys))) sigs.reverse keys.reverse true :=
    multi_of_check (fun s hs => bip66_length (hb s hs)) (fun s hs k _ => check_some (hb s hs) k) hm
  obtain ⟨_, hv⟩ := p2wsh_spend h.pos h.le (by omega) h.key65 (genMultiSig_policy h)
    (sigs.map fun s => (⟨[], s⟩ : PubKeySign)) (by rw [List.length_map, hsl]) (by
      intro g hg
      obtain ⟨s, hs, rfl⟩ := List.mem_map.mp hg
      exact hsig s hs) (by rw [hsigs]; exact hmulti)
  rw [hsigs, ← hw] at hv
  exact ⟨i, hi, Or.inr (Or.inr ⟨_, policyScript m keys, hp, rfl, he, by rw [hw, List.getLast?_concat], hv⟩)⟩

end

end Toku.Props
